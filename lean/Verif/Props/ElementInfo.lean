import Verif.Proof.ElementInfo
import Verif.Props.Gather

/-!
# C84: listing elements and rows
-/

namespace Verif.Props

open Verif Verif.Subs Verif.ElementInfo Verif.Spec.Provider
open Verif.Element (Tree Path tTable tObject tProperty template)
open Verif.Spec.Rows (Usage Exact join)
open Verif.Spec.Gather (Proper)
open Verif.Spec.ElementInfo (wanted describe told tolds)
open Verif.Params (Fate CoreErr Comp coreToRbus)
open Verif.ElementInfoProof (Fit)

/-! ## A small world for the examples -/

/-- The table of `tableModel` with the rows 1 and 7. -/
private def iOps : List Rows.Op :=
  [.add "A.t.".toUTF8.data.toList none 0 1, .add "A.t.".toUTF8.data.toList (some [97]) 0 7]

private def iTree : Tree := ((rowsRunNow (declare tableModel) iOps).map (·.1)).getD Element.Tree.init

private theorem iUsage : ∃ h, Usage tableModel h iTree := by
  cases hr : rowsRunNow (declare tableModel) iOps with
  | none =>
    have : (rowsRunNow (declare tableModel) iOps).isSome = true := by decide +kernel
    rw [hr] at this; cases this
  | some x =>
    obtain ⟨T, h⟩ := x
    have hT : iTree = T := by simp [iTree, hr]
    exact ⟨h, hT ▸ usage_of_run tableModel_start hr⟩

private theorem iProper : Proper tableModel := by
  unfold Proper Spec.Rows.Exact; decide +kernel

private def iA : Comp := [97]
private def iB : Comp := [98]

/-- Both providers have the tree; nothing follows the bodies of messages. -/
private def iWorld (fates : List Fate) : World := ⟨fun _ => iTree, fates, fun _ => []⟩

/-- Only `a` has the tree. -/
private def iHalf (fates : List Fate) : World := ⟨fun c => if c = iA then iTree else Element.Tree.init, fates, fun _ => []⟩

/-! ## Which elements are listed -/

/-- A list has the element asked for and all elements below it, down to the given depth, or with a negative depth those at this
depth only; row templates are not among them. None comes twice. -/
theorem C84_wanted {D : List Decl} {h : List (Rows.Op × Rows.Out)} {T : Tree} (hu : Usage D h T) (hp : Proper D) {p : Path}
    (hpe : Exact p) (hex : Spec.Rows.seen T p ≠ none) (depth : Int) :
    (∀ q, q ∈ wanted (Spec.Rows.seen T) depth p ↔ ∃ r, q = p ++ r ∧ Exact r ∧ template ∉ r ∧ Spec.Rows.seen T q ≠ none ∧
      (0 ≤ depth → (r.length : Int) ≤ depth) ∧ (depth < 0 → (r.length : Int) = -depth)) ∧
    (wanted (Spec.Rows.seen T) depth p).Nodup := by
  have hg := RowsProof.usage_good hu
  have hs := GatherProof.usage_shape hp hu
  have hne : p ≠ [] := by rintro rfl; exact hex rfl
  cases hm : Subs.nodeOf p T.root with
  | none =>
    rw [RowsProof.seen_eq hg.neat hpe, if_neg hne, hm] at hex
    exact absurd rfl hex
  | some m =>
    refine ⟨fun q => ?_, ElementInfoProof.reach_nodup hg hs _ _ p m hne hm⟩
    have hnode : ∀ r, Subs.nodeOf (p ++ r) T.root = Subs.nodeOf r m := by
      intro r; rw [Subs.nodeOf_append, hm]; rfl
    rw [wanted, ElementInfoProof.reach_mem hg hs _ _ p m hne hm]
    constructor
    · rintro ⟨r, rfl, h1, h2, h3⟩
      obtain ⟨c, hc⟩ := Option.isSome_iff_exists.mp h2
      have hcm : Subs.nodeOf (p ++ r) T.root = some c := by rw [hnode, hc]
      have hex' := hs.exact hcm
      refine ⟨r, rfl, fun t ht => hex' t (by simp [ht]), h1, ?_, ?_, ?_⟩
      · rw [GatherProof.seen_node hg hs (by simp [hne]) hcm]; simp
      · intro hd
        simp only [hd, decide_true, if_true] at h3
        omega
      · intro hd
        rw [if_neg (by simp; omega)] at h3
        omega
    · rintro ⟨r, rfl, h1, h2, h3, h4, h5⟩
      refine ⟨r, rfl, h2, ?_, ?_⟩
      · rw [RowsProof.seen_eq hg.neat (RowsProof.exact_append.mpr ⟨hpe, h1⟩), if_neg (by simp [hne]), hnode] at h3
        cases hx : Subs.nodeOf r m with
        | none => rw [hx] at h3; exact absurd rfl h3
        | some c => rfl
      · by_cases hd : 0 ≤ depth
        · have := h4 hd
          simp only [hd, decide_true, if_true]
          omega
        · have := h5 (by omega)
          rw [if_neg (by simp; omega)]
          omega

/-- What is directly below the table. -/
example : wanted (Spec.Rows.seen iTree) (-1) ["A".toUTF8.data.toList, "t".toUTF8.data.toList] =
    [["A".toUTF8.data.toList, "t".toUTF8.data.toList, "1".toUTF8.data.toList],
     ["A".toUTF8.data.toList, "t".toUTF8.data.toList, "7".toUTF8.data.toList]] := by decide +kernel

/-! ## What the caller gets -/

/-- Listing asks all providers that the router has for the name, one after another. The caller gets the elements of all providers
that have the name and whose answers arrive, in order, each with its name, kind, what can be done with it, and its provider.
The code is that of the last provider asked. The name may be given with or without a dot at the end. Missing: tables with get
handlers, names that get too long. -/
theorem C84_all_partial {w : World} {D : Comp → List Decl} {h : Comp → List (Rows.Op × Rows.Out)} {cs : List Comp}
    (hu : ∀ c ∈ cs, Usage (D c) (h c) (w.trees c)) (hp : ∀ c ∈ cs, Proper (D c)) {p : Path} (hne : p ≠ []) (hpe : Exact p)
    {s : Bytes} (hs : s = join p ∨ s = fullText p) (h0 : (0 : UInt8) ∉ s) (hlen : s.length ≤ 255) {depth : BitVec 32}
    (hd : -16 ≤ depth.toInt ∧ depth.toInt ≤ 16)
    (hfit : ∀ c ∈ cs, (wanted (Spec.Rows.seen (w.trees c)) depth.toInt p).length < 2 ^ 31 ∧
      ∀ q ∈ wanted (Spec.Rows.seen (w.trees c)) depth.toInt p, (join q).length ≤ 255) :
    elementInfo w s depth (some cs) =
      .ok (((tolds (fun c => Spec.Rows.seen (w.trees c)) p depth.toInt cs w.fates).getLast?.map (·.1)).getD 0,
        (tolds (fun c => Spec.Rows.seen (w.trees c)) p depth.toInt cs w.fates).flatMap (·.2)) := by
  have hname : Wire.Name s := ⟨h0, by omega⟩
  have hpc : Spec.Provider.pieces s = p := by
    rcases hs with rfl | rfl
    · exact RowsProof.pieces_join (fun t ht => ⟨(hpe t ht).1, (hpe t ht).2.1⟩)
    · exact GatherProof.pieces_full (fun t ht => ⟨(hpe t ht).1, (hpe t ht).2.1⟩)
  have hmin : depth ≠ BitVec.intMin 32 := by
    rintro rfl
    have : (BitVec.intMin 32).toInt = -2147483648 := by decide
    omega
  have hone : ∀ c ∈ cs, ∀ r : Bytes, ∃ b, namesHandler (w.trees c) (ElementInfo.request s depth 0 ++ r) = .ok b ∧
      ∀ r', readAnswer c (b ++ r') = .ok (told (Spec.Rows.seen (w.trees c)) c p depth.toInt .answered) := by
    intro c hc r
    have hg := RowsProof.usage_good (hu c hc)
    have hsh := GatherProof.usage_shape (hp c hc) (hu c hc)
    have hret := GatherProof.retrieve_path hg hne hpe hpc
    cases hm : Subs.nodeOf p (w.trees c).root with
    | none =>
      have hseen : Spec.Rows.seen (w.trees c) p = none := by
        rw [RowsProof.seen_eq hg.neat hpe, if_neg hne, hm]; rfl
      refine ⟨_, ElementInfoProof.handler_none hname depth r (by rw [hret, hm]), fun r' => ?_⟩
      rw [ElementInfoProof.read_error]
      simp [told, hseen]
    | some m =>
      have hseen := GatherProof.seen_node hg hsh hne hm
      refine ⟨_, ElementInfoProof.handler_some hg hsh hne hm hname hpc hmin r, fun r' => ?_⟩
      have hreach := ElementInfoProof.reach_node hg hsh (decide (0 ≤ depth.toInt)) depth.toInt.natAbs p hne (by rw [hm]; rfl)
      rw [show wanted (Spec.Rows.seen (w.trees c)) depth.toInt p = Spec.ElementInfo.reach (Spec.Rows.seen (w.trees c))
        (decide (0 ≤ depth.toInt)) depth.toInt.natAbs p from rfl, ElementInfoProof.read_some hg hsh c _ (fun q hq => ⟨(hreach q hq).1, (hreach q hq).2, (hfit c hc).2 q hq⟩) (hfit c hc).1]
      simp [told, hseen, wanted]
  have key : ∀ (ds : List Comp) (fates : List Fate) (code : Int) (l : List Listed), (∀ c ∈ ds, c ∈ cs) →
      infoLoop (ElementInfo.request s depth 0) ds { w with fates := fates } code l =
        .ok (((tolds (fun c => Spec.Rows.seen (w.trees c)) p depth.toInt ds fates).getLast?.map (·.1)).getD code,
          l ++ (tolds (fun c => Spec.Rows.seen (w.trees c)) p depth.toInt ds fates).flatMap (·.2)) := by
    intro ds
    induction ds with
    | nil => intro fates code l _; simp [infoLoop, tolds]
    | cons c ds ih =>
      intro fates code l hds
      obtain ⟨b, hb, hr⟩ := hone c (hds c (by simp)) (w.trailer (ElementInfo.request s depth 0))
      have ih := ih fates.tail
      have hds' : ∀ d ∈ ds, d ∈ cs := fun d hd => hds d (by simp [hd])
      have hlast : ∀ (x : Int × List Listed) (xs : List (Int × List Listed)) (k : Int),
          (((x :: xs).getLast?.map (·.1)).getD k) = (xs.getLast?.map (·.1)).getD x.1 := by
        intro x xs k
        cases xs with
        | nil => rfl
        | cons y ys =>
          rw [List.getLast?_cons_cons]
          cases hy : (y :: ys).getLast? with
          | none => simp at hy
          | some z => rfl
      rw [tolds, hlast, List.flatMap_cons]
      simp only [infoLoop, ElementInfo.call]
      cases hf : fates.headD .answered with
      | answered =>
        simp only [hb, Res.ok_bind, Res.pure_eq, hr, ih _ _ hds', List.append_assoc]
      | lost e =>
        simp only [Res.ok_bind, ih _ _ hds', told, List.nil_append]
      | unanswered e =>
        simp only [hb, Res.ok_bind, Res.pure_eq, ih _ _ hds', told, List.nil_append]
  have hna : ¬ depth.toInt.natAbs > maxDepth := by
    have : maxDepth = 16 := rfl
    omega
  rw [elementInfo, if_neg hmin, if_neg hna]
  have := key cs w.fates 0 [] (fun c hc => hc)
  rw [List.nil_append] at this
  exact this

/-- If all answer and have the name, the caller gets success and all elements of all of them. -/
theorem C84_complete_partial {w : World} {D : Comp → List Decl} {h : Comp → List (Rows.Op × Rows.Out)} {cs : List Comp}
    (hu : ∀ c ∈ cs, Usage (D c) (h c) (w.trees c)) (hp : ∀ c ∈ cs, Proper (D c)) {p : Path} (hne : p ≠ []) (hpe : Exact p)
    {s : Bytes} (hs : s = join p ∨ s = fullText p) (h0 : (0 : UInt8) ∉ s) (hlen : s.length ≤ 255) {depth : BitVec 32}
    (hd : -16 ≤ depth.toInt ∧ depth.toInt ≤ 16)
    (hfit : ∀ c ∈ cs, (wanted (Spec.Rows.seen (w.trees c)) depth.toInt p).length < 2 ^ 31 ∧
      ∀ q ∈ wanted (Spec.Rows.seen (w.trees c)) depth.toInt p, (join q).length ≤ 255)
    (hf : ∀ f ∈ w.fates, f = .answered) (hall : ∀ c ∈ cs, Spec.Rows.seen (w.trees c) p ≠ none) :
    elementInfo w s depth (some cs) = .ok (0, cs.flatMap fun c =>
      (wanted (Spec.Rows.seen (w.trees c)) depth.toInt p).flatMap (describe (Spec.Rows.seen (w.trees c)) c)) := by
  rw [C84_all_partial hu hp hne hpe hs h0 hlen hd hfit]
  have key : ∀ (ds : List Comp) (fates : List Fate), (∀ c ∈ ds, c ∈ cs) → (∀ f ∈ fates, f = .answered) →
      tolds (fun c => Spec.Rows.seen (w.trees c)) p depth.toInt ds fates = ds.map fun c =>
        (0, (wanted (Spec.Rows.seen (w.trees c)) depth.toInt p).flatMap (describe (Spec.Rows.seen (w.trees c)) c)) := by
    intro ds
    induction ds with
    | nil => intro _ _ _; rfl
    | cons c ds ih =>
      intro fates hds hf
      have hh : fates.headD .answered = .answered := by
        cases fates with
        | nil => rfl
        | cons f fs => exact hf f (by simp)
      rw [tolds, hh, ih fates.tail (fun d hd => hds d (by simp [hd])) (fun f hf' => hf f (List.mem_of_mem_tail hf')), List.map_cons]
      simp [told, hall c (hds c (by simp))]
  rw [key cs w.fates (fun c hc => hc) hf]
  congr 2
  · cases hl : (cs.map fun c => ((0 : Int), (wanted (Spec.Rows.seen (w.trees c)) depth.toInt p).flatMap
      (describe (Spec.Rows.seen (w.trees c)) c))).getLast? with
    | none => rfl
    | some x =>
      obtain ⟨c, _, rfl⟩ := List.mem_map.mp (List.mem_of_getLast? hl)
      rfl
  · rw [List.flatMap_map]

/-- The rows of the table at two providers. -/
example : elementInfo (iWorld []) "A.t.".toUTF8.data.toList (-1) (some [iA, iB]) = .ok (0,
    [⟨"A.t.1.".toUTF8.data.toList, 0, 3, iA⟩, ⟨"A.t.7.".toUTF8.data.toList, 0, 3, iA⟩,
     ⟨"A.t.1.".toUTF8.data.toList, 0, 3, iB⟩, ⟨"A.t.7.".toUTF8.data.toList, 0, 3, iB⟩]) := by
  obtain ⟨h, hu⟩ := iUsage
  rw [C84_complete_partial (D := fun _ => tableModel) (h := fun _ => h) (p := ["A".toUTF8.data.toList, "t".toUTF8.data.toList])
    (fun _ _ => hu) (fun _ _ => iProper) (by simp) (by unfold Exact; decide +kernel) (.inl (by decide +kernel)) (by decide +kernel)
    (by decide +kernel) (by decide +kernel) (by decide +kernel) (by simp [iWorld]) (by decide +kernel)]
  decide +kernel

/-- Depths beyond 16 levels are refused without a request. -/
theorem C84_depth {w : World} {s : Bytes} {depth : BitVec 32} (hd : (depth.toInt < -16 ∨ 16 < depth.toInt) ∧ depth.toInt ≠ -2 ^ 31)
    (found : Option (List Comp)) : elementInfo w s depth found = .ok (2, []) := by
  have hmin : depth ≠ BitVec.intMin 32 := by
    rintro rfl
    exact hd.2 (by decide)
  have hm : depth.toInt.natAbs > maxDepth := by
    have : maxDepth = 16 := rfl
    omega
  simp only [elementInfo, if_neg hmin, if_pos hm]

example : ((17 : BitVec 32).toInt < -16 ∨ 16 < (17 : BitVec 32).toInt) ∧ (17 : BitVec 32).toInt ≠ -2 ^ 31 := by decide

/-- When the router cannot be asked for the providers, the caller gets nothing, and the code for elements that do not exist. -/
theorem C84_not_found {w : World} {s : Bytes} {depth : BitVec 32} (hd : -16 ≤ depth.toInt ∧ depth.toInt ≤ 16) :
    elementInfo w s depth none = .ok (17, []) := by
  have hmin : depth ≠ BitVec.intMin 32 := by
    rintro rfl
    have : (BitVec.intMin 32).toInt = -2147483648 := by decide
    omega
  have hm : ¬ depth.toInt.natAbs > maxDepth := by
    have : maxDepth = 16 := rfl
    omega
  simp only [elementInfo, if_neg hmin, if_neg hm]

example : -16 ≤ (-16 : BitVec 32).toInt ∧ (-16 : BitVec 32).toInt ≤ 16 := by decide

/-! ## Rows -/

/-- Through the messages, the caller who lists the rows of a table gets exactly the rows the provider has, with numbers and aliases
(see C81 for which these are). -/
theorem C84_rows {w : World} {c : Comp} {table : Bytes} (hn : (0 : UInt8) ∉ table ∧ table.length + 1 < 2 ^ 32)
    (hf : w.fates.headD .answered = .answered) {T : Tree} {out : Rows.Out}
    (ho : Rows.step (w.trees c) (.list table) = .ok (T, out)) (hlen : out.rows.length < 2 ^ 31)
    (ha : ∀ x ∈ out.rows, (0 : UInt8) ∉ x.2 ∧ x.2.length + 1 < 2 ^ 32) :
    rowNames w c table = .ok (out.code, out.rows) := by
  have hname : Wire.Name table := hn
  simp only [Rows.step, Rows.listRows] at ho
  have h1 : (1 : BitVec 32) ≠ 0 := by decide
  simp only [rowNames, ElementInfo.call, hf, namesHandler, ElementInfo.request, List.append_assoc, Wire.getStringU_set _ hname,
    Res.ok_bind, Wire.getInt32Z_set, if_pos h1]
  cases hr : Element.retrieveInstance (w.trees c) table with
  | none =>
    rw [hr] at ho
    cases ho
    simp only [Res.ok_bind, Res.pure_eq, Message.get_setInt32]
    rfl
  | some m =>
    rw [hr] at ho
    simp only at ho
    by_cases ht : m.info.type = tTable
    · rw [if_pos ht] at ho
      cases ho
      rw [List.length_map] at hlen
      simp only [ht, ne_eq, not_true_eq_false, if_false, Res.ok_bind, Res.pure_eq, List.append_assoc, Message.get_setInt32,
        ElementInfoProof.getInt32U_set, Wire.toInt_small hlen]
      have h2 : ((0 : BitVec 32).toInt = 0 ∨ (0 : BitVec 32).toInt = 100) := by decide
      rw [if_pos h2]
      rw [ElementInfoProof.read_rows _ _ (fun d hd => ha _ (List.mem_map_of_mem hd))]
      rfl
    · rw [if_neg ht] at ho
      cases ho
      simp only [ht, ne_eq, not_false_eq_true, if_true, Res.ok_bind, Res.pure_eq, Message.get_setInt32]
      rfl

example : rowNames (iWorld []) iA "A.t.".toUTF8.data.toList = .ok (0, [(1, []), (7, [97])]) := by decide +kernel

/-- When the call is lost, the caller gets an error and no rows. -/
theorem C84_rows_lost {w : World} {c : Comp} {table : Bytes} {e : CoreErr} {fs : List Fate} (hf : w.fates = .lost e :: fs) :
    ∃ code, code ≠ 0 ∧ rowNames w c table = .ok (code, []) := by
  refine ⟨(coreToRbus e : Nat), by cases e <;> decide, ?_⟩
  simp only [rowNames, ElementInfo.call, hf, List.headD_cons, Res.ok_bind]

example : (iWorld [.lost .timedOut]).fates = .lost .timedOut :: [] := rfl

/-! ## Findings -/

/-- The code is that of the last provider asked: if the answer of one before it is lost, the caller gets success with the elements
of that provider missing. -/
theorem C84_hidden_failure_fails :
    elementInfo (iWorld [.unanswered .timedOut]) "A.t.".toUTF8.data.toList 0 (some [iA, iB]) =
      .ok (0, [⟨"A.t.".toUTF8.data.toList, 2, 12, iB⟩]) := by decide +kernel

/-- And if only the last one fails, the caller gets an error together with a list of elements, which it has to free. -/
theorem C84_error_with_list_fails :
    elementInfo (iHalf []) "A.t.".toUTF8.data.toList 0 (some [iA, iB]) = .ok (17, [⟨"A.t.".toUTF8.data.toList, 2, 12, iA⟩]) := by
  decide +kernel

/-- A table with a get handler is not listed, nor is anything below it, and asking for it gives success without elements: the
response is empty, so that the strings behind it are read instead of numbers. -/
theorem C84_dynamic_table_fails :
    let w : World := ⟨fun _ => declare dynamicModel, [], fun _ => Message.setString "METHOD_RESPONSE".toUTF8.data.toList ++
      Message.setString [] ++ Message.setString []⟩
    elementInfo w "A.t.".toUTF8.data.toList 16 (some [iA]) = .ok (0, []) ∧
    elementInfo w "A.".toUTF8.data.toList 16 (some [iA]) = .ok (0, [⟨"A.".toUTF8.data.toList, 0, 0, iA⟩]) := by decide +kernel

/-- The name of an object with 255 bytes comes without the dot at its end, as if it were a property. -/
theorem C84_long_name_fails (x : Element.Path) (cb : Element.Cb) (a : Option Bytes) (h : (fullText x).length = 255) :
    shown ⟨[], x, tObject, a, cb⟩ = fullText x := by
  simp only [shown, true_or, if_true]
  rw [List.take_append_of_le_length (by rw [h]; decide), List.take_of_length_le (by rw [h]; decide)]

/-- The smallest depth has no absolute value: undefined. -/
theorem C84_smallest_depth_fails (w : World) (s : Bytes) (found : Option (List Comp)) :
    elementInfo w s (BitVec.intMin 32) found = .ub := rfl

/-- If no provider has the name, the caller gets success without elements. -/
theorem C84_nobody_fails (w : World) (s : Bytes) : elementInfo w s 0 (some []) = .ok (0, []) := rfl

end Verif.Props
