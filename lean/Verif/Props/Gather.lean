import Verif.Proof.GatherWild
import Verif.Proof.GatherConvert
import Verif.Props.Rows

/-!
# C82: partial paths and wildcard queries at a provider

`Usage D h T`: a provider declared the elements `D` in order and then had the calls of `h` on its rows; `T` is its tree of
elements. `seen T p` is what the name with the components `p` leads to. `join w` is the text of the components `w` with a dot
after each, `fullText w` the one with dots between them.
-/

namespace Verif.Props

open Verif Verif.Gather
open Verif.Element (Tree Path tTable tProperty template star)
open Verif.Subs (fullText)
open Verif.Spec.Provider (Decl declare)
open Verif.Spec.Rows (Usage join Exact)
open Verif.Spec.Gather (Proper getter under expand StarsFit getEach getBelow answered values Pattern)
open Verif.GatherProof (Single)

/-! ## A small world for the examples -/

instance : DecidableEq (List Params.Prop' × List Gather.Call) := inferInstance

/-- The table of `tableModel` with the rows 1 and 7. -/
private def gOps : List Rows.Op :=
  [.add "A.t.".toUTF8.data.toList none 0 1, .add "A.t.".toUTF8.data.toList none 0 7]

private def gTree : Tree := ((rowsRunNow (declare tableModel) gOps).map (·.1)).getD Element.Tree.init

private theorem gUsage : ∃ h, Usage tableModel h gTree := by
  cases hr : rowsRunNow (declare tableModel) gOps with
  | none =>
    have : (rowsRunNow (declare tableModel) gOps).isSome = true := by decide +kernel
    rw [hr] at this; cases this
  | some x =>
    obtain ⟨T, h⟩ := x
    have hT : gTree = T := by simp [gTree, hr]
    exact ⟨h, hT ▸ usage_of_run tableModel_start hr⟩

private theorem gProper : Proper tableModel := by
  unfold Proper Spec.Rows.Exact; decide +kernel

/-- Each handler gives its number and how many calls there were before. -/
private def gHandlers : Handlers := fun calls h _ => ⟨0, some [UInt8.ofNat h, UInt8.ofNat calls.length], []⟩

/-! ## Partial paths -/

/-- A query that ends with a dot, or with a wildcard after a dot, is answered by calling the get handlers of all elements
below the names it stands for, each once, with the full name of its element, in the order of the data model; `*` stands for
every row. Handlers that fail are left out of the answer. Missing: names with special characters, wildcards that do not stand
below a table, names that get too long, tables with get handlers, handlers that append properties; see the findings. -/
theorem C82_partial_path_partial {D : List Decl} {h : List (Rows.Op × Rows.Out)} {T : Tree} (hu : Usage D h T) (hp : Proper D)
    {H : Handlers} (hH : Single H) {w : Path} (hw : Pattern w) (hfit : StarsFit (Spec.Rows.seen T) [] w)
    {q : Bytes} (hq : q = join w ∨ q = join w ++ [42]) (hlen : q.length + 9 * q.count 42 ≤ 255) :
    ∃ n0, ∀ n, n0 ≤ n → answer H T q = .done (answered (getBelow H (Spec.Rows.seen T) n (expand (Spec.Rows.seen T) [] w) [])) := by
  have hg := RowsProof.usage_good hu
  have hs := GatherProof.usage_shape hp hu
  have hcs := GatherProof.count_star (ts := w)
  have hfin : ∀ r : Nat × List Gather.Call, (GatherProof.giving r >>= fun (r, s) =>
      (pure (r, if r = 0 then s.props.take s.count else [], s.calls) : Gather.Out _)) = .done (answered r) := by
    intro r
    simp [GatherProof.giving, GatherProof.stOf, answered]
  rcases hq with rfl | rfl
  · obtain ⟨n0, h0⟩ := GatherProof.wild_join hg hs hH w [] ((join w).count 42 + 1) (by simp) (fun t ht => hw.2 t ht) hfit hw.1
      (by omega) (by simp only [List.nil_append]; omega)
    refine ⟨n0, fun n hn => ?_⟩
    have := h0 n hn []
    rw [List.nil_append] at this
    unfold answer
    rw [show ({} : St) = GatherProof.stOf [] from rfl, this]
    exact hfin _
  · simp only [List.length_append, List.count_append, List.length_singleton, List.count_singleton] at hlen
    simp at hlen
    obtain ⟨n0, h0⟩ := GatherProof.wild_join hg hs hH w [] ((join w ++ [42]).count 42 + 1) (by simp) (fun t ht => hw.2 t ht) hfit
      hw.1 (by rw [List.count_append]; omega) (by simp only [List.nil_append]; omega)
    refine ⟨n0, fun n hn => ?_⟩
    have := h0 n hn []
    rw [List.nil_append] at this
    unfold answer
    rw [show ({} : St) = GatherProof.stOf [] from rfl, GatherProof.wild_star hg hs hw.1 (fun t ht => hw.2 t ht) (by omega), this]
    exact hfin _

private theorem gPattern (w : Path) (h : w ≠ [] ∧ ∀ t ∈ w, t = star ∨ ((t ≠ [] ∧ (46 : UInt8) ∉ t ∧ t ≠ [42] ∧ t.head? ≠ some 91) ∧
    (42 : UInt8) ∉ t ∧ (123 : UInt8) ∉ t)) : Pattern w := by
  refine ⟨h.1, fun t ht => (h.2 t ht).imp_right ?_⟩
  rintro ⟨a, b, c⟩
  refine ⟨?_, b, c⟩
  intro u hu
  rw [List.mem_singleton] at hu
  rw [hu]
  exact a

/-- The query `A.t.*.` of the small world. -/
example : ∃ n0, ∀ n, n0 ≤ n → answer gHandlers gTree "A.t.*.".toUTF8.data.toList =
    .done (answered (getBelow gHandlers (Spec.Rows.seen gTree) n
      (expand (Spec.Rows.seen gTree) [] ["A".toUTF8.data.toList, "t".toUTF8.data.toList, star]) [])) := by
  obtain ⟨h, hu⟩ := gUsage
  refine C82_partial_path_partial hu gProper (fun _ _ _ => rfl) (gPattern _ (by decide +kernel)) ?_ (.inl (by decide +kernel))
    (by decide +kernel)
  simp only [StarsFit]
  rw [if_neg (by decide +kernel), if_neg (by decide +kernel), if_pos (by decide +kernel)]
  refine ⟨?_, by decide +kernel⟩
  cases he : Spec.Rows.seen gTree ([] ++ ["A".toUTF8.data.toList] ++ ["t".toUTF8.data.toList]) with
  | none =>
    have : (Spec.Rows.seen gTree ([] ++ ["A".toUTF8.data.toList] ++ ["t".toUTF8.data.toList])).isSome = true := by decide +kernel
    rw [he] at this; cases this
  | some e =>
    have : (Spec.Rows.seen gTree ([] ++ ["A".toUTF8.data.toList] ++ ["t".toUTF8.data.toList])).map (·.type) = some tTable := by
      decide +kernel
    rw [he] at this
    exact ⟨e, rfl, by simpa using this⟩

/-- And its answer. -/
example : answer gHandlers gTree "A.t.*.".toUTF8.data.toList = .done (0,
    [("A.t.1.v".toUTF8.data.toList, some [3, 0]), ("A.t.7.v".toUTF8.data.toList, some [3, 1])],
    [⟨3, "A.t.1.v".toUTF8.data.toList, ⟨0, some [3, 0], []⟩⟩, ⟨3, "A.t.7.v".toUTF8.data.toList, ⟨0, some [3, 1], []⟩⟩]) := by
  decide +kernel

/-- The elements below a name are those with a get handler whose names begin with it; row templates are not among them. None
comes twice. -/
theorem C82_below {D : List Decl} {h : List (Rows.Op × Rows.Out)} {T : Tree} (hu : Usage D h T) (hp : Proper D) {p : Path}
    (hpe : Exact p) (hex : Spec.Rows.seen T p ≠ none) :
    ∃ n0, ∀ n, n0 ≤ n → (∀ q g, (q, g) ∈ under (Spec.Rows.seen T) n p ↔
      ∃ r, r ≠ [] ∧ q = p ++ r ∧ Exact r ∧ template ∉ r ∧ (Spec.Rows.seen T q).bind getter = some g) ∧
      ((under (Spec.Rows.seen T) n p).map (·.1)).Nodup := by
  have hg := RowsProof.usage_good hu
  have hs := GatherProof.usage_shape hp hu
  have hne : p ≠ [] := by rintro rfl; exact hex rfl
  rw [RowsProof.seen_eq hg.neat hpe, if_neg hne] at hex
  cases hm : Subs.nodeOf p T.root with
  | none => rw [hm] at hex; exact absurd rfl hex
  | some m =>
    have hsm := hs.nodeOf hm
    rw [List.nil_append] at hsm
    obtain ⟨n0, h0⟩ := GatherProof.under_mem hg hs hsm hne hm
    refine ⟨n0, fun n hn => ⟨fun q g => ?_, (h0 n hn).2⟩⟩
    rw [(h0 n hn).1]
    constructor
    · rintro ⟨r, hr, rfl, ht, c, hc, hgc⟩
      have hn : Subs.nodeOf (p ++ r) T.root = some c := by rw [Subs.nodeOf_append, hm]; exact hc
      refine ⟨r, hr, rfl, hsm.exact hc, ht, ?_⟩
      rw [GatherProof.seen_node hg hs (by simp [hne]) hn]
      exact hgc
    · rintro ⟨r, hr, rfl, her, ht, hgc⟩
      refine ⟨r, hr, rfl, ht, ?_⟩
      rw [RowsProof.seen_eq hg.neat (RowsProof.exact_append.mpr ⟨hpe, her⟩), if_neg (by simp [hne]), Subs.nodeOf_append, hm] at hgc
      simp only [Option.bind_some] at hgc
      cases hc : Subs.nodeOf r m with
      | none => rw [hc] at hgc; cases hgc
      | some c => rw [hc] at hgc; exact ⟨c, rfl, hgc⟩

/-- `A.t.1.v` is below `A.`, with handler 3. -/
example : ∃ n0, ∀ n, n0 ≤ n → (["A".toUTF8.data.toList, "t".toUTF8.data.toList, "1".toUTF8.data.toList, "v".toUTF8.data.toList], 3)
    ∈ under (Spec.Rows.seen gTree) n ["A".toUTF8.data.toList] := by
  obtain ⟨h, hu⟩ := gUsage
  obtain ⟨n0, h0⟩ := C82_below hu gProper (p := ["A".toUTF8.data.toList]) (by unfold Exact; decide +kernel) (by decide +kernel)
  refine ⟨n0, fun n hn => ((h0 n hn).1 _ _).mpr ⟨["t".toUTF8.data.toList, "1".toUTF8.data.toList, "v".toUTF8.data.toList],
    by simp, by decide +kernel, by unfold Exact; decide +kernel, by decide +kernel, by decide +kernel⟩⟩

/-- With handlers that always succeed, a partial path without wildcards gives exactly the values of the elements below it. -/
theorem C82_values_partial {D : List Decl} {h : List (Rows.Op × Rows.Out)} {T : Tree} (hu : Usage D h T) (hp : Proper D)
    {f : Nat → Bytes → Params.Value} {p : Path} (hw : p ≠ [] ∧ ∀ t ∈ p, Exact [t] ∧ (42 : UInt8) ∉ t ∧ (123 : UInt8) ∉ t)
    (hex : Spec.Rows.seen T p ≠ none) (hlen : (join p).length ≤ 255) :
    ∃ vs calls, answer (fun _ g n => ⟨0, f g n, []⟩) T (join p) = .done (0, vs, calls) ∧ (vs.map (·.1)).Nodup ∧
      ∀ n v, (n, v) ∈ vs ↔ ∃ r g, r ≠ [] ∧ Exact r ∧ template ∉ r ∧ n = fullText (p ++ r) ∧
        (Spec.Rows.seen T (p ++ r)).bind getter = some g ∧ v = f g n := by
  have hpat : Pattern p := ⟨hw.1, fun t ht => .inr (hw.2 t ht)⟩
  have hstar : ∀ t ∈ p, t ≠ star := by
    rintro t ht rfl
    exact (hw.2 _ ht).2.1 (by simp [star])
  have hexp : ∀ (ts p : Path), (∀ t ∈ ts, t ≠ star) → StarsFit (Spec.Rows.seen T) p ts ∧
      expand (Spec.Rows.seen T) p ts = [p ++ ts] := by
    intro ts
    induction ts with
    | nil => intro p _; exact ⟨trivial, by simp [expand]⟩
    | cons t ts ih =>
      intro p h
      have h1 := h t (by simp)
      simp only [StarsFit, expand, if_neg h1]
      have := ih (p ++ [t]) (fun u hu => h u (by simp [hu]))
      exact ⟨this.1, by rw [this.2]; simp⟩
  obtain ⟨hf, he⟩ := hexp p [] hstar
  have h42 : (join p).count 42 = 0 := by
    rw [List.count_eq_zero]
    exact GatherProof.join_no42 (fun t ht => hw.2 t ht)
  obtain ⟨n1, h1⟩ := C82_partial_path_partial hu hp (H := fun _ g n => ⟨0, f g n, []⟩) (fun _ _ _ => rfl) hpat hf
    (q := join p) (.inl rfl) (by omega)
  have hpe : Exact p := GatherProof.tok_exact (fun t ht => hw.2 t ht)
  obtain ⟨n2, h2⟩ := C82_below hu hp hpe hex
  have h1 := h1 (max n1 n2) (by omega)
  obtain ⟨h2, h3⟩ := h2 (max n1 n2) (by omega)
  have hall : ∀ (l : List (Path × Nat)) (calls : List Gather.Call), values (Spec.Gather.askAll (fun _ g n => ⟨0, f g n, []⟩) l calls) =
      values calls ++ l.map (fun x => (fullText x.1, f x.2 (fullText x.1))) := by
    intro l
    induction l with
    | nil => intro calls; simp [Spec.Gather.askAll]
    | cons x l ih =>
      intro calls
      rw [Spec.Gather.askAll, ih]
      simp [Spec.Gather.ask, values]
  rw [he, List.nil_append] at h1
  simp only [getBelow, if_neg hex, answered, if_true, hall] at h1
  rw [show values [] = [] from rfl, List.nil_append] at h1
  refine ⟨_, _, h1, ?_, ?_⟩
  · rw [List.map_map]
    have hok : ∀ x ∈ under (Spec.Rows.seen T) (max n1 n2) p, Exact x.1 := by
      rintro ⟨q, g⟩ hx
      obtain ⟨r, _, rfl, her, _⟩ := (h2 q g).mp hx
      exact RowsProof.exact_append.mpr ⟨hpe, her⟩
    generalize under (Spec.Rows.seen T) (max n1 n2) p = l at h3 hok
    rw [List.Nodup, List.pairwise_map] at h3 ⊢
    refine List.Pairwise.imp_of_mem ?_ h3
    intro a b ha hb hab heq
    refine hab ?_
    have := congrArg Spec.Provider.pieces heq
    simp only [Function.comp] at this
    rwa [GatherProof.pieces_full (fun t ht => ⟨(hok a ha t ht).1, (hok a ha t ht).2.1⟩),
      GatherProof.pieces_full (fun t ht => ⟨(hok b hb t ht).1, (hok b hb t ht).2.1⟩)] at this
  · intro n v
    rw [List.mem_map]
    constructor
    · rintro ⟨⟨q, g⟩, hx, heq⟩
      simp only [Prod.mk.injEq] at heq
      obtain ⟨r, hr, rfl, her, ht, hgt⟩ := (h2 q g).mp hx
      exact ⟨r, g, hr, her, ht, heq.1.symm, hgt, by rw [← heq.1]; exact heq.2.symm⟩
    · rintro ⟨r, g, hr, her, ht, rfl, hgt, rfl⟩
      exact ⟨(p ++ r, g), (h2 _ _).mpr ⟨r, hr, rfl, her, ht, hgt⟩, rfl⟩

/-- The path `A.` of the small world meets the conditions. -/
example : ∃ vs calls, answer (fun _ g _ => ⟨0, some [UInt8.ofNat g], []⟩) gTree "A.".toUTF8.data.toList = .done (0, vs, calls) ∧
    ("A.t.7.v".toUTF8.data.toList, some [3]) ∈ vs := by
  obtain ⟨h, hu⟩ := gUsage
  obtain ⟨vs, calls, h1, _, h3⟩ := C82_values_partial hu gProper (f := fun g _ => some [UInt8.ofNat g]) (p := ["A".toUTF8.data.toList])
    ⟨by simp, by unfold Exact; decide +kernel⟩ (by decide +kernel) (by decide +kernel)
  exact ⟨vs, calls, h1, (h3 _ _).mpr ⟨["t".toUTF8.data.toList, "7".toUTF8.data.toList, "v".toUTF8.data.toList], 3, by simp,
    by unfold Exact; decide +kernel, by decide +kernel, by decide +kernel, by decide +kernel, rfl⟩⟩

/-! ## Single names with wildcards -/

/-- A query with wildcards that ends with a name is answered by getting the names it stands for one after another, in the
order of the rows, up to the first error, which is then the code of the answer, without values. Missing: as before. -/
theorem C82_names_partial {D : List Decl} {h : List (Rows.Op × Rows.Out)} {T : Tree} (hu : Usage D h T) (hp : Proper D)
    {H : Handlers} (hH : Single H) {w : Path} (hw : Pattern w) (hl : w.getLast? ≠ some star)
    (hfit : StarsFit (Spec.Rows.seen T) [] w) (hlen : (fullText w).length + 9 * (fullText w).count 42 ≤ 255) :
    answer H T (fullText w) = .done (answered (getEach H (Spec.Rows.seen T) (expand (Spec.Rows.seen T) [] w) [])) := by
  have hg := RowsProof.usage_good hu
  have hs := GatherProof.usage_shape hp hu
  have hcs := GatherProof.count_star (ts := w)
  have hcf : (join w).count 42 = (fullText w).count 42 := by
    rw [← GatherProof.join_full hw.1, List.count_append]; simp
  have hlast : ∃ u, ([] ++ w).getLast? = some u ∧ u ≠ star := by
    rw [List.nil_append]
    cases hx : w.getLast? with
    | none => simp at hx; exact absurd hx hw.1
    | some u => exact ⟨u, rfl, by rintro rfl; exact hl hx⟩
  have := GatherProof.wild_full hg hs hH w [] ((fullText w).count 42 + 1) (by simp) (fun t ht => hw.2 t ht) hfit hlast
    (by omega) (by simp only [List.nil_append]; omega) []
  rw [List.nil_append] at this
  unfold answer
  rw [show ({} : St) = GatherProof.stOf [] from rfl, this]
  simp [GatherProof.giving, GatherProof.stOf, answered]

/-- The query `A.t.*.v` of the small world. -/
example : answer gHandlers gTree "A.t.*.v".toUTF8.data.toList =
    .done (answered (getEach gHandlers (Spec.Rows.seen gTree)
      (expand (Spec.Rows.seen gTree) [] ["A".toUTF8.data.toList, "t".toUTF8.data.toList, star, "v".toUTF8.data.toList]) [])) := by
  obtain ⟨h, hu⟩ := gUsage
  refine C82_names_partial hu gProper (H := gHandlers) (fun _ _ _ => rfl)
    (w := ["A".toUTF8.data.toList, "t".toUTF8.data.toList, star, "v".toUTF8.data.toList])
    (gPattern _ (by decide +kernel)) (by decide +kernel) ?_ (by decide +kernel)
  simp only [StarsFit]
  rw [if_neg (by decide +kernel), if_neg (by decide +kernel), if_pos (by decide +kernel)]
  refine ⟨?_, fun _ _ => by rw [if_neg (by decide +kernel)]; trivial⟩
  cases he : Spec.Rows.seen gTree ([] ++ ["A".toUTF8.data.toList] ++ ["t".toUTF8.data.toList]) with
  | none =>
    have : (Spec.Rows.seen gTree ([] ++ ["A".toUTF8.data.toList] ++ ["t".toUTF8.data.toList])).isSome = true := by decide +kernel
    rw [he] at this; cases this
  | some e =>
    have : (Spec.Rows.seen gTree ([] ++ ["A".toUTF8.data.toList] ++ ["t".toUTF8.data.toList])).map (·.type) = some tTable := by
      decide +kernel
    rw [he] at this
    exact ⟨e, rfl, by simpa using this⟩

/-- The names it stands for: those that match component by component, where `*` matches the rows. -/
theorem C82_expand {V : Spec.Rows.View} {w p q : Path} : q ∈ expand V p w ↔
    ∃ r, q = p ++ r ∧ r.length = w.length ∧ ∀ i t u, w[i]? = some t → r[i]? = some u →
      if t = star then u ≠ template ∧ ∃ e, V (p ++ r.take i) = some e ∧ u ∈ e.below else u = t := by
  induction w generalizing p with
  | nil =>
    simp only [expand, List.mem_singleton, List.length_nil]
    constructor
    · rintro rfl; exact ⟨[], by simp, rfl, by simp⟩
    · rintro ⟨r, rfl, hr, _⟩
      rw [List.length_eq_zero_iff] at hr
      rw [hr, List.append_nil]
  | cons t w ih =>
    have key : ∀ u : Element.Token, q ∈ expand V (p ++ [u]) w ↔ ∃ r, q = p ++ u :: r ∧ r.length = w.length ∧
        ∀ i t' u', w[i]? = some t' → r[i]? = some u' →
          if t' = star then u' ≠ template ∧ ∃ e, V (p ++ u :: r.take i) = some e ∧ u' ∈ e.below else u' = t' := by
      intro u
      rw [ih]
      simp only [List.append_assoc, List.singleton_append]
    have hrows : ∀ u : Element.Token, u ∈ Spec.Gather.rows V p ↔ u ≠ template ∧ ∃ e, V p = some e ∧ u ∈ e.below := by
      intro u
      simp only [Spec.Gather.rows]
      cases V p with
      | none => simp
      | some e => simp [and_comm]
    have hmem : q ∈ expand V p (t :: w) ↔ ∃ u, (if t = star then u ∈ Spec.Gather.rows V p else u = t) ∧ q ∈ expand V (p ++ [u]) w := by
      simp only [expand]
      split
      · rw [List.mem_flatMap]
      · constructor
        · intro h; exact ⟨t, rfl, h⟩
        · rintro ⟨u, rfl, h⟩; exact h
    rw [hmem]
    constructor
    · rintro ⟨u, hu, hq⟩
      obtain ⟨r, rfl, hlen, hr⟩ := (key u).mp hq
      refine ⟨u :: r, rfl, by simp [hlen], ?_⟩
      intro i t' u' ht' hu'
      cases i with
      | zero =>
        simp only [List.getElem?_cons_zero, Option.some.injEq] at ht' hu'
        subst ht' hu'
        simp only [List.take_zero, List.append_nil]
        split
        next h => rw [if_pos h] at hu; exact (hrows _).mp hu
        next h => rw [if_neg h] at hu; exact hu
      | succ i =>
        simp only [List.getElem?_cons_succ] at ht' hu'
        rw [List.take_succ_cons]
        exact hr i t' u' ht' hu'
    · rintro ⟨r, rfl, hlen, hr⟩
      cases r with
      | nil => cases hlen
      | cons u r =>
        refine ⟨u, ?_, (key u).mpr ⟨r, rfl, by simpa using hlen, ?_⟩⟩
        · have := hr 0 t u rfl rfl
          simp only [List.take_zero, List.append_nil] at this
          split
          next h => rw [if_pos h] at this; exact (hrows _).mpr this
          next h => rw [if_neg h] at this; exact this
        · intro i t' u' ht' hu'
          have := hr (i + 1) t' u' (by simpa using ht') (by simpa using hu')
          rwa [List.take_succ_cons] at this

/-- `A.t.7.v` is one of the names `A.t.*.v` stands for. -/
example : ["A".toUTF8.data.toList, "t".toUTF8.data.toList, "7".toUTF8.data.toList, "v".toUTF8.data.toList] ∈
    expand (Spec.Rows.seen gTree) [] ["A".toUTF8.data.toList, "t".toUTF8.data.toList, star, "v".toUTF8.data.toList] := by
  decide +kernel

/-- An answer with success has the values of successful calls and of no others, in the order of the calls; and every call was of
a handler of the element that the value is named after. -/
theorem C82_faithful_partial {D : List Decl} {h : List (Rows.Op × Rows.Out)} {T : Tree} (hu : Usage D h T) (hp : Proper D)
    {H : Handlers} (hH : Single H) {w : Path} (hw : Pattern w) (hl : w.getLast? ≠ some star)
    (hfit : StarsFit (Spec.Rows.seen T) [] w) (hlen : (fullText w).length + 9 * (fullText w).count 42 ≤ 255)
    {vs : List Params.Prop'} {calls : List Gather.Call} {c : Nat} (ha : answer H T (fullText w) = .done (c, vs, calls)) :
    (c = 0 → vs = calls.map (fun x => (x.name, x.ret.value)) ∧ ∀ x ∈ calls, x.ret.code = 0) ∧ (c ≠ 0 → vs = []) ∧
    ∀ x ∈ calls, ∃ q ∈ expand (Spec.Rows.seen T) [] w, x.name = fullText q ∧ (Spec.Rows.seen T q).bind getter = some x.handler := by
  rw [C82_names_partial hu hp hH hw hl hfit hlen] at ha
  simp only [answered, Gather.Out.done.injEq, Prod.mk.injEq] at ha
  obtain ⟨rfl, rfl, rfl⟩ := ha
  have key : ∀ (ps : List Path) (cs : List Gather.Call), ∃ new, (getEach H (Spec.Rows.seen T) ps cs).2 = cs ++ new ∧
      ((getEach H (Spec.Rows.seen T) ps cs).1 = 0 → ∀ x ∈ new, x.ret.code = 0) ∧
      ∀ x ∈ new, ∃ q ∈ ps, x.name = fullText q ∧ (Spec.Rows.seen T q).bind getter = some x.handler := by
    intro ps
    induction ps with
    | nil => intro cs; exact ⟨[], by simp [getEach], by simp, by simp⟩
    | cons p ps ih =>
      intro cs
      cases hV : Spec.Rows.seen T p with
      | none => rw [GatherProof.getEach_none hV]; exact ⟨[], by simp, by simp, by simp⟩
      | some e =>
        cases hge : getter e with
        | none =>
          rw [GatherProof.getEach_skip hV hge]
          obtain ⟨new, h1, h2, h3⟩ := ih cs
          exact ⟨new, h1, h2, fun x hx => by obtain ⟨q, hq, h⟩ := h3 x hx; exact ⟨q, by simp [hq], h⟩⟩
        | some g =>
          rw [GatherProof.getEach_ask hV hge]
          by_cases hc : (H cs g (fullText p)).code = 0
          · rw [if_pos hc]
            obtain ⟨new, h1, h2, h3⟩ := ih (Spec.Gather.ask H cs p g)
            refine ⟨⟨g, fullText p, H cs g (fullText p)⟩ :: new, ?_, ?_, ?_⟩
            · rw [h1]; simp [Spec.Gather.ask]
            · intro h x hx
              rcases List.mem_cons.mp hx with rfl | hx
              · exact hc
              · exact h2 h x hx
            · intro x hx
              rcases List.mem_cons.mp hx with rfl | hx
              · exact ⟨p, by simp, rfl, by simp [hV, hge]⟩
              · obtain ⟨q, hq, h⟩ := h3 x hx; exact ⟨q, by simp [hq], h⟩
          · rw [if_neg hc]
            refine ⟨[⟨g, fullText p, H cs g (fullText p)⟩], rfl, fun h => absurd h hc, ?_⟩
            intro x hx
            rw [List.mem_singleton] at hx
            subst hx
            exact ⟨p, by simp, rfl, by simp [hV, hge]⟩
  obtain ⟨new, h1, h2, h3⟩ := key (expand (Spec.Rows.seen T) [] w) []
  rw [List.nil_append] at h1
  refine ⟨?_, fun h => if_neg h, ?_⟩
  · intro h
    have h2 := h2 h
    rw [if_pos h, h1]
    refine ⟨?_, h2⟩
    rw [values, List.filter_eq_self.mpr (fun x hx => by simpa using h2 x hx)]
  · rw [h1]; exact h3

/-- The answer to `A.t.*.v` in the small world. -/
example : answer gHandlers gTree "A.t.*.v".toUTF8.data.toList = .done (0,
    [("A.t.1.v".toUTF8.data.toList, some [3, 0]), ("A.t.7.v".toUTF8.data.toList, some [3, 1])],
    [⟨3, "A.t.1.v".toUTF8.data.toList, ⟨0, some [3, 0], []⟩⟩, ⟨3, "A.t.7.v".toUTF8.data.toList, ⟨0, some [3, 1], []⟩⟩]) := by
  decide +kernel

/-- A wildcard, with anything behind it, below a name that leads to nothing or not to a table is an error, whatever is there, and
no handler is called. -/
theorem C82_no_table {T : Tree} {H : Handlers} {p : Path} (hne : p ≠ []) (hp : ∀ t ∈ p, (42 : UInt8) ∉ t) {post : Bytes}
    (hpost : post ≠ []) (hlen : (join p ++ 42 :: post).length ≤ 255) :
    (Spec.Rows.seen T p = none → answer H T (join p ++ 42 :: post) = .done (17, [], [])) ∧
    (∀ e, Spec.Rows.seen T p = some e → e.type ≠ tTable → answer H T (join p ++ 42 :: post) = .done (18, [], [])) := by
  have h42 : (42 : UInt8) ∉ join p := by
    unfold join
    intro h
    simp only [List.mem_flatten, List.mem_map] at h
    obtain ⟨l, ⟨t, ht, rfl⟩, hm⟩ := h
    have := hp t ht
    simp_all
  have hj : join p ≠ [] := by
    cases p with
    | nil => exact absurd rfl hne
    | cons t p => simp [join]
  have hpre : ∀ x : Bytes, (join p ++ 42 :: x).takeWhile (· ≠ 42) = join p := by
    intro x
    rw [List.takeWhile_append_of_pos (by intro b hb; simp; rintro rfl; exact h42 hb)]
    simp
  obtain ⟨x, hx⟩ : ∃ x, (if Element.dot :: star <:+ (join p ++ 42 :: post) then (join p ++ 42 :: post).dropLast else join p ++ 42 :: post) =
      join p ++ 42 :: x := by
    split
    · refine ⟨post.dropLast, ?_⟩
      rw [List.dropLast_append_of_ne_nil (by simp), List.dropLast_cons_of_ne_nil hpost]
    · exact ⟨post, rfl⟩
  have hst : join p ++ 42 :: post ≠ star := by
    intro h
    have := congrArg List.length h
    have h0 : 0 < (join p).length := List.length_pos_iff.mpr hj
    simp [star] at this
    omega
  have hcon : (join p ++ 42 :: x).contains 42 = true := by simp
  have htake : (join p ++ 42 :: post).take (maxName - 1) = join p ++ 42 :: post := List.take_of_length_le hlen
  have key : ∀ fuel, wildcard H T (fuel + 1) (join p ++ 42 :: post) {} =
      match Element.retrieveInstance T (join p) with
      | none => .done (17, {})
      | some el =>
        if el.info.type = tTable then overRows (wildcard H T fuel) (join p) (((join p ++ 42 :: x).dropWhile (· ≠ 42)).drop 1) el.children {}
        else .done (18, {}) := by
    intro fuel
    simp only [wildcard, htake, if_neg hst, hx, hcon, if_true, hpre]
    cases Element.retrieveInstance T (join p) <;> rfl
  constructor
  · intro h
    have hr : Element.retrieveInstance T (join p) = none := by simpa [Spec.Rows.seen] using h
    simp only [answer, key, hr]
    rfl
  · intro e h ht
    simp only [Spec.Rows.seen, Option.map_eq_some_iff] at h
    obtain ⟨m, hm, rfl⟩ := h
    have ht : ¬ m.info.type = tTable := ht
    simp only [answer, key, hm, if_neg ht]
    rfl

example : answer gHandlers gTree "A.*.".toUTF8.data.toList = .done (18, [], []) ∧
    answer gHandlers gTree "B.*.v".toUTF8.data.toList = .done (17, [], []) := by decide +kernel

/-! ## Names of instances -/

/-- Below a table with a get handler, the names of elements are made from the registered names and the query: where the
registered name has a row template, the component of the query takes its place. Missing: queries with row templates, and
names that get too long. -/
theorem C82_instance_name_partial {reg query rest : Path} (hlen : reg.length = query.length)
    (hm : ∀ x ∈ reg.zip query, x.1 = x.2 ∧ (123 : UInt8) ∉ x.2 ∨ x.1 = template ∧ x.2 ≠ [] ∧ (123 : UInt8) ∉ x.2 ∧ (46 : UInt8) ∉ x.2)
    (hne : query ≠ []) (hr : rest ≠ [] ∧ ∀ t, rest.head? = some t → t.head? ≠ some 123 ∧ t ≠ [])
    (hfit : (fullText (query ++ rest)).length < 256) :
    convert (fullText (reg ++ rest)) (join query) = .done (fullText (query ++ rest)) :=
  GatherProof.convert_name hlen hm hne hr hfit

/-- `A.t.{i}.v` with the query `A.t.5.` is `A.t.5.v`. -/
example : convert "A.t.{i}.v".toUTF8.data.toList "A.t.5.".toUTF8.data.toList = .done "A.t.5.v".toUTF8.data.toList :=
  C82_instance_name_partial (reg := ["A".toUTF8.data.toList, "t".toUTF8.data.toList, template])
    (query := ["A".toUTF8.data.toList, "t".toUTF8.data.toList, "5".toUTF8.data.toList]) (rest := ["v".toUTF8.data.toList])
    rfl (by decide +kernel) (by decide +kernel) ⟨by simp, by
      intro t ht
      simp only [List.head?_cons, Option.some.injEq] at ht
      subst ht
      decide +kernel⟩ (by decide +kernel)

/-! ## Findings -/

/-- A table with a get handler, and a property in its rows. -/
def dynamicModel : List Decl :=
  [⟨"A.t.{i}.".toUTF8.data.toList, tTable, { get := some 5 }⟩,
   ⟨"A.t.{i}.v".toUTF8.data.toList, tProperty, { get := some 3 }⟩]

/-- For a table with a get handler, the query `A.t.1.*` makes the provider run forever: the name of the element is made from a
query whose `*` never matches, in a loop that only ends when all is used up. `A.t.1.` is answered. -/
theorem C82_dynamic_table_hangs_fails : answer gHandlers (declare dynamicModel) "A.t.1.*".toUTF8.data.toList = .hang ∧
    answer gHandlers (declare dynamicModel) "A.t.1.".toUTF8.data.toList =
      .done (0, [("A.t.1.v".toUTF8.data.toList, some [3, 0])], [⟨3, "A.t.1.v".toUTF8.data.toList, ⟨0, some [3, 0], []⟩⟩]) := by
  decide +kernel

/-- For a table with a get handler, `A.t.*.v` succeeds without values, though `A.t.1.v` has one. -/
theorem C82_dynamic_table_fails : answer gHandlers (declare dynamicModel) "A.t.*.v".toUTF8.data.toList = .done (0, [], []) ∧
    answer gHandlers (declare dynamicModel) "A.t.1.v".toUTF8.data.toList =
      .done (0, [("A.t.1.v".toUTF8.data.toList, some [3, 0])], [⟨3, "A.t.1.v".toUTF8.data.toList, ⟨0, some [3, 0], []⟩⟩]) := by
  decide +kernel

/-- The query `*` makes every provider read before the start of its buffer. -/
theorem C82_lone_star_fails (H : Handlers) (T : Tree) : answer H T star = .ub := by
  rfl

/-- A handler that fails. -/
private def gFails : Handlers := fun _ h n => if n = "A.t.1.v".toUTF8.data.toList then ⟨1, none, []⟩ else ⟨0, some [UInt8.ofNat h], []⟩

/-- One handler that fails makes the query `A.t.*.v` fail as a whole, with the handlers of further rows not called; in the
answer to `A.t.*.`, which stands for the same values, it is left out, and the query succeeds. -/
theorem C82_failing_handler_fails : answer gFails gTree "A.t.*.v".toUTF8.data.toList =
      .done (1, [], [⟨3, "A.t.1.v".toUTF8.data.toList, ⟨1, none, []⟩⟩]) ∧
    answer gFails gTree "A.t.*.".toUTF8.data.toList = .done (0, [("A.t.7.v".toUTF8.data.toList, some [3])],
      [⟨3, "A.t.1.v".toUTF8.data.toList, ⟨1, none, []⟩⟩, ⟨3, "A.t.7.v".toUTF8.data.toList, ⟨0, some [3], []⟩⟩]) := by
  decide +kernel

/-- A handler that appends a property. -/
private def gAppends : Handlers := fun _ h n =>
  ⟨0, some [UInt8.ofNat h], if n = "A.t.1.v".toUTF8.data.toList then [("X".toUTF8.data.toList, some [1])] else []⟩

/-- A handler that appends a property to the one it is given pushes the last value out of the answer: the properties in the
answer are counted by handlers. Here the value of `A.t.7.v` is lost. -/
theorem C82_appended_fails : (∃ calls, answer gAppends gTree "A.t.*.v".toUTF8.data.toList =
    .done (0, [("A.t.1.v".toUTF8.data.toList, some [3]), ("X".toUTF8.data.toList, some [1])], calls) ∧
    calls.map (·.name) = ["A.t.1.v".toUTF8.data.toList, "A.t.7.v".toUTF8.data.toList]) :=
  ⟨[⟨3, "A.t.1.v".toUTF8.data.toList, ⟨0, some [3], [("X".toUTF8.data.toList, some [1])]⟩⟩,
    ⟨3, "A.t.7.v".toUTF8.data.toList, ⟨0, some [3], []⟩⟩], by decide +kernel, by decide +kernel⟩

/-- A query for elements that no row can have succeeds if the table has no rows, and fails with 17 if it has some. -/
theorem C82_missing_fails : answer gHandlers (declare tableModel) "A.t.*.none".toUTF8.data.toList = .done (0, [], []) ∧
    answer gHandlers gTree "A.t.*.none".toUTF8.data.toList = .done (17, [], []) := by
  decide +kernel

/-- The partial path `A.t.{i}.` of the row template calls the handler of an element that does not exist, in no row. -/
theorem C82_template_fails : answer gHandlers (declare tableModel) "A.t.{i}.".toUTF8.data.toList =
    .done (0, [("A.t.{i}.v".toUTF8.data.toList, some [3, 0])], [⟨3, "A.t.{i}.v".toUTF8.data.toList, ⟨0, some [3, 0], []⟩⟩]) := by
  decide +kernel

/-- With a name of 256 bytes or more below a table with a get handler, the buffer for it overflows. -/
theorem C82_long_name_fails : convert ("A.t.{i}.".toUTF8.data.toList ++ List.replicate 250 97) "A.t.1.".toUTF8.data.toList = .ub := by
  decide +kernel

end Verif.Props
