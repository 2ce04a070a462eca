import Verif.Proof.RowWire
import Verif.Props.Rows

/-!
# Adding and removing rows from end to end (C89)
-/

namespace Verif.Props

open Verif Verif.Message Verif.Wire Verif.Element Verif.Spec.Provider Verif.Spec.Rows Verif.RowWire
open Verif.Method (Fate coreToRbus)

private def wTab : Bytes := "A.t.".toUTF8.data.toList
private def wRow : Bytes := "A.t.1.".toUTF8.data.toList

/-- An application that numbers the rows it adds from 1, refuses the alias "x" with code 5, and lets every row be removed. -/
private def counting : RowWire.App where
  add calls _ _ a := if a = some [120] then (5, 9) else (0, BitVec.ofNat 32 (calls.length + 1))
  remove _ _ _ := 0

private def atStart : World := ⟨declare tableModel, []⟩

private theorem atStart_reached : Reached tableModel counting atStart :=
  .start (orderly_of_now (by decide +kernel)) (by decide +kernel)

private theorem wTab_proper (f : Fate) (a : Option Bytes) (ha : ∀ x, a = some x → RowWire.Short x) :
    Proper (.add f [] [] wTab a) := by
  refine ⟨⟨by decide, by decide⟩, ⟨by decide, by decide⟩, by decide, ⟨by decide, by decide⟩, ⟨?_, by decide⟩, ha⟩
  show ∀ t ∈ pieces wTab, t ≠ [] ∧ (46 : UInt8) ∉ t ∧ t ≠ [42] ∧ t.head? ≠ some 91
  decide

private theorem atStart_fair (f : Fate) (a : Option Bytes) :
    Fair (Spec.Rows.seen atStart.tree) counting atStart.calls (.add f [] [] wTab a) := by
  intro e g he hg hc
  have h : Spec.Rows.seen atStart.tree (pieces wTab) = some ⟨2, { addRow := some 1, removeRow := some 2 }, none, [template]⟩ := by
    decide +kernel
  rw [h] at he
  cases he
  refine ⟨rfl, ?_⟩
  have h2 : ∀ a, decimal (counting.add [] g wTab a).2.toNat ∉ [template] := by
    intro a
    simp only [counting]
    split <;> decide +kernel
  exact h2 _

/-- C89, adding. If the table has a handler, it is called once, with the name of the table and the alias that the caller gave (none
for an empty one); the caller gets the handler's code and the number it gave. After success each name leads to what it did
before, with the new row in the table, made like the row template; otherwise nothing has changed. (Missing: codes of 100 and more,
see `C81_legacy_success_fails`; tables with sync or get handlers; other names.) -/
theorem C89_add_partial {D : List Decl} {app : RowWire.App} {w : World} (hw : Reached D app w) {p s t : Bytes} {a : Option Bytes}
    (hp : Proper (.add .delivered p s t a)) (hf : Fair (Spec.Rows.seen w.tree) app w.calls (.add .delivered p s t a))
    (hl : t.getLast? = some 46) {e : Entry} {f : Nat} (he : Spec.Rows.seen w.tree (pieces t) = some e)
    (hcb : e.cb.addRow = some f) {c i : BitVec 32} (ha : app.add w.calls f t (if a = some [] then none else a) = (c, i))
    (hc : c.toNat < 100) :
    ∃ T, RowWire.addRow app w .delivered p s t a =
        .ok (⟨T, w.calls ++ [.add f t (if a = some [] then none else a) c i]⟩, c, some i) ∧
      ∀ q, Exact q → Spec.Rows.seen T q = if c = 0 then
        withRow (Spec.Rows.seen w.tree) (pieces t) (decimal i.toNat) (if a = some [] then none else a) q
        else Spec.Rows.seen w.tree q := by
  obtain ⟨u, hu, _⟩ := reached_usage hw
  have hg := RowsProof.usage_good hu
  change app.add w.calls f t (given a) = (c, i) at ha
  rw [addRow_eq app w _ hp hl]
  by_cases h0 : c = 0
  · subst h0
    obtain ⟨T, o, _, _, _, h1, h2⟩ := adding_ok hg hp hf hl he hcb (by rw [ha])
    rw [ha] at h1 h2
    refine ⟨T, by simp only [h2, Res.ok_bind]; rfl, ?_⟩
    intro q hq
    rw [h1 q hq, if_pos rfl]
    rfl
  · refine ⟨w.tree, ?_, fun q _ => by rw [if_neg h0]⟩
    simp only [adding_eq hg hp.2.2.2.2.1.1, he, hcb, ha, h0, if_false, Res.ok_bind, SetGet.readCode_small hc]
    rfl

/-- The row 1 is added, with number and code. -/
example : ∃ T, RowWire.addRow counting atStart .delivered [] [] wTab (some []) =
    .ok (⟨T, [.add 1 wTab none 0 1]⟩, 0, some 1) ∧ (Spec.Rows.seen T [[65], [116], [49], [118]]).isSome := by
  have h : Spec.Rows.seen atStart.tree (pieces wTab) = some ⟨2, { addRow := some 1, removeRow := some 2 }, none, [template]⟩ := by
    decide +kernel
  obtain ⟨T, h1, h2⟩ := C89_add_partial atStart_reached (wTab_proper .delivered (some []) (by
    intro x hx; cases hx; exact ⟨by decide, by decide⟩)) (atStart_fair .delivered (some [])) (by decide) h rfl (c := 0) (i := 1) rfl
    (by decide)
  refine ⟨T, h1, ?_⟩
  rw [h2 [[65], [116], [49], [118]] (by
    show ∀ t ∈ ([[65], [116], [49], [118]] : List Bytes), t ≠ [] ∧ (46 : UInt8) ∉ t ∧ t ≠ [42] ∧ t.head? ≠ some 91
    decide)]
  decide +kernel

/-- C89, removing. If the row is there and its table has a handler, it is called once, with the name of the row; the caller gets
its code. After success the row is gone, with all below it, and nothing else has changed; otherwise nothing has changed. -/
theorem C89_remove_partial {D : List Decl} {app : RowWire.App} {w : World} (hw : Reached D app w) {p s r : Bytes}
    (hp : Proper (.remove .delivered p s r)) (hf : Fair (Spec.Rows.seen w.tree) app w.calls (.remove .delivered p s r))
    {e e' : Entry} {f : Nat} (he : Spec.Rows.seen w.tree (pieces r) = some e)
    (he' : Spec.Rows.seen w.tree (pieces r).dropLast = some e') (hcb : e'.cb.removeRow = some f) {c : BitVec 32}
    (ha : app.remove w.calls f r = c) (hc : c.toNat < 100) :
    ∃ T, RowWire.removeRow app w .delivered p s r = .ok (⟨T, w.calls ++ [.remove f r c]⟩, c) ∧
      ∀ q, Exact q → Spec.Rows.seen T q = if c = 0 then
        withoutRow (Spec.Rows.seen w.tree) (pieces r).dropLast ((pieces r).getLastD []) q else Spec.Rows.seen w.tree q := by
  obtain ⟨u, hu, _⟩ := reached_usage hw
  have hg := RowsProof.usage_good hu
  rw [removeRow_eq app w _ hp]
  by_cases h0 : c = 0
  · subst h0
    obtain ⟨T, o, _, _, _, h1, h2⟩ := removing_ok hg hp hf he he' hcb ha
    refine ⟨T, by simp only [h2, Res.ok_bind]; rfl, ?_⟩
    intro q hq
    rw [h1 q hq, if_pos rfl]
  · refine ⟨w.tree, ?_, fun q _ => by rw [if_neg h0]⟩
    simp only [removing_eq hg hp.2.2.2.1, he, he', hcb, ha, h0, if_false, Res.ok_bind, SetGet.readCode_small hc]
    rfl

/-- A row that was added can be removed. -/
private def oneRow : Option World :=
  match RowWire.addRow counting atStart .delivered [] [] wTab none with
  | .ok (w, _) => some w
  | _ => none

example : ∃ w, oneRow = some w ∧ (Spec.Rows.seen w.tree (pieces wRow)).isSome ∧
    (match RowWire.removeRow counting w .delivered [] [] wRow with
      | .ok (w', c) => some (w'.calls, c, (Spec.Rows.seen w'.tree (pieces wRow)).isSome)
      | _ => none) = some ([.add 1 wTab none 0 1, .remove 2 wRow 0], 0, false) := by
  have h : (oneRow.map fun w => ((Spec.Rows.seen w.tree (pieces wRow)).isSome,
      (match RowWire.removeRow counting w .delivered [] [] wRow with
      | .ok (w', c) => some (w'.calls, c, (Spec.Rows.seen w'.tree (pieces wRow)).isSome)
      | _ => none))) = some (true, some ([.add 1 wTab none 0 1, .remove 2 wRow 0], 0, false)) := by decide +kernel
  revert h
  cases oneRow with
  | none => intro h; cases h
  | some w =>
    intro h
    simp only [Option.map_some, Option.some.injEq, Prod.mk.injEq] at h
    exact ⟨w, rfl, h.1, h.2⟩

/-- C89, refusing. If there is no such table or row the caller gets 17, if it has no handler 9, and if the name of the table does
not end in a dot 2; no handler is called and nothing changes. -/
theorem C89_refused_partial {D : List Decl} {app : RowWire.App} {w : World} (hw : Reached D app w) :
    (∀ p s t a, Proper (.add .delivered p s t a) → t.getLast? ≠ some 46 →
      RowWire.addRow app w .delivered p s t a = .ok (w, 2, none)) ∧
    (∀ p s t a, Proper (.add .delivered p s t a) → t.getLast? = some 46 → Spec.Rows.seen w.tree (pieces t) = none →
      RowWire.addRow app w .delivered p s t a = .ok (w, 17, some 0)) ∧
    (∀ p s t a e, Proper (.add .delivered p s t a) → t.getLast? = some 46 → Spec.Rows.seen w.tree (pieces t) = some e →
      e.cb.addRow = none → RowWire.addRow app w .delivered p s t a = .ok (w, 9, some 0)) ∧
    (∀ p s r, Proper (.remove .delivered p s r) → Spec.Rows.seen w.tree (pieces r) = none →
      RowWire.removeRow app w .delivered p s r = .ok (w, 17)) ∧
    (∀ p s r e, Proper (.remove .delivered p s r) → Spec.Rows.seen w.tree (pieces r) = some e →
      (∀ e', Spec.Rows.seen w.tree (pieces r).dropLast = some e' → e'.cb.removeRow = none) →
      RowWire.removeRow app w .delivered p s r = .ok (w, 9)) := by
  obtain ⟨u, hu, _⟩ := reached_usage hw
  have hg := RowsProof.usage_good hu
  refine ⟨?_, ?_, ?_, ?_, ?_⟩
  · intro p s t a hp hl
    have hl2 : t.getLast? ≠ some dot := hl
    rw [RowWire.addRow, if_neg hp.2.2.1, if_pos hl2]
  · intro p s t a hp hl he
    rw [addRow_eq app w _ hp hl]
    simp only [adding_eq hg hp.2.2.2.2.1.1, he, Res.ok_bind]
    rfl
  · intro p s t a e hp hl he hcb
    rw [addRow_eq app w _ hp hl]
    simp only [adding_eq hg hp.2.2.2.2.1.1, he, hcb, Res.ok_bind]
    rfl
  · intro p s r hp he
    rw [removeRow_eq app w _ hp]
    simp only [removing_eq hg hp.2.2.2.1, he, Res.ok_bind]
    rfl
  · intro p s r e hp he hcb
    rw [removeRow_eq app w _ hp]
    cases he' : Spec.Rows.seen w.tree (pieces r).dropLast with
    | none =>
      simp only [removing_eq hg hp.2.2.2.1, he, he', Res.ok_bind]
      rfl
    | some e' =>
      simp only [removing_eq hg hp.2.2.2.1, he, he', hcb e' he', Res.ok_bind]
      rfl

example : Proper (.remove .delivered [] [] wRow) ∧ Spec.Rows.seen atStart.tree (pieces wRow) = none := by
  refine ⟨⟨⟨by decide, by decide⟩, ⟨by decide, by decide⟩, ⟨by decide, by decide⟩, ?_, by decide⟩, by decide +kernel⟩
  show ∀ t ∈ pieces wRow, t ≠ [] ∧ (46 : UInt8) ∉ t ∧ t ≠ [42] ∧ t.head? ≠ some 91
  decide

/-- C89, losing. If the request does not arrive, nothing happens at the provider, the caller gets the error of the bus, and no
number is stored. -/
theorem C89_lost (app : RowWire.App) (w : World) (e : Nat) (p s t r : Bytes) (a : Option Bytes) (hl : t.getLast? = some 46) :
    RowWire.addRow app w (.lost e) p s t a = .ok (w, coreToRbus e, none) ∧
    RowWire.removeRow app w (.lost e) p s r = .ok (w, coreToRbus e) := by
  have hne : t ≠ [] := by rintro rfl; cases hl
  have hl2 : ¬ t.getLast? ≠ some dot := fun h => h hl
  refine ⟨?_, rfl⟩
  rw [RowWire.addRow, if_neg hne, if_neg hl2]
  rfl

example : wTab.getLast? = some 46 := by decide

/-- C89, rows. At any time, whatever messages were lost, a declared table has exactly the rows that its handlers have agreed to: those
they added with success and have not since removed with success, in this order, each under its number and with its alias;
and no two have the same number. -/
theorem C89_rows_partial {D : List Decl} {app : RowWire.App} {w : World} (hw : Reached D app w) {d : Decl} (hd : d ∈ D)
    (ht : d.type = tTable) (hp : Spec.Rows.Plain d.path) :
    (∃ e, Spec.Rows.seen w.tree d.path = some e ∧ e.type = tTable ∧
      e.below = template :: (agreed d.path w.calls).map (fun y => decimal y.1)) ∧
    ((agreed d.path w.calls).map (·.1)).Nodup ∧
    ∀ y ∈ agreed d.path w.calls, ∃ e, Spec.Rows.seen w.tree (d.path ++ [decimal y.1]) = some e ∧ e.alias = y.2 := by
  obtain ⟨u, hu, hlive⟩ := reached_usage hw
  have := C81_rows_partial hu hd ht hp
  rwa [hlive d.path] at this

/-- Two rows are added, the answer for the second being lost; the first is removed. -/
private def someCalls : Option World :=
  match RowWire.addRow counting atStart .delivered [] [] wTab none with
  | .ok (w, _) => match RowWire.addRow counting w (.unanswered 7) [] [] wTab (some [121]) with
    | .ok (w, _) => match RowWire.removeRow counting w .delivered [] [] wRow with
      | .ok (w, _) => some w
      | _ => none
    | _ => none
  | _ => none

example : someCalls.map (fun w => (agreed [[65], [116]] w.calls, (Spec.Rows.seen w.tree [[65], [116]]).map (·.below))) =
    some ([(2, some [121])], some [template, [50]]) := by decide +kernel

/-- Counterexample: when the answer is lost the caller gets an error, though the handler was called and the row is there. Nor does
the caller get its number. -/
theorem C89_unanswered_fails :
    (match RowWire.addRow counting atStart (.unanswered 7) [] [] wTab none with
      | .ok (w, c, n) => some (c, n, w.calls, (Spec.Rows.seen w.tree (pieces wRow)).isSome)
      | _ => none) = some (20, none, [.add 1 wTab none 0 1], true) := by decide +kernel

/-- Counterexample: a number is stored also when adding the row has failed: the one of the handler that refused, and 0 when there is
no table. -/
theorem C89_number_on_failure_fails :
    (match RowWire.addRow counting atStart .delivered [] [] wTab (some [120]) with
      | .ok (w, c, n) => some (c, n, (Spec.Rows.seen w.tree (pieces wRow)).isSome)
      | _ => none) = some (5, some 9, false) ∧
    (match RowWire.addRow counting atStart .delivered [] [] "A.x.".toUTF8.data.toList none with
      | .ok (_, c, n) => some (c, n)
      | _ => none) = some (17, some 0) := by decide +kernel

/-- Counterexample: a request with a number where the name should be makes the provider use a pointer that was never set, for
adding and for removing. -/
theorem C89_malformed_fails (app : RowWire.App) (w : World) :
    RowWire.serve app w (setMeta (setInt32 0 ++ setInt32 0) methodAdd [] []) = .ub ∧
    RowWire.serve app w (setMeta (setInt32 0 ++ setInt32 0) methodRemove [] []) = .ub := by
  have hn : Name [] := ⟨by decide, by decide⟩
  have hl : (setInt32 0 ++ setInt32 0).length < 2 ^ 31 - 32768 := by decide
  have hx : ∀ m rest, getStringU (setInt32 m ++ rest) = .ub := by
    intro m rest
    have h1 := m.toInt_lt
    have h2 := m.le_toInt
    simp only [getStringU, getString, setInt32, unpack_packInt m.toInt (by omega) (by omega)]
  constructor
  · rw [RowWire.serve, getMeta_setMeta _ methodAdd [] [] hl (by decide) hn hn 0, Res.ok_bind]
    simp only [if_true, serveAdd, setMeta_bytes _ methodAdd [] [] hl, List.append_assoc, getInt32Z_set, hx]
    rfl
  · have hne : ¬ methodRemove = methodAdd := by decide
    rw [RowWire.serve, getMeta_setMeta _ methodRemove [] [] hl (by decide) hn hn 0, Res.ok_bind]
    simp only [hne, if_false, if_true, serveRemove, setMeta_bytes _ methodRemove [] [] hl, List.append_assoc, getInt32Z_set, hx]
    rfl

end Verif.Props
