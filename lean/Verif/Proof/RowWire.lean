import Verif.Spec.RowWire
import Verif.Proof.SetGet
import Verif.Proof.RowsUse

/-!
# Lemmas for adding and removing rows from end to end
-/

namespace Verif.RowWire

open Verif Verif.Message Verif.Wire Verif.Element Verif.Subs Verif.Spec.Provider Verif.Spec.Rows Verif.RowsProof
open Verif.Method (Fate getCode methodResponse coreToRbus getCode_set setInt32_le setString_le)

theorem Short.name {n : Bytes} (h : Short n) : Name n := ⟨h.1, by have := h.2; omega⟩

/-- What the provider does, without the bytes. -/
def adding (app : App) (w : World) (table : Bytes) (aliasName : Option Bytes) : Res (World × BitVec 32 × BitVec 32) :=
  match retrieve w.tree table, retrieveInstance w.tree table with
  | some reg, some ins =>
    match reg.info.cb.addRow with
    | some f =>
      let (code, inst) := app.add w.calls f table aliasName
      let calls := w.calls ++ [.add f table aliasName code inst]
      if code = 0 then do
        let T ← Rows.registerTableRow w.tree ins inst.toNat aliasName
        pure (⟨T, calls⟩, code, inst)
      else pure (⟨w.tree, calls⟩, code, inst)
    | none => pure (w, 9, 0)
  | _, _ => pure (w, 17, 0)

def removing (app : App) (w : World) (row : Bytes) : Res (World × BitVec 32) :=
  match retrieve w.tree row, retrieveInstance w.tree row with
  | some _, some ins =>
    match Rows.regParent w.tree row with
    | some table =>
      match table.info.cb.removeRow with
      | some f =>
        let code := app.remove w.calls f row
        let calls := w.calls ++ [.remove f row code]
        if code = 0 then pure (⟨deleteRow w.tree ins, calls⟩, code)
        else pure (⟨w.tree, calls⟩, code)
      | none => pure (w, 9)
    | none => pure (w, 17)
  | _, _ => pure (w, 17)

theorem getAlias_set {s : Bytes} (h : Name s) (r : Bytes) :
    getAlias (setString s ++ r) = .ok (if s = [] then none else some s) := by
  simp only [getAlias, get_setString s h.1 h.2 r]

theorem given_getD (a : Option Bytes) : (if a.getD [] = [] then none else some (a.getD [])) = given a := by
  cases a with
  | none => rfl
  | some x => cases x <;> simp [given]

theorem serveAdd_bytes (app : App) (w : World) {t : Bytes} {a : Option Bytes} (ht : Name t) (ha : ∀ x, a = some x → Short x)
    (r : Bytes) :
    serveAdd app w (setInt32 0 ++ (setString t ++ (setString (a.getD []) ++ r))) = (do
      let (w, c, i) ← adding app w t (given a)
      pure (w, setInt32 c ++ setInt32 i)) := by
  have hn : Name (a.getD []) := by
    cases a with
    | none => exact ⟨by simp, by simp⟩
    | some x => exact (ha x rfl).name
  simp only [serveAdd, getInt32Z_set, getStringU_set t ht, Res.ok_bind, getAlias_set hn, given_getD, adding]
  cases retrieve w.tree t with
  | none => rfl
  | some reg =>
    cases retrieveInstance w.tree t with
    | none => rfl
    | some ins =>
      cases hf : reg.info.cb.addRow with
      | none => simp only [hf]; rfl
      | some f =>
        simp only [hf]
        by_cases hc : (app.add w.calls f t (given a)).1 = 0
        · simp only [hc, if_true]
          cases Rows.registerTableRow w.tree ins (app.add w.calls f t (given a)).2.toNat (given a) <;> rfl
        · simp only [hc, if_false]; rfl

theorem serveRemove_bytes (app : App) (w : World) {row : Bytes} (hr : Name row) (r : Bytes) :
    serveRemove app w (setInt32 0 ++ (setString row ++ r)) = (do
      let (w, c) ← removing app w row
      pure (w, setInt32 c)) := by
  simp only [serveRemove, getInt32Z_set, getStringU_set row hr, Res.ok_bind, removing]
  cases retrieve w.tree row with
  | none => rfl
  | some reg =>
    cases retrieveInstance w.tree row with
    | none => rfl
    | some ins =>
      cases Rows.regParent w.tree row with
      | none => rfl
      | some tb =>
        cases hf : tb.info.cb.removeRow with
        | none => simp only [hf]; rfl
        | some f =>
          simp only [hf]
          by_cases hc : app.remove w.calls f row = 0
          · simp only [hc, if_true]; rfl
          · simp only [hc, if_false]; rfl

theorem serve_adding (app : App) (w : World) {p s t : Bytes} {a : Option Bytes} (hp : Name p) (hs : Name s) (ht : Short t)
    (ha : ∀ x, a = some x → Short x) :
    serve app w (setMeta (setInt32 0 ++ (setString t ++ setString (a.getD []))) methodAdd p s) = (do
      let (w, c, i) ← adding app w t (given a)
      pure (w, setMeta (setInt32 c ++ setInt32 i) methodResponse [] [])) := by
  have hl : (setInt32 0 ++ (setString t ++ setString (a.getD []))).length < 2 ^ 31 - 32768 := by
    have h1 := setInt32_le 0
    have h2 := setString_le t
    have h3 := setString_le (a.getD [])
    have h4 : (a.getD []).length < 2 ^ 20 := by
      cases a with
      | none => simp
      | some x => exact (ha x rfl).2
    have h5 := ht.2
    simp only [List.length_append]
    omega
  rw [serve, getMeta_setMeta _ methodAdd p s hl (by decide) hp hs 0, Res.ok_bind]
  simp only [if_true, setMeta_bytes _ methodAdd p s hl, List.append_assoc, serveAdd_bytes app w ht.name ha]
  cases adding app w t (given a) <;> rfl

theorem serve_removing (app : App) (w : World) {p s r : Bytes} (hp : Name p) (hs : Name s) (hr : Short r) :
    serve app w (setMeta (setInt32 0 ++ setString r) methodRemove p s) = (do
      let (w, c) ← removing app w r
      pure (w, setMeta (setInt32 c) methodResponse [] [])) := by
  have hl : (setInt32 0 ++ setString r).length < 2 ^ 31 - 32768 := by
    have h1 := setInt32_le 0
    have h2 := setString_le r
    have h5 := hr.2
    simp only [List.length_append]
    omega
  have hne : ¬ methodRemove = methodAdd := by decide
  rw [serve, getMeta_setMeta _ methodRemove p s hl (by decide) hp hs 0, Res.ok_bind]
  simp only [hne, if_false, if_true, setMeta_bytes _ methodRemove p s hl, List.append_assoc, serveRemove_bytes app w hr.name]
  cases removing app w r <;> rfl

theorem answer_add (c i : BitVec 32) :
    (getCode 0 (setMeta (setInt32 c ++ setInt32 i) methodResponse [] [])).1 = c ∧
    (getCode 0 (getCode 0 (setMeta (setInt32 c ++ setInt32 i) methodResponse [] [])).2).1 = i := by
  have h1 := setInt32_le c
  have h2 := setInt32_le i
  rw [setMeta_bytes _ _ _ _ (by simp only [List.length_append]; omega)]
  simp only [List.append_assoc, getCode_set, and_self]

theorem answer_remove (c : BitVec 32) : (getCode 0 (setMeta (setInt32 c) methodResponse [] [])).1 = c := by
  have h1 := setInt32_le c
  rw [setMeta_bytes _ _ _ _ (by omega), getCode_set]

/-- The call of `rbusTable_addRow`, without the bytes. -/
theorem addRow_eq (app : App) (w : World) (f : Fate) {p s t : Bytes} {a : Option Bytes}
    (h : Proper (.add f p s t a)) (hl : t.getLast? = some 46) :
    addRow app w f p s t a = match f with
      | .lost e => .ok (w, coreToRbus e, none)
      | .unanswered e => (do
        let (w, _, _) ← adding app w t (given a)
        pure (w, coreToRbus e, none))
      | .delivered => (do
        let (w, c, i) ← adding app w t (given a)
        pure (w, SetGet.readCode c, some i)) := by
  obtain ⟨hp, hs, hne, ht, _, ha⟩ := h
  have hl' : ¬ t.getLast? ≠ some dot := fun hh => hh hl
  simp only [addRow, hne, if_false, hl', exchange]
  cases f with
  | lost e => rfl
  | unanswered e =>
    simp only [serve_adding app w hp hs ht ha]
    cases adding app w t (given a) <;> rfl
  | delivered =>
    simp only [serve_adding app w hp hs ht ha]
    cases hx : adding app w t (given a) with
    | ok x =>
      obtain ⟨w', c, i⟩ := x
      obtain ⟨h1, h2⟩ := answer_add c i
      simp only [Res.ok_bind, Res.pure_eq, h1, h2]
    | fail => rfl
    | ub => rfl

theorem removeRow_eq (app : App) (w : World) (f : Fate) {p s r : Bytes} (h : Proper (.remove f p s r)) :
    removeRow app w f p s r = match f with
      | .lost e => .ok (w, coreToRbus e)
      | .unanswered e => (do
        let (w, _) ← removing app w r
        pure (w, coreToRbus e))
      | .delivered => (do
        let (w, c) ← removing app w r
        pure (w, SetGet.readCode c)) := by
  obtain ⟨hp, hs, hr, _⟩ := h
  simp only [removeRow, exchange]
  cases f with
  | lost e => rfl
  | unanswered e =>
    simp only [serve_removing app w hp hs hr]
    cases removing app w r <;> rfl
  | delivered =>
    simp only [serve_removing app w hp hs hr]
    cases hx : removing app w r with
    | ok x =>
      obtain ⟨w', c⟩ := x
      simp only [Res.ok_bind, Res.pure_eq, answer_remove]
    | fail => rfl
    | ub => rfl

/-! ### The tree -/

theorem wireAlias_given (a : Option Bytes) : Rows.wireAlias (given a) = given a ∧ Rows.wireAlias a = given a := by
  cases a with
  | none => exact ⟨rfl, rfl⟩
  | some x => cases x <;> exact ⟨rfl, rfl⟩

/-- What the handler that adds is told to do, by the names. -/
theorem adding_eq {app : App} {w : World} (hg : Good w.tree) {t : Bytes} {a : Option Bytes} (hex : Exact (pieces t)) :
    adding app w t (given a) = match seen w.tree (pieces t) with
      | none => .ok (w, 17, 0)
      | some e => match e.cb.addRow with
        | none => .ok (w, 9, 0)
        | some f =>
          if (app.add w.calls f t (given a)).1 = 0 then do
            let T ← match retrieveInstance w.tree t with
              | some m => Rows.registerTableRow w.tree m (app.add w.calls f t (given a)).2.toNat (given a)
              | none => .fail
            pure (⟨T, w.calls ++ [.add f t (given a) (app.add w.calls f t (given a)).1 (app.add w.calls f t (given a)).2]⟩,
              (app.add w.calls f t (given a)).1, (app.add w.calls f t (given a)).2)
          else .ok (⟨w.tree, w.calls ++ [.add f t (given a) (app.add w.calls f t (given a)).1 (app.add w.calls f t (given a)).2]⟩,
              (app.add w.calls f t (given a)).1, (app.add w.calls f t (given a)).2) := by
  rw [seen_pieces hg.neat hex]
  cases hri : retrieveInstance w.tree t with
  | none =>
    simp only [adding, hri, Option.map_none]
    cases retrieve w.tree t <;> rfl
  | some m =>
    obtain ⟨_, _, r, hr, hlike⟩ := retrieve_some hg.neat hex hri
    have hkind := hlike.kind
    simp only [kind, Prod.mk.injEq] at hkind
    simp only [adding, hri, hr, Option.map_some, entry, hkind.2]
    cases m.info.cb.addRow <;> rfl

theorem removing_eq {app : App} {w : World} (hg : Good w.tree) {r : Bytes} (hex : Exact (pieces r)) :
    removing app w r = match seen w.tree (pieces r) with
      | none => .ok (w, 17)
      | some _ => match seen w.tree (pieces r).dropLast with
        | none => .ok (w, 9)
        | some e => match e.cb.removeRow with
          | none => .ok (w, 9)
          | some f =>
            if app.remove w.calls f r = 0 then
              match retrieveInstance w.tree r with
              | some m => .ok (⟨deleteRow w.tree m, w.calls ++ [.remove f r (app.remove w.calls f r)]⟩, app.remove w.calls f r)
              | none => .fail
            else .ok (⟨w.tree, w.calls ++ [.remove f r (app.remove w.calls f r)]⟩, app.remove w.calls f r) := by
  rw [seen_pieces hg.neat hex]
  cases hri : retrieveInstance w.tree r with
  | none =>
    simp only [removing, hri, Option.map_none]
    cases retrieve w.tree r <;> rfl
  | some row =>
    obtain ⟨hP, hm, rr, hr, hlike⟩ := retrieve_some hg.neat hex hri
    have hsplit := path_split hP
    have hreg : Rows.regParent w.tree r = retrieveFrom (pieces r).dropLast w.tree.root := by
      unfold Rows.regParent; rw [tokens_pieces]
    simp only [removing, hri, hr, hreg, Option.map_some]
    generalize hQ : (pieces r).dropLast = Q at hsplit
    generalize hx : (pieces r).getLastD [] = x at hsplit
    rw [hsplit] at hm hex
    obtain ⟨m, hm', hc'⟩ := nodeOf_parent hm
    have hexQ := (exact_append.mp hex).1
    obtain ⟨tb, htb, hl⟩ := registered hg.neat hm'
    have hkind := hl.kind
    simp only [kind, Prod.mk.injEq] at hkind
    simp only [htb, hkind.2]
    by_cases hQ0 : Q = []
    · have hroot : m = w.tree.root := by
        rw [hQ0] at hm'
        simp only [nodeOf, Option.some.injEq] at hm'
        exact hm'.symm
      simp only [hQ0, seen_nil, hroot, hg.rootCb]
      rfl
    · have hseenQ : seen w.tree Q = some (entry m) := by rw [seen_eq hg.neat hexQ, if_neg hQ0, hm']; rfl
      simp only [hseenQ, entry]
      cases m.info.cb.removeRow <;> rfl

theorem toNat_zero {c : BitVec 32} : c.toNat = 0 ↔ c = 0 := by
  constructor
  · intro h; apply BitVec.eq_of_toNat_eq; simpa using h
  · rintro rfl; rfl

/-- Adding a row that the handler agrees to. -/
theorem adding_ok {app : App} {w : World} (hg : Good w.tree) {fate : Fate} {p s t : Bytes} {a : Option Bytes}
    (hp : Proper (.add fate p s t a)) (hf : Fair (seen w.tree) app w.calls (.add fate p s t a)) (hl : t.getLast? = some 46)
    {e : Entry} {f : Nat} (he : seen w.tree (pieces t) = some e) (hcb : e.cb.addRow = some f)
    (hc : (app.add w.calls f t (given a)).1 = 0) :
    ∃ T o, Rows.step w.tree (.add t a 0 (app.add w.calls f t (given a)).2.toNat) = .ok (T, o) ∧ o.called = true ∧
      Spec.Rows.Sane (seen w.tree) (.add t a 0 (app.add w.calls f t (given a)).2.toNat) ∧
      (∀ q, Exact q → seen T q = withRow (seen w.tree) (pieces t) (decimal (app.add w.calls f t (given a)).2.toNat) (given a) q) ∧
      adding app w t (given a) = .ok (⟨T, w.calls ++ [.add f t (given a) 0 (app.add w.calls f t (given a)).2]⟩, 0,
        (app.add w.calls f t (given a)).2) := by
  obtain ⟨_, _, hne, _, hpl, _⟩ := hp
  have hsane : Spec.Rows.Sane (seen w.tree) (.add t a 0 (app.add w.calls f t (given a)).2.toNat) := by
    refine ⟨hne, hpl, BitVec.isLt _, ?_⟩
    intro _ e' he' _
    rw [he] at he'
    cases he'
    exact hf e f he hcb hc
  obtain ⟨T, o, h1, hd, h2, _⟩ := add_did hg hsane
  have hl' : ¬ t.getLast? ≠ some 46 := fun h => h hl
  have hans : Spec.Rows.answer (seen w.tree) (.add t a 0 (app.add w.calls f t (given a)).2.toNat) = (0, true) := by
    simp only [Spec.Rows.answer, if_neg hl', he, hcb]
    simp [told]
  have hcalled : o.called = true := by
    have := hd.answer
    rw [hans] at this
    exact (Prod.mk.inj this).2
  refine ⟨T, o, h1, hcalled, hsane, ?_, ?_⟩
  · intro q hq
    rw [hd.effect q hq]
    simp only [Spec.Rows.effect, hans, and_self, if_true]
    rfl
  · rw [adding_eq hg hpl.1, he]
    simp only [hcb, hc, if_true]
    have hri : ∃ m, retrieveInstance w.tree t = some m := by
      rw [seen_pieces hg.neat hpl.1] at he
      cases h : retrieveInstance w.tree t with
      | none => rw [h] at he; cases he
      | some m => exact ⟨m, rfl⟩
    obtain ⟨m, hm⟩ := hri
    obtain ⟨_, _, r, hr, hlike⟩ := retrieve_some hg.neat hpl.1 hm
    have hkind := hlike.kind
    simp only [kind, Prod.mk.injEq] at hkind
    have hcb' : r.info.cb.addRow = some f := by
      rw [hkind.2]
      rw [seen_pieces hg.neat hpl.1, hm] at he
      cases he
      exact hcb
    have hl2 : ¬ t.getLast? ≠ some dot := hl'
    simp only [Rows.step, Rows.addRow, if_neg hne, if_neg hl2, hr, hm, hcb', Option.isSome_some, if_true,
      (wireAlias_given a).2] at h1
    simp only [hm]
    cases hreg : Rows.registerTableRow w.tree m (app.add w.calls f t (given a)).2.toNat (given a) with
    | ok T' =>
      simp only [hreg, Res.ok_bind, Res.pure_eq, Res.ok.injEq, Prod.mk.injEq] at h1
      rw [h1.1]
      rfl
    | fail => rw [hreg] at h1; cases h1
    | ub => rw [hreg] at h1; cases h1

/-- Removing a row that the handler agrees to. -/
theorem removing_ok {app : App} {w : World} (hg : Good w.tree) {fate : Fate} {p s r : Bytes}
    (hp : Proper (.remove fate p s r)) (hf : Fair (seen w.tree) app w.calls (.remove fate p s r))
    {e e' : Entry} {f : Nat} (he : seen w.tree (pieces r) = some e) (he' : seen w.tree (pieces r).dropLast = some e')
    (hcb : e'.cb.removeRow = some f) (hc : app.remove w.calls f r = 0) :
    ∃ T o, Rows.step w.tree (.remove r 0) = .ok (T, o) ∧ o.called = true ∧
      Spec.Rows.Sane (seen w.tree) (.remove r 0) ∧
      (∀ q, Exact q → seen T q = withoutRow (seen w.tree) (pieces r).dropLast ((pieces r).getLastD []) q) ∧
      removing app w r = .ok (⟨T, w.calls ++ [.remove f r 0]⟩, 0) := by
  obtain ⟨_, _, _, hpl⟩ := hp
  have hsane : Spec.Rows.Sane (seen w.tree) (.remove r 0) := by
    refine ⟨hpl, ?_⟩
    intro _ e2 he2 _
    rw [he'] at he2
    cases he2
    exact hf e' f he' hcb hc
  obtain ⟨T, o, h1, hd, h2, _⟩ := remove_did hg hsane
  have hans : Spec.Rows.answer (seen w.tree) (.remove r 0) = (0, true) := by
    simp only [Spec.Rows.answer, he, he', hcb]
    simp [told]
  have hcalled : o.called = true := by
    have := hd.answer
    rw [hans] at this
    exact (Prod.mk.inj this).2
  refine ⟨T, o, h1, hcalled, hsane, ?_, ?_⟩
  · intro q hq
    rw [hd.effect q hq]
    simp only [Spec.Rows.effect, hans, and_self, if_true]
  · have hx : removing app w r = (do
        let (T, _) ← Rows.step w.tree (.remove r 0)
        pure (⟨T, w.calls ++ [.remove f r 0]⟩, 0)) := by
      have hri : ∃ m, retrieveInstance w.tree r = some m := by
        rw [seen_pieces hg.neat hpl.1] at he
        cases h : retrieveInstance w.tree r with
        | none => rw [h] at he; cases he
        | some m => exact ⟨m, rfl⟩
      obtain ⟨m, hm⟩ := hri
      rw [removing_eq hg hpl.1, he, he']
      simp only [hcb, hc, if_true, hm]
      simp only [Rows.step, Rows.removeRow, hm] at h1 ⊢
      cases hr : retrieve w.tree r with
      | none => rw [hr] at h1; cases h1; cases hcalled
      | some rr =>
        simp only [hr] at h1 ⊢
        cases hpar : Rows.regParent w.tree r with
        | none => rw [hpar] at h1; cases h1; cases hcalled
        | some tb =>
          simp only [hpar] at h1 ⊢
          by_cases htb : tb.info.cb.removeRow.isSome = true
          · simp only [htb, if_true]; rfl
          · simp only [htb] at h1; cases h1; cases hcalled
    rw [hx, h1]
    rfl

theorem agreed_snoc (path : Path) (calls : List Call) (c : Call) :
    agreed path (calls ++ [c]) = row1 path (agreed path calls) c := by
  simp only [agreed, List.foldl_append, List.foldl_cons, List.foldl_nil]

theorem live_snoc (path : Path) (h : List (Rows.Op × Rows.Out)) (x : Rows.Op × Rows.Out) :
    live path (h ++ [x]) = live1 path (live path h) x := by
  simp only [live, List.foldl_append, List.foldl_cons, List.foldl_nil]

theorem reached_usage {D : List Decl} {app : App} {w : World} (h : Reached D app w) :
    ∃ u, Usage D u w.tree ∧ ∀ path, live path u = agreed path w.calls := by
  induction h with
  | start ho hg => exact ⟨[], .start ho hg, fun _ => rfl⟩
  | @step w w' op c n hw hp hf hstep ih =>
    obtain ⟨u, hu, hlive⟩ := ih
    have hgood := usage_good hu
    cases op with
    | add fate p s t a =>
      have hex := hp.2.2.2.2.1.1
      have key : ∀ w2 c2 i2, adding app w t (given a) = .ok (w2, c2, i2) → t.getLast? = some 46 →
          ∃ u, Usage D u w2.tree ∧ ∀ path, live path u = agreed path w2.calls := by
        intro w2 c2 i2 had hl
        cases he : seen w.tree (pieces t) with
        | none =>
          rw [adding_eq hgood hex, he] at had
          cases had
          exact ⟨u, hu, hlive⟩
        | some e =>
          cases hcb : e.cb.addRow with
          | none =>
            rw [adding_eq hgood hex, he] at had
            simp only [hcb] at had
            cases had
            exact ⟨u, hu, hlive⟩
          | some f =>
            by_cases hc : (app.add w.calls f t (given a)).1 = 0
            · obtain ⟨T, o, h1, hcalled, hsane, _, h2⟩ := adding_ok hgood hp hf hl he hcb hc
              rw [h2] at had
              cases had
              refine ⟨_, .step hu hsane h1, ?_⟩
              intro path
              rw [live_snoc, agreed_snoc, hlive path]
              simp only [live1, row1, hcalled, given, and_true]
            · rw [adding_eq hgood hex, he] at had
              simp only [hcb, hc, if_false] at had
              cases had
              refine ⟨u, hu, ?_⟩
              intro path
              rw [agreed_snoc, hlive path]
              simp only [row1, hc, and_false, if_false]
      simp only [RowWire.step] at hstep
      by_cases hl : t.getLast? = some 46
      · rw [addRow_eq app w fate hp hl] at hstep
        cases fate with
        | lost e => cases hstep; exact ⟨u, hu, hlive⟩
        | unanswered e =>
          simp only at hstep
          cases had : adding app w t (given a) with
          | ok x =>
            obtain ⟨w2, c2, i2⟩ := x
            rw [had] at hstep
            cases hstep
            exact key _ _ _ had hl
          | fail => rw [had] at hstep; cases hstep
          | ub => rw [had] at hstep; cases hstep
        | delivered =>
          simp only at hstep
          cases had : adding app w t (given a) with
          | ok x =>
            obtain ⟨w2, c2, i2⟩ := x
            rw [had] at hstep
            cases hstep
            exact key _ _ _ had hl
          | fail => rw [had] at hstep; cases hstep
          | ub => rw [had] at hstep; cases hstep
      · have hl2 : t.getLast? ≠ some dot := hl
        rw [addRow, if_neg hp.2.2.1, if_pos hl2] at hstep
        cases hstep
        exact ⟨u, hu, hlive⟩
    | remove fate p s r =>
      have hex := hp.2.2.2.1
      have key : ∀ w2 c2, removing app w r = .ok (w2, c2) →
          ∃ u, Usage D u w2.tree ∧ ∀ path, live path u = agreed path w2.calls := by
        intro w2 c2 had
        cases he : seen w.tree (pieces r) with
        | none =>
          rw [removing_eq hgood hex, he] at had
          cases had
          exact ⟨u, hu, hlive⟩
        | some e =>
          cases he' : seen w.tree (pieces r).dropLast with
          | none =>
            rw [removing_eq hgood hex, he, he'] at had
            cases had
            exact ⟨u, hu, hlive⟩
          | some e' =>
            cases hcb : e'.cb.removeRow with
            | none =>
              rw [removing_eq hgood hex, he, he'] at had
              simp only [hcb] at had
              cases had
              exact ⟨u, hu, hlive⟩
            | some f =>
              by_cases hc : app.remove w.calls f r = 0
              · obtain ⟨T, o, h1, hcalled, hsane, _, h2⟩ := removing_ok hgood hp hf he he' hcb hc
                rw [h2] at had
                cases had
                refine ⟨_, .step hu hsane h1, ?_⟩
                intro path
                rw [live_snoc, agreed_snoc, hlive path]
                simp only [live1, row1, hcalled, and_true, if_true]
              · rw [removing_eq hgood hex, he, he'] at had
                simp only [hcb, hc, if_false] at had
                cases had
                refine ⟨u, hu, ?_⟩
                intro path
                rw [agreed_snoc, hlive path]
                simp only [row1, hc, if_false]
      simp only [RowWire.step] at hstep
      rw [removeRow_eq app w fate hp] at hstep
      cases fate with
      | lost e => cases hstep; exact ⟨u, hu, hlive⟩
      | unanswered e =>
        simp only at hstep
        cases had : removing app w r with
        | ok x =>
          obtain ⟨w2, c2⟩ := x
          rw [had] at hstep
          cases hstep
          exact key _ _ had
        | fail => rw [had] at hstep; cases hstep
        | ub => rw [had] at hstep; cases hstep
      | delivered =>
        simp only at hstep
        cases had : removing app w r with
        | ok x =>
          obtain ⟨w2, c2⟩ := x
          rw [had] at hstep
          cases hstep
          exact key _ _ had
        | fail => rw [had] at hstep; cases hstep
        | ub => rw [had] at hstep; cases hstep

end Verif.RowWire
