import Verif.Proof.RowsHistory
import Verif.Props.Provider

/-!
# C81: the rows of tables

`Usage D h T`: a provider declared the elements `D` in order and then had the calls of `h`, with what they gave; `T` is its
tree of elements. `seen T p` is what the name with the components `p` leads to.
-/

namespace Verif.Props

open Verif Verif.Rows
open Verif.Element (Tree Path tTable tProperty template decimal)
open Verif.Spec.Provider (Decl Orderly declare Names pieces)
open Verif.Spec.Rows (Entry Exact Plain withRow withoutRow answer effect Usage live wrap)

/-! ## A small world for the examples -/

/-- Whether a call is as it should be, as a computation. -/
def rowsSaneNow (T : Tree) : Rows.Op → Bool
  | .add t _ c i => t ≠ [] && decide (∀ x ∈ pieces t, x ≠ [] ∧ (46 : UInt8) ∉ x ∧ x ≠ [42] ∧ x.head? ≠ some 91) &&
      decide (template ∉ pieces t) && decide (i < 2 ^ 32) && (c ≠ 0 || match Spec.Rows.seen T (pieces t) with
        | none => true
        | some e => e.cb.addRow = none || (e.type = tTable && decide (decimal i ∉ e.below)))
  | .remove r c => decide (∀ x ∈ pieces r, x ≠ [] ∧ (46 : UInt8) ∉ x ∧ x ≠ [42] ∧ x.head? ≠ some 91) &&
      decide (template ∉ pieces r) && (c ≠ 0 || match Spec.Rows.seen T (pieces r).dropLast with
        | none => true
        | some e => e.cb.removeRow = none || e.type = tTable)
  | .register t i _ => decide (∀ x ∈ pieces t, x ≠ [] ∧ (46 : UInt8) ∉ x ∧ x ≠ [42] ∧ x.head? ≠ some 91) &&
      decide (template ∉ pieces t) && t.getLast? = some 46 && decide (i < 2 ^ 31) && match Spec.Rows.seen T (pieces t) with
        | none => true
        | some e => e.type = tTable
  | .unregister r => decide (∀ x ∈ pieces r, x ≠ [] ∧ (46 : UInt8) ∉ x ∧ x ≠ [42] ∧ x.head? ≠ some 91) &&
      decide (template ∉ pieces r) && (Spec.Rows.seen T (pieces r) = none || match Spec.Rows.seen T (pieces r).dropLast with
        | none => false
        | some e => e.type = tTable)
  | .list t => decide (∀ x ∈ pieces t, x ≠ [] ∧ (46 : UInt8) ∉ x ∧ x ≠ [42] ∧ x.head? ≠ some 91) &&
      decide (template ∉ pieces t)

theorem rows_sane_of_now {T : Tree} {op : Rows.Op} (h : rowsSaneNow T op = true) : Spec.Rows.Sane (Spec.Rows.seen T) op := by
  cases op with
  | add t a c i =>
    simp only [rowsSaneNow, Bool.and_eq_true, decide_eq_true_eq, Bool.or_eq_true] at h
    obtain ⟨⟨⟨⟨h1, h2⟩, h3⟩, h4⟩, h5⟩ := h
    refine ⟨h1, ⟨h2, h3⟩, h4, ?_⟩
    intro hc e he hcb
    rcases h5 with h5 | h5
    · exact absurd hc h5
    · simp only [he, Bool.or_eq_true, decide_eq_true_eq, Bool.and_eq_true] at h5
      exact h5.resolve_left hcb
  | remove r c =>
    simp only [rowsSaneNow, Bool.and_eq_true, decide_eq_true_eq, Bool.or_eq_true] at h
    obtain ⟨⟨h2, h3⟩, h5⟩ := h
    refine ⟨⟨h2, h3⟩, ?_⟩
    intro hc e he hcb
    rcases h5 with h5 | h5
    · exact absurd hc h5
    · simp only [he, Bool.or_eq_true, decide_eq_true_eq] at h5
      exact h5.resolve_left hcb
  | register t i a =>
    simp only [rowsSaneNow, Bool.and_eq_true, decide_eq_true_eq] at h
    obtain ⟨⟨⟨⟨h2, h3⟩, h4⟩, h5⟩, h6⟩ := h
    refine ⟨⟨h2, h3⟩, h4, h5, ?_⟩
    intro e he
    simpa [he] using h6
  | unregister r =>
    simp only [rowsSaneNow, Bool.and_eq_true, decide_eq_true_eq, Bool.or_eq_true] at h
    obtain ⟨⟨h2, h3⟩, h5⟩ := h
    refine ⟨⟨h2, h3⟩, ?_⟩
    intro hne
    rcases h5 with h5 | h5
    · exact absurd h5 hne
    · cases hp : Spec.Rows.seen T (pieces r).dropLast with
      | none => rw [hp] at h5; cases h5
      | some e =>
        rw [hp] at h5
        exact ⟨e, rfl, by simpa using h5⟩
  | list t =>
    simp only [rowsSaneNow, Bool.and_eq_true, decide_eq_true_eq] at h
    exact h

/-- Calls one after another, as long as they are as they should be. -/
def rowsRunNow : Tree → List Rows.Op → Option (Tree × List (Rows.Op × Out))
  | T, [] => some (T, [])
  | T, op :: ops =>
    if rowsSaneNow T op then
      match Rows.step T op with
      | .ok (T', o) => (rowsRunNow T' ops).map (fun x => (x.1, (op, o) :: x.2))
      | _ => none
    else none

theorem usage_of_run {D : List Decl} : ∀ {ops : List Rows.Op} {T T' : Tree} {h h' : List (Rows.Op × Out)}, Usage D h T →
    rowsRunNow T ops = some (T', h') → Usage D (h ++ h') T' := by
  intro ops
  induction ops with
  | nil => intro T T' h h' hu hr; simp only [rowsRunNow, Option.some.injEq, Prod.mk.injEq] at hr; simpa [hr.1, ← hr.2] using hu
  | cons op ops ih =>
    intro T T' h h' hu hr
    simp only [rowsRunNow] at hr
    split at hr
    next hs =>
      cases hstep : Rows.step T op with
      | ok x =>
        obtain ⟨T1, o⟩ := x
        rw [hstep] at hr
        simp only [Option.map_eq_some_iff] at hr
        obtain ⟨⟨T2, h2⟩, hr, he⟩ := hr
        simp only [Prod.mk.injEq] at he
        have := ih (hu.step (rows_sane_of_now hs) hstep) hr
        rw [← he.1, ← he.2]
        simpa using this
      | fail => rw [hstep] at hr; cases hr
      | ub => rw [hstep] at hr; cases hr
    next => cases hr

/-- A table with handlers for its rows, a property in each row, a property elsewhere. -/
def tableModel : List Decl :=
  [⟨"A.t.{i}.".toUTF8.data.toList, tTable, { addRow := some 1, removeRow := some 2 }⟩,
   ⟨"A.t.{i}.v".toUTF8.data.toList, tProperty, { get := some 3 }⟩,
   ⟨"A.p".toUTF8.data.toList, tProperty, { get := some 4 }⟩]

private def tTab : Bytes := "A.t.".toUTF8.data.toList

private def tRow : Bytes := "A.t.1.".toUTF8.data.toList

theorem tableModel_start : Usage tableModel [] (declare tableModel) :=
  .start (orderly_of_now (by decide +kernel)) (by decide +kernel)

/-- Two rows are added, one is registered, the first is removed. -/
private def tCalls : List Rows.Op :=
  [.add tTab (some [120]) 0 1, .add tTab none 0 7, .register tTab 3 (some [121]), .remove tRow 0]

/-! ## Calls -/

/-- Every call as it should be gets the answer the specification gives, and afterwards each name leads to what the
specification says: a new row has what the row template has, a removed row is gone with all below it, and nothing else has
changed. Missing: calls of other shapes, see the findings. -/
theorem C81_call_partial {D : List Decl} {h : List (Rows.Op × Out)} {T : Tree} (hu : Usage D h T) {op : Rows.Op}
    (hs : Spec.Rows.Sane (Spec.Rows.seen T) op) :
    ∃ T' o, Rows.step T op = .ok (T', o) ∧ (o.code, o.called) = answer (Spec.Rows.seen T) op ∧
      ∀ p, Exact p → Spec.Rows.seen T' p = effect (Spec.Rows.seen T) op p := by
  obtain ⟨T', o, h1, h2⟩ := RowsProof.did (RowsProof.usage_good hu) hs
  exact ⟨T', o, h1, h2.answer, h2.effect⟩

example : ∃ T h, rowsRunNow (declare tableModel) tCalls = some (T, h) ∧ Usage tableModel h T ∧
    h.map (fun x => (x.2.code, x.2.inst, x.2.called)) = [(0, 1, true), (0, 7, true), (0, 0, false), (0, 0, true)] ∧
    (Spec.Rows.seen T [[65], [116], [55], [118]]).map (·.cb.get) = some (some 3) ∧ Spec.Rows.seen T [[65], [116], [49], [118]] = none := by
  have hd : (rowsRunNow (declare tableModel) tCalls).map (fun x =>
      (x.2.map (fun x => (x.2.code, x.2.inst, x.2.called)), (Spec.Rows.seen x.1 [[65], [116], [55], [118]]).map (·.cb.get),
        Spec.Rows.seen x.1 [[65], [116], [49], [118]])) =
      some ([(0, 1, true), (0, 7, true), (0, 0, false), (0, 0, true)], some (some 3), none) := by decide +kernel
  cases hr : rowsRunNow (declare tableModel) tCalls with
  | none => rw [hr] at hd; cases hd
  | some x =>
    obtain ⟨T, h⟩ := x
    rw [hr] at hd
    simp only [Option.map_some, Option.some.injEq, Prod.mk.injEq] at hd
    exact ⟨T, h, rfl, usage_of_run tableModel_start hr, hd.1, hd.2.1, hd.2.2⟩

/-- Whoever adds a row gets the number that the provider's handler gave it. -/
theorem C81_number_partial {D : List Decl} {h : List (Rows.Op × Out)} {T : Tree} (hu : Usage D h T) {t : Bytes}
    {a : Option Bytes} {c i : Nat} (hs : Spec.Rows.Sane (Spec.Rows.seen T) (.add t a c i)) :
    ∃ T' o, Rows.step T (.add t a c i) = .ok (T', o) ∧ o.inst = (if o.called then i else 0) := by
  obtain ⟨T', o, h1, _, h2, _⟩ := RowsProof.add_did (RowsProof.usage_good hu) hs
  exact ⟨T', o, h1, h2⟩

/-- At any time the names lead to what the calls so far, one after another, have made of what was declared. -/
theorem C81_history_partial {D : List Decl} {h : List (Rows.Op × Out)} {T : Tree} (hu : Usage D h T) {p : Path}
    (hp : Exact p) : Spec.Rows.seen T p = (h.map (·.1)).foldl effect (Spec.Rows.seen (declare D)) p := RowsProof.usage_fold hu p hp

/-- What is declared is there at the start, tables without rows. -/
theorem C81_declared_partial {D : List Decl} (ho : Orderly D) (hg : ∀ d ∈ D, d.type = tTable → d.cb.get = none)
    {d : Decl} (hd : d ∈ D) (he : Exact d.path) : ∃ e, Spec.Rows.seen (declare D) d.path = some e ∧ e.type = d.type ∧
      e.cb.addRow = d.cb.addRow ∧ e.cb.removeRow = d.cb.removeRow ∧ (d.type = tTable → e.below = [template]) :=
  RowsProof.declare_seen ho hg hd he

example : (Spec.Rows.seen (declare tableModel) [[65], [116]]).map (fun e => (e.type, e.below)) = some (2, [template]) := by
  decide +kernel

/-- Whatever the rows are, an element found under a name is of the kind declared for such names and has the handlers
declared for them. -/
theorem C81_kind_partial {D : List Decl} {h : List (Rows.Op × Out)} {T : Tree} (hu : Usage D h T) {p : Path} (hp : Exact p)
    {e : Entry} (hs : Spec.Rows.seen T p = some e) {d : Decl} (hd : d ∈ D) (hn : Names D [] p d.path) :
    e.type = d.type ∧ e.cb.get = d.cb.get ∧ e.cb.set = d.cb.set ∧ e.cb.addRow = d.cb.addRow ∧
      e.cb.removeRow = d.cb.removeRow := RowsProof.usage_kind hu hp hs hd hn

/-! ## Rows -/

/-- The rows of a declared table are those added and registered since, without those removed and unregistered, in the order
in which they came; each has the alias it came with. -/
theorem C81_rows_partial {D : List Decl} {h : List (Rows.Op × Out)} {T : Tree} (hu : Usage D h T) {d : Decl}
    (hd : d ∈ D) (ht : d.type = tTable) (hp : Plain d.path) :
    (∃ e, Spec.Rows.seen T d.path = some e ∧ e.type = tTable ∧ e.below = template :: (live d.path h).map (fun y => decimal y.1)) ∧
    ((live d.path h).map (·.1)).Nodup ∧
    ∀ y ∈ live d.path h, ∃ e, Spec.Rows.seen T (d.path ++ [decimal y.1]) = some e ∧ e.alias = y.2 := by
  have hk := RowsProof.usage_kept hu hd ht hp
  exact ⟨hk.table, hk.nodup, fun y hy => (hk.rows y hy).2⟩

/-- Listing the rows of a declared table gives exactly these rows, in this order, with number and alias. -/
theorem C81_listed_partial {D : List Decl} {h : List (Rows.Op × Out)} {T : Tree} (hu : Usage D h T) {d : Decl}
    (hd : d ∈ D) (ht : d.type = tTable) (hp : Plain d.path) {t : Bytes} (hpt : pieces t = d.path) :
    ∃ o, Rows.step T (.list t) = .ok (T, o) ∧ o.code = 0 ∧
      o.rows = (live d.path h).map (fun y => (wrap y.1, y.2.getD [])) := by
  have hk := RowsProof.usage_kept hu hd ht hp
  have hg := RowsProof.usage_good hu
  have hs : Spec.Rows.Sane (Spec.Rows.seen T) (.list t) := by
    change Plain (pieces t)
    rw [hpt]
    exact hp
  obtain ⟨o, h1, h2, _, h3⟩ := RowsProof.list_did hg hs
  obtain ⟨e, he, hty, hb⟩ := hk.table
  rw [hpt] at h3
  obtain ⟨is, h4, h5⟩ := h3 e he hty
  have hcode : o.code = 0 := by
    have := h2.answer
    simp only [answer, hpt, he, hty, if_true, Prod.mk.injEq] at this
    exact this.1
  refine ⟨o, h1, hcode, ?_⟩
  rw [hb] at h4
  simp only [List.cons.injEq, true_and] at h4
  have his : is = (live d.path h).map (·.1) := by
    have key : ∀ (l : List (Nat × Option Bytes)) (is : List Nat), l.map (fun y => decimal y.1) = is.map decimal →
        is = l.map (·.1) := by
      intro l
      induction l with
      | nil => intro is h; cases is with
        | nil => rfl
        | cons => cases h
      | cons y l ih =>
        intro is h
        cases is with
        | nil => cases h
        | cons i is =>
          simp only [List.map_cons, List.cons.injEq] at h
          rw [List.map_cons, ← ih is h.2, RowsProof.decimal_inj h.1]
    exact key _ _ h4
  rw [h5, his, List.map_map]
  apply List.map_congr_left
  intro y hy
  obtain ⟨_, er, her, hal⟩ := hk.rows y hy
  simp [her, hal]

example : ∃ T h, rowsRunNow (declare tableModel) tCalls = some (T, h) ∧ Usage tableModel h T ∧
    live [[65], [116]] h = [(7, none), (3, some [121])] ∧
    Rows.step T (.list tTab) = .ok (T, { code := 0, rows := [(7, []), (3, [121])] }) := by
  have hd : (rowsRunNow (declare tableModel) tCalls).map (fun x => (live [[65], [116]] x.2)) =
      some [(7, none), (3, some [121])] := by decide +kernel
  cases hr : rowsRunNow (declare tableModel) tCalls with
  | none => rw [hr] at hd; cases hd
  | some x =>
    obtain ⟨T, h⟩ := x
    rw [hr] at hd
    simp only [Option.map_some, Option.some.injEq] at hd
    have hl : (rowsRunNow (declare tableModel) tCalls).map (fun x => match Rows.step x.1 (.list tTab) with
      | .ok (_, o) => some o
      | _ => none) = some (some { code := 0, rows := [(7, []), (3, [121])] }) := by decide +kernel
    have hu := usage_of_run tableModel_start hr
    obtain ⟨o, ho, _⟩ := C81_listed_partial hu (List.mem_cons_self : _ ∈ tableModel) (by decide)
      ⟨by unfold Spec.Rows.Exact; decide +kernel, by decide +kernel⟩ (t := tTab) (by decide +kernel)
    rw [hr] at hl
    simp only [Option.map_some, Option.some.injEq, ho] at hl
    exact ⟨T, h, rfl, hu, hd, by rw [ho, hl]⟩

/-- The name listed for a row leads to the row, as long as the number is below 2^31 and the name fits. -/
theorem C81_names_lead_back_partial {t : Bytes} {i : Nat} (hl : t.getLast? = some 46) (hi : i < 2 ^ 31)
    (hn : t.length + (decimal i).length + 1 < 256) : pieces (Rows.rowName t (wrap i)) = pieces t ++ [decimal i] := by
  obtain ⟨hd1, hd2, _, _⟩ := RowsProof.decimal_ok i
  have hw : wrap i = (i : Int) := by simp [wrap, hi]
  unfold Rows.rowName
  rw [hw, if_neg (by omega), Int.toNat_natCast, List.take_of_length_le (by
    simp only [List.length_append, List.length_singleton, Rows.maxName]
    omega)]
  rw [← RowsProof.pieces_snoc hl hd2 hd1]
  unfold pieces
  have := RowsProof.cut_snoc (t ++ decimal i) [] (by simp)
  rw [show (Element.dot : UInt8) = 46 from rfl, this, List.filter_append]
  simp

example : Rows.rowName tTab (wrap 12) = "A.t.12.".toUTF8.data.toList := by decide +kernel

/-- A row with an alias is found by `[alias]` in place of its number: the first row, if several have the alias. -/
theorem C81_alias_partial {D : List Decl} {h : List (Rows.Op × Out)} {T : Tree} (hu : Usage D h T) {P q : Path}
    (hP : Exact P) (hq : Exact q) {e er : Entry} {l1 l2 : List Element.Token} {n : Element.Token} {a : Bytes} (ha : a ≠ [])
    (had : (46 : UInt8) ∉ a) (hs : Spec.Rows.seen T P = some e) (ht : e.type = tTable) (hb : e.below = template :: l1 ++ n :: l2)
    (hr : Spec.Rows.seen T (P ++ [n]) = some er) (hal : er.alias = some a)
    (hfirst : ∀ n' ∈ l1, ∀ e', Spec.Rows.seen T (P ++ [n']) = some e' → e'.alias ≠ some a) :
    Spec.Rows.seen T (P ++ (91 :: a ++ [93]) :: q) = Spec.Rows.seen T (P ++ n :: q) :=
  RowsProof.alias_seen (RowsProof.usage_good hu) hP hq ha had hs ht hb hr hal hfirst

example : (rowsRunNow (declare tableModel) tCalls).map (fun x => (Spec.Rows.seen x.1 [[65], [116], [91, 121, 93], [118]]).map (·.cb.get)) =
    some (some (some 3)) := by decide +kernel

/-! ## What goes wrong otherwise -/

/-- The answers of several calls, if all is defined. -/
def rowAnswers (T : Tree) (ops : List Rows.Op) : Option (List Out) :=
  match Rows.run T ops with
  | .ok (_, os) => some os
  | _ => none

/-- A provider's handler that gives a number in use makes a second row of the same name, and the row is still there after it
was removed. -/
theorem C81_number_in_use_fails : rowAnswers (declare tableModel)
      [.add tTab none 0 1, .add tTab none 0 1, .list tTab, .remove tRow 0, .list tTab] =
    some [{ code := 0, inst := 1, called := true }, { code := 0, inst := 1, called := true },
      { code := 0, rows := [(1, []), (1, [])] }, { code := 0, called := true }, { code := 0, rows := [(1, [])] }] := by
  decide +kernel

/-- Removing the row `*` of a table removes the row template: the next row added is made from nothing, and the provider
crashes. -/
theorem C81_star_removed_fails :
    rowAnswers (declare tableModel) [.remove "A.t.*.".toUTF8.data.toList 0] = some [{ code := 0, called := true }] ∧
    Rows.run (declare tableModel) [.remove "A.t.*.".toUTF8.data.toList 0, .add tTab none 0 1] = .ub := by
  refine ⟨by decide +kernel, ?_⟩
  have h : (match Rows.run (declare tableModel) [.remove "A.t.*.".toUTF8.data.toList 0, .add tTab none 0 1] with
    | .ub => true | _ => false) = true := by decide +kernel
  revert h
  generalize Rows.run (declare tableModel) [.remove "A.t.*.".toUTF8.data.toList 0, .add tTab none 0 1] = x
  intro h
  cases x with
  | ub => rfl
  | ok => cases h
  | fail => cases h

/-- The same with the name of the row template itself, and when the provider unregisters it. -/
theorem C81_template_removed_fails :
    (match Rows.run (declare tableModel) [.remove "A.t.{i}.".toUTF8.data.toList 0, .add tTab none 0 1] with
      | .ub => true | _ => false) = true ∧
    (match Rows.run (declare tableModel) [.unregister "A.t.{i}.".toUTF8.data.toList, .register tTab 1 none] with
      | .ub => true | _ => false) = true := by decide +kernel

/-- A handler may answer with the legacy code of success, 100: the caller is told that the row was added, and there is no
row. -/
theorem C81_legacy_success_fails : rowAnswers (declare tableModel) [.add tTab none 100 1, .list tTab] =
    some [{ code := 0, inst := 1, called := true }, { code := 0, rows := [] }] := by decide +kernel

/-- Registering a row whose number is 2^31 or more is not seen as a repetition: the name looked for has a negative number.
There are two rows of one name. -/
theorem C81_register_twice_fails :
    (rowAnswers (declare tableModel) [.register tTab (2 ^ 31) none, .register tTab (2 ^ 31) none, .list tTab]).map
      (fun l => l.map (fun o => (o.code, o.rows.length))) = some [(0, 0), (0, 0), (0, 2)] := by decide +kernel

/-- Nor is a repetition seen if the table is named without the dot at the end. -/
theorem C81_register_without_dot_fails :
    (rowAnswers (declare tableModel) [.register "A.t".toUTF8.data.toList 1 none, .register "A.t".toUTF8.data.toList 1 none,
      .list tTab]).map (fun l => l.map (fun o => (o.code, o.rows))) =
    some [(0, []), (0, []), (0, [(1, []), (1, [])])] := by decide +kernel

/-- Registering a row in something that is not a table crashes the provider. -/
theorem C81_register_elsewhere_fails :
    (match Rows.step (declare tableModel) (.register "A.".toUTF8.data.toList 1 none) with | .ub => true | _ => false) = true ∧
    (match Rows.step (declare tableModel) (.register "A.p".toUTF8.data.toList 1 none) with | .ub => true | _ => false) = true := by
  decide +kernel

/-- Unregistering takes any element: a property is gone for good. -/
theorem C81_unregister_property_fails :
    (match Rows.step (declare tableModel) (.unregister "A.p".toUTF8.data.toList) with
      | .ok (T, o) => some (o.code, (Spec.Rows.seen (declare tableModel) [[65], [112]]).isSome, (Spec.Rows.seen T [[65], [112]]).isSome)
      | _ => none) = some (0, true, false) := by decide +kernel

/-- In a table with a get handler every row stands for the row template: removing one row leaves all rows and removes the
template, and the next row added crashes the provider. -/
theorem C81_get_handler_fails :
    let T := declare [⟨"A.t.{i}.".toUTF8.data.toList, tTable, { get := some 5, addRow := some 1, removeRow := some 2 }⟩]
    (rowAnswers T [.add tTab none 0 1, .remove tRow 0, .list tTab]).map (fun l => l.map (fun o => (o.code, o.rows))) =
      some [(0, []), (0, []), (0, [(1, [])])] ∧
    (match Rows.run T [.add tTab none 0 1, .remove tRow 0, .add tTab none 0 2] with | .ub => true | _ => false) = true := by
  decide +kernel

/-- A row whose alias contains a dot is not found by its alias. -/
theorem C81_alias_with_dot_fails :
    (match Rows.step (declare tableModel) (.add tTab (some [120, 46, 121]) 0 1) with
      | .ok (T, _) => some ((Element.retrieveInstance T "A.t.1.v".toUTF8.data.toList).isSome,
          (Element.retrieveInstance T "A.t.[x.y].v".toUTF8.data.toList).isSome)
      | _ => none) = some (true, false) := by decide +kernel

/-- Numbers of 2^31 and more are listed as negative ones, under names that lead nowhere. -/
theorem C81_listed_negative_fails :
    (match Rows.step (declare tableModel) (.add tTab none 0 (2 ^ 31)) with
      | .ok (T, _) => match Rows.step T (.list tTab) with
        | .ok (_, o) => o.rows.map (fun r => (r.1, (Element.retrieveInstance T (Rows.rowName tTab r.1)).isSome))
        | _ => []
      | _ => []) = [((-2147483648 : Int), false)] := by decide +kernel

/-- Adding a row to a table with an empty name reads the byte before the name. -/
theorem C81_empty_name_fails (T : Tree) (a : Option Bytes) (c i : Nat) : Rows.step T (.add [] a c i) = .ub := by
  simp [Rows.step, Rows.addRow]

end Verif.Props
