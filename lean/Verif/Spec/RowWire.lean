import Verif.Model.RowWire
import Verif.Spec.Rows
import Verif.Spec.SetGet

/-!
# What adding and removing rows is meant to do
-/

namespace Verif.RowWire

open Verif Verif.Element Verif.Wire Verif.Spec.Provider Verif.Spec.Rows
open Verif.Method (Fate)

/-- A text of ordinary length. -/
def Short (n : Bytes) : Prop := (0 : UInt8) ∉ n ∧ n.length < 2 ^ 20

/-- The alias as a handler gets it: an empty one is none. -/
def given (a : Option Bytes) : Option Bytes := if a = some [] then none else a

/-- The names in a call are plain and of ordinary length, and so is the trace context. -/
def Proper : Op → Prop
  | .add _ p s t a => Name p ∧ Name s ∧ t ≠ [] ∧ Short t ∧ Spec.Rows.Plain (pieces t) ∧ ∀ x, a = some x → Short x
  | .remove _ p s r => Name p ∧ Name s ∧ Short r ∧ Spec.Rows.Plain (pieces r)

/-- The application as it should be: handlers for rows belong to tables, and those that add a row with success give it a
number not in use. -/
def Fair (V : View) (app : App) (calls : List Call) : Op → Prop
  | .add _ _ _ t a => ∀ e f, V (pieces t) = some e → e.cb.addRow = some f → (app.add calls f t (given a)).1 = 0 →
      e.type = tTable ∧ decimal (app.add calls f t (given a)).2.toNat ∉ e.below
  | .remove _ _ _ r => ∀ e f, V (pieces r).dropLast = some e → e.cb.removeRow = some f → app.remove calls f r = 0 →
      e.type = tTable

/-- A provider that has declared elements in order, tables without get handlers, and then had proper calls, with any of the
messages lost on the way. -/
inductive Reached (D : List Decl) (app : App) : World → Prop where
  | start : Orderly D → (∀ d ∈ D, d.type = tTable → d.cb.get = none) → Reached D app ⟨declare D, []⟩
  | step {w w' : World} {op : Op} {c : BitVec 32} {n : Option (BitVec 32)} : Reached D app w → Proper op →
      Fair (Spec.Rows.seen w.tree) app w.calls op → RowWire.step app w op = .ok (w', c, n) → Reached D app w'

/-- The rows of a table after one more call of a handler: one that adds with success, or removes with success. -/
def row1 (table : Path) (l : List (Nat × Option Bytes)) : Call → List (Nat × Option Bytes)
  | .add _ t a c i => if pieces t = table ∧ c = 0 then l ++ [(i.toNat, a)] else l
  | .remove _ r c => if c = 0 then l.filter (fun y => pieces r ≠ table ++ [decimal y.1]) else l

/-- The rows of a table that the handlers have agreed to, oldest first, with number and alias. -/
def agreed (table : Path) (calls : List Call) : List (Nat × Option Bytes) := calls.foldl (row1 table) []

end Verif.RowWire
