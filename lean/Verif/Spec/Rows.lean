import Verif.Model.Rows
import Verif.Spec.Provider

/-!
# Specification of tables: what the names lead to
-/

namespace Verif.Spec.Rows

open Verif Verif.Element Verif.Rows Verif.Spec.Provider

/-- What a name leads to: kind, handlers, alias, and the names directly below, in order. -/
structure Entry where
  type : Nat
  cb : Cb
  alias : Option Bytes
  below : List Element.Token
  deriving DecidableEq, Repr

/-- What the names, given by their components, lead to. -/
abbrev View := Path → Option Entry

/-- What can be seen of a node. -/
def entry (n : Node) : Entry := ⟨n.info.type, n.info.cb, n.info.alias, n.children.map (·.info.name)⟩

/-- The components of a name with dots between them. -/
def join (p : Path) : Bytes := (p.map (fun t => t ++ [46])).flatten

/-- What the names lead to at a provider: what `retrieveInstanceElement` finds. -/
def seen (T : Tree) : View := fun p => (retrieveInstance T (join p)).map entry

/-- Components that are looked for as they are: not empty, without dots, neither wildcards nor aliases in brackets. -/
def Exact (p : Path) : Prop := ∀ t ∈ p, t ≠ [] ∧ (46 : UInt8) ∉ t ∧ t ≠ [42] ∧ t.head? ≠ some 91

/-- Names of elements, not of row templates. -/
def Plain (p : Path) : Prop := Exact p ∧ template ∉ p

/-- A row is there: below it is what the row template has, and it is the last row of the table. -/
def withRow (V : View) (table : Path) (row : Element.Token) (alias : Option Bytes) : View := fun p =>
  if p = table then (V table).map (fun e => { e with below := e.below ++ [row] })
  else if table ++ [row] <+: p then
    (V (table ++ template :: p.drop (table.length + 1))).map
      (fun e => { e with alias := if p.length = table.length + 1 then alias else none })
  else V p

/-- A row is gone, with all below it. -/
def withoutRow (V : View) (table : Path) (row : Element.Token) : View := fun p =>
  if p = table then (V table).map (fun e => { e with below := e.below.erase row })
  else if table ++ [row] <+: p then none
  else V p

/-- The code of a call for the code of the handler: 100 and more are legacy codes. -/
def told (c : Nat) : Nat := if c = 0 ∨ c = 100 then 0 else if 100 < c then Params.ccspToRbus c else c

/-- Code of a call, and whether the provider's handler is called. -/
def answer (V : View) : Op → Nat × Bool
  | .add t _ c _ =>
    if t.getLast? ≠ some 46 then (2, false)
    else match V (pieces t) with
      | none => (17, false)
      | some e => if e.cb.addRow = none then (9, false) else (told c, true)
  | .remove r c =>
    match V (pieces r), V (pieces r).dropLast with
    | none, _ => (17, false)
    | some _, none => (9, false)
    | some _, some e => if e.cb.removeRow = none then (9, false) else (told c, true)
  | .register t i _ =>
    if 256 ≤ t.length + (decimal i).length then (2, false)
    else match V (pieces t) with
      | none => (2, false)
      | some e => if decimal i ∈ e.below then (2, false) else (0, false)
  | .unregister r => if V (pieces r) = none then (2, false) else (0, false)
  | .list t =>
    match V (pieces t) with
    | none => (17, false)
    | some e => if e.type = tTable then (0, false) else (2, false)

/-- What the names lead to after a call. -/
def effect (V : View) (op : Op) : View :=
  match op with
  | .add t a c i =>
    if (answer V op).2 = true ∧ c = 0 then withRow V (pieces t) (decimal i) (if a = some [] then none else a) else V
  | .remove r c =>
    if (answer V op).2 = true ∧ c = 0 then withoutRow V (pieces r).dropLast ((pieces r).getLastD []) else V
  | .register t i a => if (answer V op).1 = 0 then withRow V (pieces t) (decimal i) a else V
  | .unregister r => if (answer V op).1 = 0 then withoutRow V (pieces r).dropLast ((pieces r).getLastD []) else V
  | .list _ => V

/-- Calls as they should be: names are plain; the handler that adds a row belongs to a table and gives a number not in
use; rows are removed from tables only; rows are registered in tables named with a dot at the end and have
numbers below 2^31. -/
def Sane (V : View) : Op → Prop
  | .add t _ c i => t ≠ [] ∧ Plain (pieces t) ∧ i < 2 ^ 32 ∧
      (c = 0 → ∀ e, V (pieces t) = some e → e.cb.addRow ≠ none → e.type = tTable ∧ decimal i ∉ e.below)
  | .remove r c => Plain (pieces r) ∧
      (c = 0 → ∀ e, V (pieces r).dropLast = some e → e.cb.removeRow ≠ none → e.type = tTable)
  | .register t i _ => Plain (pieces t) ∧ t.getLast? = some 46 ∧ i < 2 ^ 31 ∧
      ∀ e, V (pieces t) = some e → e.type = tTable
  | .unregister r => Plain (pieces r) ∧ (V (pieces r) ≠ none → ∃ e, V (pieces r).dropLast = some e ∧ e.type = tTable)
  | .list t => Plain (pieces t)

/-- A provider that has declared elements in order, tables without get handlers, and then had calls as they should be; with
the history of calls and what they gave. -/
inductive Usage (D : List Decl) : List (Op × Out) → Tree → Prop where
  | start : Orderly D → (∀ d ∈ D, d.type = tTable → d.cb.get = none) → Usage D [] (declare D)
  | step {h : List (Op × Out)} {T T' : Tree} {op : Op} {o : Out} : Usage D h T → Sane (seen T) op →
      Rows.step T op = .ok (T', o) → Usage D (h ++ [(op, o)]) T'

/-- The rows of a table, number and alias, after one more call: added by a handler that gave success, or registered; removed
with the consent of a handler, or unregistered. -/
def live1 (table : Path) (l : List (Nat × Option Bytes)) (x : Op × Out) : List (Nat × Option Bytes) :=
  match x.1 with
  | .add t a c i => if pieces t = table ∧ x.2.called = true ∧ c = 0 then l ++ [(i, if a = some [] then none else a)] else l
  | .register t i a => if pieces t = table ∧ x.2.code = 0 then l ++ [(i, a)] else l
  | .remove r c => if x.2.called = true ∧ c = 0 then l.filter (fun y => pieces r ≠ table ++ [decimal y.1]) else l
  | .unregister r => if x.2.code = 0 then l.filter (fun y => pieces r ≠ table ++ [decimal y.1]) else l
  | .list _ => l

/-- The rows of a table after a history, oldest first. -/
def live (table : Path) (h : List (Op × Out)) : List (Nat × Option Bytes) := h.foldl (live1 table) []

/-- A number of 32 bits taken as signed. -/
def wrap (i : Nat) : Int := if i < 2 ^ 31 then i else (i : Int) - 2 ^ 32

end Verif.Spec.Rows
