import Verif.Model.Gather
import Verif.Spec.Rows

/-!
# Specification of partial paths and wildcard queries

In terms of what names lead to (`Spec.Rows.View`).
-/

namespace Verif.Spec.Gather

open Verif Verif.Element Verif.Gather Verif.Spec.Provider Verif.Spec.Rows
open Verif.Params (Prop')

/-- Declared elements are of a kind, and their names are C strings that are looked for as they are. -/
def Proper (D : List Decl) : Prop := ∀ d ∈ D, d.type ≠ tObject ∧ Exact d.path ∧ ∀ t ∈ d.path, (0 : UInt8) ∉ t

/-- The get handler that gives a value: tables have none of that kind. -/
def getter (e : Entry) : Option Nat := if e.type = tTable then none else e.cb.get

/-- The elements with a get handler below a name, with their handlers, in the order of the data model; row templates are
passed over. At most `n` levels. -/
def under (V : View) : Nat → Path → List (Path × Nat)
  | 0, _ => []
  | n + 1, p =>
    match V p with
    | none => []
    | some e => (e.below.filter (· ≠ template)).flatMap fun t =>
      match (V (p ++ [t])).bind getter with
      | some h => [(p ++ [t], h)]
      | none => under V n (p ++ [t])

/-- The rows of a table. -/
def rows (V : View) (p : Path) : List Element.Token :=
  match V p with
  | some e => e.below.filter (· ≠ template)
  | none => []

/-- The names that a pattern stands for, below a name: `*` stands for every row. -/
def expand (V : View) : Path → Path → List Path
  | p, [] => [p]
  | p, t :: ts => if t = star then (rows V p).flatMap (fun r => expand V (p ++ [r]) ts) else expand V (p ++ [t]) ts

/-- Every `*` of a pattern stands below a table. -/
def StarsFit (V : View) : Path → Path → Prop
  | _, [] => True
  | p, t :: ts =>
    if t = star then (∃ e, V p = some e ∧ e.type = tTable) ∧ ∀ r ∈ rows V p, StarsFit V (p ++ [r]) ts
    else StarsFit V (p ++ [t]) ts

/-- Calling a get handler for a name. -/
def ask (H : Handlers) (calls : List Gather.Call) (p : Path) (h : Nat) : List Gather.Call :=
  calls ++ [⟨h, Subs.fullText p, H calls h (Subs.fullText p)⟩]

/-- Calling the get handlers for several names; what they answer does not matter. -/
def askAll (H : Handlers) : List (Path × Nat) → List Gather.Call → List Gather.Call
  | [], calls => calls
  | x :: xs, calls => askAll H xs (ask H calls x.1 x.2)

/-- Getting single names one after another, up to the first error. -/
def getEach (H : Handlers) (V : View) : List Path → List Gather.Call → Nat × List Gather.Call
  | [], calls => (0, calls)
  | p :: ps, calls =>
    match V p with
    | none => (17, calls)
    | some e =>
      match getter e with
      | none => getEach H V ps calls
      | some h =>
        let r := H calls h (Subs.fullText p)
        if r.code = 0 then getEach H V ps (ask H calls p h) else (r.code, ask H calls p h)

/-- Getting all that is below several names, one after another, up to the first one that does not exist. -/
def getBelow (H : Handlers) (V : View) (n : Nat) : List Path → List Gather.Call → Nat × List Gather.Call
  | [], calls => (0, calls)
  | p :: ps, calls => if V p = none then (17, calls) else getBelow H V n ps (askAll H (under V n p) calls)

/-- The values in an answer: those that handlers gave with success. -/
def values (calls : List Gather.Call) : List Prop' := (calls.filter (·.ret.code = 0)).map (fun c => (c.name, c.ret.value))

/-- The answer: values only with success. -/
def answered (r : Nat × List Gather.Call) : Nat × List Prop' × List Gather.Call :=
  (r.1, if r.1 = 0 then values r.2 else [], r.2)

/-- Components of a query: `*`, or names without special characters. -/
def Pattern (w : Path) : Prop := w ≠ [] ∧ ∀ t ∈ w, t = star ∨ (Exact [t] ∧ (42 : UInt8) ∉ t ∧ (123 : UInt8) ∉ t)

end Verif.Spec.Gather
