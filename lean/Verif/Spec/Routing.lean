import Verif.Model.Base

/-!
# What topic registration is meant to do

Names are lists of components. A registration is a name with its owner; the live registrations follow
from the calls and whether they were accepted.
-/

namespace Verif.Spec.Routing

open Verif

/-- A dotted name, by components. -/
abbrev Name := List Bytes

/-- The name as written: components separated by '.'. -/
def dotted : Name → Bytes
  | [] => []
  | [t] => t
  | t :: u :: ts => t ++ 46 :: dotted (u :: ts)

/-- A call. `exclusive` asks for an error if the name is taken. -/
inductive Op where
  | register (name : Name) (owner : Nat) (exclusive : Bool)
  | forget (owner : Nat)
  | remove (name : Name)
  deriving DecidableEq, Repr

/-- The live registrations after one call. -/
def live1 (R : List (Name × Nat)) (o : Op) (accepted : Bool) : List (Name × Nat) :=
  match o with
  | .register n w _ => if accepted then R ++ [(n, w)] else R
  | .forget w => R.filter (fun x => x.2 ≠ w)
  | .remove n => R.filter (fun x => ¬ n <+: x.1)

/-- The live registrations after a history of calls, each with whether it was accepted. -/
def live : List (Name × Nat) → List (Op × Bool) → List (Name × Nat)
  | R, [] => R
  | R, (o, b) :: h => live (live1 R o b) h

/-- `{i}`, which stands for the rows of a table. -/
def rows : Bytes := [123, 105, 125]

/-- A component naming a row: a number, `[alias]` or `*`. -/
def rowLike (t : Bytes) : Bool :=
  match t with
  | c :: _ => (48 ≤ c.toNat ∧ c.toNat ≤ 57) || c = 91 || c = 42
  | [] => false

/-- A registered name covers a name asked for. -/
def covers : Name → Name → Bool
  | [], [] => true
  | r :: rs, t :: ts => (t = r ∨ (r = rows ∧ rowLike t = true)) && covers rs ts
  | _, _ => false

/-- The owners of a name: those registered for it, or for its rows if it is a table. -/
def owners (R : List (Name × Nat)) (q : Name) : List Nat :=
  (R.filter (fun x => covers x.1 q || covers x.1 (q ++ [rows]))).map (·.2)

/-- The owners of something strictly below a name. -/
def OwnsBelow (R : List (Name × Nat)) (q : Name) (w : Nat) : Prop :=
  ∃ n, (n, w) ∈ R ∧ q.length < n.length ∧ covers (n.take q.length) q = true

/-- A name with proper components, short enough for the router's buffers. -/
def Proper (n : Name) : Prop :=
  n ≠ [] ∧ (∀ t ∈ n, t ≠ [] ∧ 46 ∉ t) ∧ n.length ≤ 32 ∧ (dotted n).length < 512

/-- The names used follow the convention for tables: braces only in `{i}`, which has no siblings. -/
def Conventional (P : List Name) : Prop :=
  (∀ n ∈ P, Proper n ∧ ∀ t ∈ n, t.head? = some 123 → t = rows) ∧
  ∀ π t r r', π ++ t :: r ∈ P → π ++ rows :: r' ∈ P → t = rows

/-- A name that may be asked for where the names `P` are in use: a proper name with a row (or `{i}`)
in the place of each `{i}`, no braces elsewhere, and that is not at once an element and a table. -/
def Askable (P : List Name) (q : Name) : Prop :=
  Proper q ∧
  (∀ π r rest a t b, π ++ r :: rest ∈ P → q = a ++ t :: b → covers π a = true →
    (r = rows → t = rows ∨ rowLike t = true) ∧ (t.head? = some 123 → t = r)) ∧
  (∀ n ∈ P, covers n q = true → ∀ rest, n ++ rows :: rest ∉ P)

/-- The names in a history. -/
def names : List Op → List Name
  | [] => []
  | .register n _ _ :: os => n :: names os
  | .forget _ :: os => names os
  | .remove n :: os => n :: names os

/-- The name that may be registered by several clients although they ask for it exclusively. -/
def advisoryName : Name :=
  [[95, 82, 84, 82, 79, 85, 84, 69, 68], [65, 68, 86, 73, 83, 79, 82, 89]]

/-- Registrations that are not exclusive are not repeated with the same owner. -/
def NoRepeats (os : List Op) : Prop :=
  ∀ pre n w x post, os = pre ++ .register n w x :: post → (x = false ∨ n = advisoryName) →
    ∀ y, Op.register n w y ∉ pre

end Verif.Spec.Routing
