import Verif.Model.Element

/-!
# What event names are meant to address

An event name is a list of parts: a name or row number, any row (`*`), or a row by its alias (`[alias]`).
An element is given by the steps from the top of the data model down to it.
-/

namespace Verif.Spec.EventName

open Verif Verif.Element

/-- One part of an event name. -/
inductive Part where
  | exactly (t : Bytes)
  | anyRow
  | rowCalled (alias : Bytes)
  deriving DecidableEq, Repr

/-- How the part is written. -/
def Part.text : Part → Bytes
  | .exactly t => t
  | .anyRow => [42]
  | .rowCalled a => 91 :: a ++ [93]

/-- One step of the way to an element: name, alias, and whether it is a row of a table. -/
structure Step where
  name : Bytes
  alias : Option Bytes
  row : Bool
  deriving DecidableEq, Repr

/-- A part addresses a step. -/
def Part.fits : Part → Step → Bool
  | .exactly t, s => t = s.name
  | .anyRow, s => s.row
  | .rowCalled a, s => s.row && s.alias = some a

/-- An event name addresses an element: as many parts as steps, each part addressing its step. -/
def addresses : List Part → List Step → Bool
  | [], [] => true
  | p :: ps, s :: ss => p.fits s && addresses ps ss
  | _, _ => false

/-- Parts separated by dots. -/
def dotted : List Bytes → Bytes
  | [] => []
  | [t] => t
  | t :: u :: ts => t ++ 46 :: dotted (u :: ts)

/-- The event name as written, with or without a dot at the end. -/
def written (ps : List Part) (dotAtEnd : Bool) : Bytes :=
  dotted (ps.map Part.text) ++ (if dotAtEnd then [46] else [])

/-- The number written in decimal. -/
def number (t : Bytes) : Nat := t.foldl (fun v c => v * 10 + (c.toNat - 48)) 0

/-- A row number as written: decimal, positive, below 2^31. -/
def IsRowNumber (t : Bytes) : Prop :=
  t ≠ [] ∧ (∀ c ∈ t, 48 ≤ c.toNat ∧ c.toNat ≤ 57) ∧ 0 < number t ∧ number t < 2 ^ 31

/-- A part is properly written for a step of the registered element: at rows a number, `*` or an alias;
elsewhere a name. Dots and NUL do not occur in names, nor `]` in aliases. -/
def Proper (p : Part) (s : Step) : Prop :=
  match p with
  | .exactly t => t ≠ [] ∧ 46 ∉ t ∧ 0 ∉ t ∧ (s.row = true → IsRowNumber t)
  | .anyRow => s.row = true
  | .rowCalled a => s.row = true ∧ a ≠ [] ∧ 46 ∉ a ∧ 0 ∉ a ∧ 93 ∉ a

/-- Parts properly written for the steps, position by position. -/
def AllProper : List Part → List Step → Prop
  | [], [] => True
  | p :: ps, s :: ss => Proper p s ∧ AllProper ps ss
  | _, _ => False

/-- Whether an element, given by its node and the nodes above it, is right below a table. -/
def belowTable : List Info → Bool
  | _ :: p :: _ => p.type = tTable
  | _ => false

/-- The steps to an element, the element's own first. -/
def stepsUp : List Info → List Step
  | [] => []
  | i :: up => ⟨i.name, i.alias, belowTable (i :: up)⟩ :: stepsUp up

/-- The steps from the top down to an element. -/
def path (el : List Info) : List Step := (stepsUp el).reverse

end Verif.Spec.EventName
