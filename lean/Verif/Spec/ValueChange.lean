import Verif.Model.ValueChange
import Verif.Proof.Exec

/-!
# Vocabulary for value-change detection
-/

namespace Verif.Spec.ValueChange

open Verif Verif.Value Verif.ValueChange

/-- What happened and what was seen. -/
abbrev History := List (Op × Out)

/-- `h` leads from the start to `s`. -/
def Leads (sc : Bool) (h : History) (s : State) : Prop := Exec (step sc) State.init h s

/-- The value of property `n` at the latest successful reading, while it is watched. -/
def known (n : Nat) (h : History) : Option Scalar :=
  h.foldl (fun k e =>
    match e with
    | (.watch _ m v, .started) => if m = n then v else k
    | (_, .stopped ns) => if n ∈ ns then none else k
    | (.poll now, _) => if k.isSome ∧ (now n).isSome then now n else k
    | _ => k) none

/-- The values that were read of property `n`. -/
def readings (n : Nat) (h : History) : List Scalar :=
  h.filterMap fun e =>
    match e.1 with
    | .watch _ m v => if m = n then v else none
    | .poll now => now n
    | _ => none

/-- Comparing the values tells exactly which are the same. -/
def Faithful (sc : Bool) (vs : List Scalar) : Prop :=
  ∀ v ∈ vs, ∀ w ∈ vs, ∃ c, compare sc v w = .ok c ∧ (c = .eq ↔ v = w)

/-- The types for which that always works. -/
inductive Kind where
  | boolean | char | byte | int8 | uint8 | int16 | uint16 | int32 | uint32 | string

/-- Values of one of these types. -/
def OfKind : Kind → Scalar → Prop
  | .boolean, .boolean _ => True
  | .char, .char _ => True
  | .byte, .byte _ => True
  | .int8, .int8 _ => True
  | .uint8, .uint8 _ => True
  | .int16, .int16 _ => True
  | .uint16, .uint16 _ => True
  | .int32, .int32 _ => True
  | .uint32, .uint32 _ => True
  | .string, .string (some _) => True
  | _, _ => False

/-- Nobody can go on, ever. -/
def Stuck (s : Locks.State) : Prop := ∀ e, Locks.step s e = .fail

end Verif.Spec.ValueChange
