import Verif.Model.Compare

/-!
# Specification for value comparison
-/

namespace Verif.Value

open Verif

/-- The mathematical integer held by an integer-like value. -/
def intNum (sc : Bool) : Scalar → Option Int
  | .boolean b => some (if b then 1 else 0)
  | .char v => some (if sc then v.toInt else v.toNat)
  | .byte v => some v.toNat
  | .int8 v => some v.toInt
  | .uint8 v => some v.toNat
  | .int16 v => some v.toInt
  | .uint16 v => some v.toNat
  | .int32 v => some v.toInt
  | .uint32 v => some v.toNat
  | .int64 v => some v.toInt
  | .uint64 v => some v.toNat
  | _ => none

/-- The exact number held by a numeric value, without any rounding (`Dbl.fin n` is n * 2^-1074). -/
def exactNum (sc : Bool) : Scalar → Option Dbl
  | .single v => some (.ofSingle v)
  | .double v => some (.ofBits v)
  | v => (intNum sc v).map fun n => .fin (n * scale)

/-- Exact "less or equal" of numbers; NaN is not comparable. -/
def numLe : Dbl → Dbl → Prop
  | .nan, _ => False
  | _, .nan => False
  | .ninf, _ => True
  | _, .pinf => True
  | .fin a, .fin b => a ≤ b
  | _, _ => False

/-- Values on which comparing can be expected to make sense: no NaN, no NULL string or bytes. -/
def Ordinary : Scalar → Prop
  | .single v => Dbl.ofSingle v ≠ .nan
  | .double v => Dbl.ofBits v ≠ .nan
  | .string s => s ≠ none
  | .bytes s => s ≠ none
  | _ => True

/-- The pair of byte strings on which the code reads past the second value. -/
def Overrun : Scalar → Scalar → Prop
  | .bytes (some s), .bytes (some t) => t <+: s ∧ t ≠ s
  | _, _ => False

end Verif.Value
