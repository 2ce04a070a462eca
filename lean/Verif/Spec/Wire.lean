import Verif.Model.Wire

/-!
# Specification for the message encodings: what can be sent
-/

namespace Verif.Wire

open Verif Verif.Value Verif.Filter

/-- A name: a C string the message can carry. -/
def Name (s : Bytes) : Prop := (0 : UInt8) ∉ s ∧ s.length + 1 < 2 ^ 32

/-- Scalars that can be sent: text and bytes must be present (not NULL) and of a 32-bit length, and a
`float` must survive the conversion to `double` and back (IEEE 754: all but signalling NaN). -/
def SendableScalar (fc : FloatConv) : Scalar → Prop
  | .string (some s) => Name s
  | .string Option.none => False
  | .bytes (some s) => s.length < 2 ^ 32
  | .bytes Option.none => False
  | .single v => fc.narrow (fc.widen v) = v
  | _ => True

mutual
/-- Values, property lists and objects that can be sent: sendable leaves, proper names, fewer than
2^31 members, and no NULL object inside a value. -/
def SendableVal (fc : FloatConv) : WVal → Prop
  | .scalar s => SendableScalar fc s
  | .props ps => ps.count < 2 ^ 31 ∧ SendableProps fc ps
  | .obj o => SendableObj fc o
  | .nullObj => False

def SendableProps (fc : FloatConv) : PropList → Prop
  | .nil => True
  | .cons name v rest => Name name ∧ SendableVal fc v ∧ SendableProps fc rest

def SendableObj (fc : FloatConv) : Obj → Prop
  | .mk name _ ps cs => Name name ∧ ps.count < 2 ^ 31 ∧ SendableProps fc ps ∧
      cs.count < 2 ^ 31 ∧ SendableObjs fc cs

def SendableObjs (fc : FloatConv) : ObjList → Prop
  | .nil => True
  | .cons o rest => SendableObj fc o ∧ SendableObjs fc rest
end

/-- Filters that can be sent: sendable values, operators that fit 32 bits, and no right operand below
NOT (none is ever looked at there). Missing operands are allowed. -/
def SendableFilter (fc : FloatConv) : Filter → Prop
  | .null => True
  | .relation op v => op < 2 ^ 32 ∧ SendableScalar fc v
  | .logic op l r => op < 2 ^ 32 ∧ SendableFilter fc l ∧ SendableFilter fc r ∧
      (op = opNOT → r = .null)

end Verif.Wire
