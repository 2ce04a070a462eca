import Verif.Model.Legacy
import Verif.Spec.Wire
import Verif.Spec.Text
import Verif.Spec.FloatText
import Verif.Spec.DateText

/-!
# What older components mean by what they send
-/

namespace Verif.Spec.Legacy

open Verif Verif.Message Verif.Value Verif.Wire Verif.Legacy Verif.Spec.Text

/-- The types of older components and their numbers (rbus.c:80-95). -/
inductive Kind where
  | string | int | unsignedInt | boolean | dateTime | base64 | long | unsignedLong | float | double | byte | nothing
  deriving DecidableEq, Repr

/-- The number sent for a type. -/
def Kind.code : Kind → Nat
  | .string => 0 | .int => 1 | .unsignedInt => 2 | .boolean => 3 | .dateTime => 4 | .base64 => 5
  | .long => 6 | .unsignedLong => 7 | .float => 8 | .double => 9 | .byte => 10 | .nothing => 11

/-- A number of a format nearest to the fraction. -/
def Nearest (F : FloatText.Format) (n : Int) (neg : Bool) (num den : Nat) : Prop :=
  F.Number n ∧ ∀ m, F.Number m →
    FloatText.distance n (FloatText.signed neg num) den ≤ FloatText.distance m (FloatText.signed neg num) den

/-- The text is a decimal fraction within the normal range of the format, or zero. -/
def Fraction (F : FloatText.Format) (tiny : Nat) (s : Bytes) (neg : Bool) (num den : Nat) : Prop :=
  FloatText.Notation s neg num den ∧ 0 < den ∧
    (num = 0 ∨ ∃ hi : Nat, F.Number hi ∧ tiny * den ≤ num * scale ∧ num * scale ≤ hi * den)

/-- The words for a boolean. -/
def Says (s : Bytes) (b : Bool) : Prop :=
  s.map Text.lower = (if b then "true" else "false").toUTF8.data.toList ∨ s = (if b then "1" else "0").toUTF8.data.toList

/-- The text `s` of a type means the value `v`. -/
def Means : Kind → Bytes → Scalar → Prop
  | .string, s, v => v = .string (some s)
  | .int, s, v => ∃ z, Denotes false s z ∧ held .int32 v = some z
  | .unsignedInt, s, v => ∃ z, Denotes false s z ∧ held .uint32 v = some z
  | .long, s, v => ∃ z, Denotes false s z ∧ held .int64 v = some z
  | .unsignedLong, s, v => ∃ z, Denotes false s z ∧ held .uint64 v = some z
  | .boolean, s, v => ∃ b, Says s b ∧ v = .boolean b
  | .dateTime, s, v => ∃ m d, m.Valid ∧ DateText.Writes s m ∧ v = .datetime d ∧ DateText.moment d = m
  | .float, s, v => ∃ neg num den b n, Fraction FloatText.single FloatText.tinySingle s neg num den ∧ v = .single b ∧
      FloatText.single.val b = .fin n ∧ Nearest FloatText.single n neg num den
  | .double, s, v => ∃ neg num den b n, Fraction FloatText.double FloatText.tinyDouble s neg num den ∧ v = .double b ∧
      FloatText.double.val b = .fin n ∧ Nearest FloatText.double n neg num den
  | .byte, s, v => ∃ c, s = [c] ∧ v = .byte c.toBitVec
  | .base64, _, _ => False
  | .nothing, _, _ => False

/-- The text means some value of the type. -/
def Proper : Kind → Bytes → Prop
  | .string, _ => True
  | .int, s => ∃ z, Denotes false s z ∧ -2147483648 ≤ z ∧ z ≤ 2147483647
  | .unsignedInt, s => ∃ z, Denotes false s z ∧ 0 ≤ z ∧ z ≤ 4294967295
  | .long, s => ∃ z, Denotes false s z ∧ -9223372036854775808 ≤ z ∧ z ≤ 9223372036854775807
  | .unsignedLong, s => ∃ z, Denotes false s z ∧ 0 ≤ z ∧ z ≤ 18446744073709551615
  | .boolean, s => ∃ b, Says s b
  | .dateTime, s => ∃ m : DateText.Moment, m.Valid ∧ DateText.Writes s m
  | .float, s => ∃ neg num den, Fraction FloatText.single FloatText.tinySingle s neg num den
  | .double, s => ∃ neg num den, Fraction FloatText.double FloatText.tinyDouble s neg num den
  | .byte, s => ∃ c, s = [c]
  | .base64, _ => False
  | .nothing, _ => False

/-- A machine and C library as they should be. -/
structure Good (L : Libs) : Prop where
  long : L.long = 32 ∨ L.long = 64
  single : FloatText.Correct FloatText.single FloatText.tinySingle L.single
  double : FloatText.Correct FloatText.double FloatText.tinyDouble L.double

/-- A value as a component sends it: an older one, or one of now. -/
inductive Param where
  | old (k : Kind) (text : Bytes)
  | new (v : WVal)

/-- The bytes of it: the number of the type and the text; or as `rbusValue_appendToMessage` has it. -/
def Param.bytes (L : Libs) : Param → Res Bytes
  | .old k s => .ok (setInt32 (BitVec.ofNat 32 k.code) ++ setString s)
  | .new v => appendVal L.conv v

/-- It can be sent, and means something. -/
def Param.Fit (L : Libs) : Param → Prop
  | .old k s => Name s ∧ Proper k s
  | .new v => SendableVal L.conv v

/-- What it means. -/
def Param.Is : Param → WVal → Prop
  | .old k s, w => ∃ v, w = .scalar v ∧ Means k s v
  | .new v, w => w = v

/-- Names and values one after the other. -/
def listBytes (L : Libs) : List (Bytes × Param) → Res Bytes
  | [] => .ok []
  | (n, p) :: l => do
    let d ← p.bytes L
    let e ← listBytes L l
    pure (setString n ++ (d ++ e))

/-- The same names in the same order, with what the values mean. -/
def Same : List (Bytes × Param) → List (Bytes × WVal) → Prop
  | [], [] => True
  | (n, p) :: l, (m, w) :: k => m = n ∧ p.Is w ∧ Same l k
  | _, _ => False

end Verif.Spec.Legacy
