import Verif.Model.Value

/-!
# Model of `rbusValue_Compare` (src/rbus/rbus_value.c:872-1010) for scalar values

Doubles are modelled exactly. Every finite double is an integer multiple of 2^-1074, so a finite
double is represented by that integer; comparing doubles is then comparing integers.
-/

namespace Verif.Value

open Verif

/-- An IEEE-754 double as a number: `fin n` is n * 2^-1074. -/
inductive Dbl where
  | nan | ninf | fin (n : Int) | pinf
  deriving DecidableEq, Repr

/-- 2^1074, the number of units in 1. -/
@[irreducible] def scale : Nat := 2 ^ 1074

/-- The double with the given bit pattern (IEEE-754 binary64). -/
def Dbl.ofBits (b : BitVec 64) : Dbl :=
  let frac : Nat := b.toNat % 2 ^ 52
  let exp : Nat := b.toNat / 2 ^ 52 % 2 ^ 11
  let neg : Bool := b.toNat / 2 ^ 63 = 1
  if exp = 2047 then (if frac ≠ 0 then .nan else if neg then .ninf else .pinf)
  else
    let mag : Nat := if exp = 0 then frac else (2 ^ 52 + frac) * 2 ^ (exp - 1)
    .fin (if neg then - (mag : Int) else mag)

/-- `(double)` of the float with the given bit pattern (IEEE-754 binary32); the conversion is
exact. -/
def Dbl.ofSingle (b : BitVec 32) : Dbl :=
  let frac : Nat := b.toNat % 2 ^ 23
  let exp : Nat := b.toNat / 2 ^ 23 % 2 ^ 8
  let neg : Bool := b.toNat / 2 ^ 31 = 1
  if exp = 255 then (if frac ≠ 0 then .nan else if neg then .ninf else .pinf)
  else
    let mag : Nat := if exp = 0 then frac * 2 ^ 925 else (2 ^ 23 + frac) * 2 ^ (exp + 924)
    .fin (if neg then - (mag : Int) else mag)

/-- Rounding a natural number to 53 significant bits, ties to even: `(double)` of an integer in the
default rounding mode (integers of at most 64 bits never overflow). -/
def round53 (n : Nat) : Nat :=
  if n < 2 ^ 53 then n
  else
    let s := n.log2 - 52
    let q := n / 2 ^ s
    let r := n % 2 ^ s
    let up := 2 ^ s < 2 * r ∨ (2 ^ s = 2 * r ∧ q % 2 = 1)
    (if up then q + 1 else q) * 2 ^ s

/-- `(double)n` for an integer of at most 64 bits. -/
def Dbl.ofInt (n : Int) : Dbl :=
  .fin ((if n < 0 then - (round53 n.natAbs : Int) else round53 n.natAbs) * scale)

/-- `rbusValue_CoerceNumericToDouble` (rbus_value.c:872-903). `signedChar` tells whether plain
`char` is signed on the platform. `none` for types above RBUS_DOUBLE, for which the function is not
called. -/
def toDbl (signedChar : Bool) : Scalar → Option Dbl
  | .int32 v => some (.ofInt v.toInt)
  | .uint32 v => some (.ofInt v.toNat)
  | .boolean b => some (.ofInt (if b then 1 else 0))
  | .char v => some (.ofInt (if signedChar then v.toInt else v.toNat))
  | .byte v => some (.ofInt v.toNat)
  | .int8 v => some (.ofInt v.toInt)
  | .uint8 v => some (.ofInt v.toNat)
  | .int16 v => some (.ofInt v.toInt)
  | .uint16 v => some (.ofInt v.toNat)
  | .int64 v => some (.ofInt v.toInt)
  | .uint64 v => some (.ofInt v.toNat)
  | .single v => some (.ofSingle v)
  | .double v => some (.ofBits v)
  | .datetime _ | .string _ | .bytes _ | .none => Option.none

/-- The comparisons `d1 == d2`, `d1 < d2`, else (rbus_value.c:918-923); every comparison with NaN is
false, so the last branch gives "greater". -/
def cmpDbl : Dbl → Dbl → Ordering
  | .nan, _ => .gt
  | _, .nan => .gt
  | .fin a, .fin b => if a = b then .eq else if a < b then .lt else .gt
  | .ninf, .ninf => .eq
  | .pinf, .pinf => .eq
  | .ninf, _ => .lt
  | _, .pinf => .lt
  | _, _ => .gt

/-- Sign of `strcmp`: lexicographic on unsigned bytes, on strings given without the terminating
NUL. -/
def strcmp : Bytes → Bytes → Ordering
  | [], [] => .eq
  | [], _ :: _ => .lt
  | _ :: _, [] => .gt
  | a :: s, b :: t => if a < b then .lt else if b < a then .gt else strcmp s t

/-- Sign of the RBUS_BYTES case (rbus_value.c:941-949): `memcmp` over the length of the first
value, then the lengths. When the second is a proper prefix of the first, `memcmp` goes on into
bytes the second value never wrote: `ub`. -/
def bytescmp : Bytes → Bytes → Res Ordering
  | [], [] => .ok .eq
  | [], _ :: _ => .ok .lt
  | _ :: _, [] => .ub
  | a :: s, b :: t => if a < b then .ok .lt else if b < a then .ok .gt else bytescmp s t

/-- `rbusValue_Compare` (rbus_value.c:905-1010) on two distinct non-NULL scalar values, as the sign
of the result. A string or bytes value holding NULL is dereferenced: `ub`. In the RBUS_DATETIME case
(950-983) two different times return 0 at line 953; two identical times are adjusted identically
and also give 0 (`mktime` is a function of its argument). -/
def compare (signedChar : Bool) (v1 v2 : Scalar) : Res Ordering :=
  match toDbl signedChar v1, toDbl signedChar v2 with
  | some d1, some d2 => .ok (cmpDbl d1 d2)
  | _, _ =>
    if v1.ty.code < v2.ty.code then .ok .lt
    else if v2.ty.code < v1.ty.code then .ok .gt
    else match v1, v2 with
      | .string (some s), .string (some t) => .ok (strcmp s t)
      | .string _, .string _ => .ub
      | .bytes (some s), .bytes (some t) => bytescmp s t
      | .bytes _, .bytes _ => .ub
      | .datetime _, .datetime _ => .ok .eq
      | _, _ => .ok .eq

end Verif.Value
