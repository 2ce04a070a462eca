import Verif.Model.Value
import Verif.Model.Element

/-!
# Values as text: `rbusValue_SetFromString` and `rbusValue_ToString` (src/rbus/rbus_value.c:1065-1273, 224-403)

Texts are C strings: byte strings without NUL. `strtol` and its relatives are modelled after the C standard
(7.24.1.4) in the "C" locale; `long` has `w` bits, 32 or 64. Floating-point numbers, times, properties and objects
are not modelled.
-/

namespace Verif.Text

open Verif Verif.Value

/-- `isspace` in the "C" locale. -/
def isspace (b : UInt8) : Bool := b = 32 || (9 ≤ b && b ≤ 13)

/-- The value of a digit or letter in bases up to 36. -/
def digitVal (b : UInt8) : Option Nat :=
  if 48 ≤ b ∧ b ≤ 57 then some (b.toNat - 48)
  else if 97 ≤ b ∧ b ≤ 122 then some (b.toNat - 87)
  else if 65 ≤ b ∧ b ≤ 90 then some (b.toNat - 55)
  else none

/-- Is this a digit of the base? -/
def isDigit (base : Nat) (b : UInt8) : Bool :=
  match digitVal b with
  | some d => d < base
  | none => false

/-- The digits at the front, accumulated onto `a`; the rest. -/
def scan (base a : Nat) : Bytes → Nat × Bytes
  | [] => (a, [])
  | b :: s =>
    match digitVal b with
    | some d => if d < base then scan base (a * base + d) s else (a, b :: s)
    | none => (a, b :: s)

/-- The digits of a number with its prefix, if the base is automatic. `none`: no conversion. -/
def magnitude (auto : Bool) (s : Bytes) : Option (Nat × Bytes) :=
  match auto, s with
  | true, 48 :: p :: d :: r =>
    if (p = 120 ∨ p = 88) ∧ isDigit 16 d then some (scan 16 0 (d :: r)) else some (scan 8 0 s)
  | true, 48 :: _ => some (scan 8 0 s)
  | _, b :: _ => if isDigit 10 b then some (scan 10 0 s) else none
  | _, [] => none

/-- Sign, magnitude and the rest that is not converted; `none`: no conversion, the pointer is the start. -/
def strto (auto : Bool) (s : Bytes) : Option (Bool × Nat × Bytes) :=
  match s.dropWhile isspace with
  | 45 :: r => (magnitude auto r).map fun x => (true, x)
  | 43 :: r => (magnitude auto r).map fun x => (false, x)
  | r => (magnitude auto r).map fun x => (false, x)

/-- The result of `strtol`/`strtoll` with `w` bits and whether `errno` is ERANGE. -/
def toSigned (w : Nat) (neg : Bool) (mag : Nat) : Int × Bool :=
  let v : Int := if neg then -mag else mag
  if v > 2 ^ (w - 1) - 1 then (2 ^ (w - 1) - 1, true)
  else if v < -2 ^ (w - 1) then (-2 ^ (w - 1), true)
  else (v, false)

/-- The result of `strtoul`/`strtoull` with `w` bits and whether `errno` is ERANGE. -/
def toUnsigned (w : Nat) (neg : Bool) (mag : Nat) : Nat × Bool :=
  if mag > 2 ^ w - 1 then (2 ^ w - 1, true)
  else if neg then ((2 ^ w - mag) % 2 ^ w, false)
  else (mag, false)

/-- The integer types. -/
inductive IntTy where
  | int8 | uint8 | int16 | uint16 | int32 | uint32 | int64 | uint64
  deriving DecidableEq, Repr

/-- The signed cases (lines 1115-1125, 1137-1180): the end has to be reached, the number has to be in range. -/
def parseSigned (auto : Bool) (w : Nat) (lo hi : Int) (s : Bytes) : Option Int :=
  match strto auto s with
  | none => none
  | some (neg, mag, rest) =>
    let (v, erange) := toSigned w neg mag
    if rest ≠ [] then none
    else if erange ∧ (v = 2 ^ (w - 1) - 1 ∨ v = -2 ^ (w - 1)) then none
    else if v > hi ∨ v < lo then none
    else some v

/-- The unsigned cases (lines 1126-1136, 1181-1219): in addition, a text that begins with a minus sign has to be
zero. -/
def parseUnsigned (auto : Bool) (w : Nat) (hi : Int) (s : Bytes) : Option Int :=
  match strto auto s with
  | none => none
  | some (neg, mag, rest) =>
    let (v, erange) := toUnsigned w neg mag
    if rest ≠ [] then none
    else if s.head? = some 45 ∧ v ≠ 0 then none
    else if erange ∧ (v = 2 ^ w - 1 ∨ v = 0) then none
    else if (v : Int) > hi then none
    else some v

/-- `rbusValue_SetFromString` for integer types; `none` for the result `false`. The 8-bit types are read in base 0
and reject every ERANGE; with `toSigned` and `toUnsigned` this is the same as for the other types. -/
def parse (w : Nat) (ty : IntTy) (s : Bytes) : Option Int :=
  match ty with
  | .int8 => parseSigned true w (-128) 127 s
  | .uint8 => parseUnsigned true w 255 s
  | .int16 => parseSigned false w (-32768) 32767 s
  | .uint16 => parseUnsigned false w 65535 s
  | .int32 => parseSigned false w (-2147483648) 2147483647 s
  | .uint32 => parseUnsigned false w 4294967295 s
  | .int64 => parseSigned false 64 (-9223372036854775808) 9223372036854775807 s
  | .uint64 => parseUnsigned false 64 18446744073709551615 s

/-- `tolower`. -/
def lower (b : UInt8) : UInt8 := if 65 ≤ b ∧ b ≤ 90 then b + 32 else b

/-- `rbusValue_SetFromString` (lines 1065-1273). -/
def setFromString (w : Nat) (ty : Ty) (s : Bytes) : Option Scalar :=
  match ty with
  | .string => some (.string (some s))
  | .bytes => some (.bytes (some s))
  | .boolean =>
    if s.map lower = [116, 114, 117, 101] ∨ s = [49] then some (.boolean true)
    else if s.map lower = [102, 97, 108, 115, 101] ∨ s = [48] then some (.boolean false)
    else none
  -- `sscanf("%c")`; at the end of the text nothing is stored
  | .char => some (.char (s.headD 0).toBitVec)
  | .byte => some (.byte (s.headD 0).toBitVec)
  | .int8 => (parse w .int8 s).map fun v => .int8 (BitVec.ofInt _ v)
  | .uint8 => (parse w .uint8 s).map fun v => .uint8 (BitVec.ofInt _ v)
  | .int16 => (parse w .int16 s).map fun v => .int16 (BitVec.ofInt _ v)
  | .uint16 => (parse w .uint16 s).map fun v => .uint16 (BitVec.ofInt _ v)
  | .int32 => (parse w .int32 s).map fun v => .int32 (BitVec.ofInt _ v)
  | .uint32 => (parse w .uint32 s).map fun v => .uint32 (BitVec.ofInt _ v)
  | .int64 => (parse w .int64 s).map fun v => .int64 (BitVec.ofInt _ v)
  | .uint64 => (parse w .uint64 s).map fun v => .uint64 (BitVec.ofInt _ v)
  -- not modelled
  | _ => none

/-- `printf("%d")`. -/
def signedText (v : Int) : Bytes :=
  if v < 0 then 45 :: Element.decimal v.natAbs else Element.decimal v.natAbs

/-- `printf("%x")`. -/
def hexText (n : Nat) : Bytes := (Nat.toDigits 16 n).map (fun c => UInt8.ofNat c.toNat)

/-- `printf("%02X")` of one byte. -/
def hexByte (b : UInt8) : Bytes :=
  let d (n : Nat) : UInt8 := if n < 10 then UInt8.ofNat (48 + n) else UInt8.ofNat (55 + n)
  [d (b.toNat / 16), d (b.toNat % 16)]

/-- The text of a value (lines 311-402, without limit); what follows a NUL is not part of the text. `none`: not
modelled, or no text (RBUS_NONE, a NULL string). -/
def text : Scalar → Option Bytes
  | .string s => s
  | .bytes s => s.map fun s => s.flatMap hexByte
  | .boolean b => some (if b then [116, 114, 117, 101] else [102, 97, 108, 115, 101])
  | .char c => some (if c = 0 then [] else [⟨c⟩])
  | .byte c => some (hexText c.toNat)
  | .int8 v => some (signedText v.toInt)
  | .uint8 v => some (Element.decimal v.toNat)
  | .int16 v => some (signedText v.toInt)
  | .uint16 v => some (Element.decimal v.toNat)
  | .int32 v => some (signedText v.toInt)
  | .uint32 v => some (Element.decimal v.toNat)
  | .int64 v => some (signedText v.toInt)
  | .uint64 v => some (Element.decimal v.toNat)
  | _ => none

/-- What `snprintf` writes into a buffer of `n` bytes. -/
def snprintf (n : Nat) (t : Bytes) : Bytes := if n = 0 then [] else t.take (n - 1) ++ [0]

/-- `rbusValue_ToString` into a buffer of the caller (lines 233-251 and 311-402): the bytes written at its
front. The RBUS_STRING case copies with `strncpy`, whose source ends with NUL; the RBUS_BYTES case (lines 316-323)
does not look at the size. `fail` for the types not modelled. -/
def toBuffer (v : Scalar) (n : Nat) : Res Bytes :=
  match v with
  | .string (some s) => .ok ((s ++ [0]).take n)
  | .bytes (some s) =>
    if 2 * s.length + 1 ≤ n then .ok (s.flatMap hexByte ++ [0]) else .ub
  | .char c => .ok (snprintf n [⟨c⟩])
  | v =>
    match text v with
    | some t => .ok (snprintf n t)
    | none => .fail

end Verif.Text
