import Verif.Model.Buffer

/-!
# Model of the scalar part of `src/rbus/rbus_value.c`: types, encode, decode
-/

namespace Verif.Value

open Verif Verif.Buffer

/-- `rbusDateTime_t` (include/rbus_value.h:86-109): nine `int32_t` of `struct tm32`, two `int32_t`
and a `bool` of the time zone. -/
structure DateTime where
  sec : BitVec 32
  min : BitVec 32
  hour : BitVec 32
  mday : BitVec 32
  mon : BitVec 32
  year : BitVec 32
  wday : BitVec 32
  yday : BitVec 32
  isdst : BitVec 32
  tzhour : BitVec 32
  tzmin : BitVec 32
  isWest : Bool
  deriving DecidableEq, Repr

/-- `rbusValueType_t` (include/rbus_value.h:54-75), the enumerators in order from 0x500. -/
inductive Ty where
  | boolean | char | byte | int8 | uint8 | int16 | uint16 | int32 | uint32 | int64 | uint64
  | single | double | datetime | string | bytes | property | object | none
  deriving DecidableEq, Repr

/-- Numeric value of the enumerators (include/rbus_value.h:56-74). -/
def Ty.code : Ty → Nat
  | .boolean => 0x500 | .char => 0x501 | .byte => 0x502 | .int8 => 0x503 | .uint8 => 0x504
  | .int16 => 0x505 | .uint16 => 0x506 | .int32 => 0x507 | .uint32 => 0x508 | .int64 => 0x509
  | .uint64 => 0x50a | .single => 0x50b | .double => 0x50c | .datetime => 0x50d
  | .string => 0x50e | .bytes => 0x50f | .property => 0x510 | .object => 0x511 | .none => 0x512

/-- The `switch(type)` of rbusValue_Decode (rbus_value.c:723-794): which case a 16-bit code
selects; `none` for `default`. -/
def Ty.ofCode (n : Nat) : Option Ty :=
  if n = 0x500 then some .boolean else if n = 0x501 then some .char
  else if n = 0x502 then some .byte else if n = 0x503 then some .int8
  else if n = 0x504 then some .uint8 else if n = 0x505 then some .int16
  else if n = 0x506 then some .uint16 else if n = 0x507 then some .int32
  else if n = 0x508 then some .uint32 else if n = 0x509 then some .int64
  else if n = 0x50a then some .uint64 else if n = 0x50b then some .single
  else if n = 0x50c then some .double else if n = 0x50d then some .datetime
  else if n = 0x50e then some .string else if n = 0x50f then some .bytes
  else if n = 0x510 then some .property else if n = 0x511 then some .object
  else if n = 0x512 then some .none else Option.none

/-- An `rbusValue_t` holding anything but a property or object (`struct _rbusValue`,
rbus_value.c:43-67). Integers and floats are their bit patterns. `string none`/`bytes none` is the
state after SetString/SetBytes with NULL (rbus_value.c:584-589, 599-604): type set, `d.bytes`
NULL. -/
inductive Scalar where
  | boolean (b : Bool)
  | char (v : BitVec 8)
  | byte (v : BitVec 8)
  | int8 (v : BitVec 8)
  | uint8 (v : BitVec 8)
  | int16 (v : BitVec 16)
  | uint16 (v : BitVec 16)
  | int32 (v : BitVec 32)
  | uint32 (v : BitVec 32)
  | int64 (v : BitVec 64)
  | uint64 (v : BitVec 64)
  | single (v : BitVec 32)
  | double (v : BitVec 64)
  | datetime (v : DateTime)
  | string (s : Option Bytes)
  | bytes (s : Option Bytes)
  | none
  deriving DecidableEq, Repr

/-- `rbusValue_GetType` (rbus_value.c:424-429). -/
def Scalar.ty : Scalar → Ty
  | .boolean _ => .boolean | .char _ => .char | .byte _ => .byte | .int8 _ => .int8
  | .uint8 _ => .uint8 | .int16 _ => .int16 | .uint16 _ => .uint16 | .int32 _ => .int32
  | .uint32 _ => .uint32 | .int64 _ => .int64 | .uint64 _ => .uint64 | .single _ => .single
  | .double _ => .double | .datetime _ => .datetime | .string _ => .string | .bytes _ => .bytes
  | .none => .none

/-- The 48 bytes of an `rbusDateTime_t` after conversion to little-endian
(rbusBuffer_WriteDateTimeTLV, rbus_buffer.c:232-249): eleven `int32_t`, the `bool`, and three
padding bytes, zero because `temp` is zero-initialised. -/
def DateTime.encode (d : DateTime) : Bytes :=
  leBytes 4 d.sec.toNat ++ leBytes 4 d.min.toNat ++ leBytes 4 d.hour.toNat
  ++ leBytes 4 d.mday.toNat ++ leBytes 4 d.mon.toNat ++ leBytes 4 d.year.toNat
  ++ leBytes 4 d.wday.toNat ++ leBytes 4 d.yday.toNat ++ leBytes 4 d.isdst.toNat
  ++ leBytes 4 d.tzhour.toNat ++ leBytes 4 d.tzmin.toNat
  ++ [if d.isWest then 1 else 0, 0, 0, 0]

/-- One `int32_t` field at byte offset `i` of the struct image. -/
def DateTime.field (bs : Bytes) (i : Nat) : BitVec 32 :=
  BitVec.ofNat 32 (leNat ((bs.drop i).take 4))

/-- rbusBuffer_ReadDateTime (rbus_buffer.c:371-390), on the 48 bytes read. A `bool` byte other than
0 and 1 is taken as true. -/
def DateTime.decode (bs : Bytes) : DateTime :=
  { sec := field bs 0, min := field bs 4, hour := field bs 8, mday := field bs 12
    mon := field bs 16, year := field bs 20, wday := field bs 24, yday := field bs 28
    isdst := field bs 32, tzhour := field bs 36, tzmin := field bs 40
    isWest := ((bs.drop 44).take 1) ≠ [0] }

/-- `rbusValue_Encode` (rbus_value.c:805-870). A NULL string or NULL bytes dereferences
`value->d.bytes` (lines 816, 822): `ub`. `default:` (line 866) writes nothing; assertions are taken
as compiled out. -/
def encode (b : Buf) : Scalar → Res Buf
  | .string (some s) => .ok (writeTLV b Ty.string.code (s.length + 1) (s ++ [0]))
  | .string Option.none => .ub
  | .bytes (some s) => .ok (writeTLV b Ty.bytes.code s.length s)
  | .bytes Option.none => .ub
  | .boolean x => .ok (writeTLV b Ty.boolean.code 1 [if x then 1 else 0])
  | .int32 v => .ok (writeTLV b Ty.int32.code 4 (leBytes 4 v.toNat))
  | .uint32 v => .ok (writeTLV b Ty.uint32.code 4 (leBytes 4 v.toNat))
  | .char v => .ok (writeTLV b Ty.char.code 1 (leBytes 1 v.toNat))
  | .byte v => .ok (writeTLV b Ty.byte.code 1 (leBytes 1 v.toNat))
  | .int8 v => .ok (writeTLV b Ty.int8.code 1 (leBytes 1 v.toNat))
  | .uint8 v => .ok (writeTLV b Ty.uint8.code 1 (leBytes 1 v.toNat))
  | .int16 v => .ok (writeTLV b Ty.int16.code 2 (leBytes 2 v.toNat))
  | .uint16 v => .ok (writeTLV b Ty.uint16.code 2 (leBytes 2 v.toNat))
  | .int64 v => .ok (writeTLV b Ty.int64.code 8 (leBytes 8 v.toNat))
  | .uint64 v => .ok (writeTLV b Ty.uint64.code 8 (leBytes 8 v.toNat))
  | .single v => .ok (writeTLV b Ty.single.code 4 (leBytes 4 v.toNat))
  | .double v => .ok (writeTLV b Ty.double.code 8 (leBytes 8 v.toNat))
  | .datetime d => .ok (writeTLV b Ty.datetime.code 48 d.encode)
  | .none => .ok b

/-- `strlen`/copy of the NUL-terminated string starting at offset `i` of the initialised bytes:
`none` when no NUL is found, i.e. when `strlen` runs off the initialised part. -/
def cstrAt (data : Bytes) (i : Nat) : Option Bytes :=
  if (data.drop i).contains 0 then some ((data.drop i).takeWhile (· ≠ 0)) else none

/-- `rbusValue_Decode` (rbus_value.c:691-803). The fixed-size cases ignore `length` and read their
own size. The string case (726-736) checks `posRead + length <= lenAlloc` and then copies up to the
first NUL, wherever that is; running off the initialised bytes is `ub`. The bytes case (737-746)
copies `length` bytes; uninitialised bytes are `ub`. Assertions are taken as compiled out. -/
def decode (b : Buf) : Res (Scalar × Buf) := do
  let (type, b) ← readLE b 2
  let (length, b) ← readLE b 2
  match Ty.ofCode type with
  | some .string =>
    if b.rd + length ≤ b.alloc then
      match cstrAt b.data b.rd with
      | some s => .ok (.string (some s), { b with rd := b.rd + length })
      | Option.none => .ub
    else .fail
  | some .bytes =>
    if b.rd + length ≤ b.alloc then
      if b.rd + length ≤ b.data.length then
        .ok (.bytes (some ((b.data.drop b.rd).take length)), { b with rd := b.rd + length })
      else .ub
    else .fail
  | some .boolean => do
    let (bs, b) ← read b 1
    pure (.boolean (bs ≠ [0]), b)
  | some .int32 => do let (n, b) ← readLE b 4; pure (.int32 (BitVec.ofNat 32 n), b)
  | some .uint32 => do let (n, b) ← readLE b 4; pure (.uint32 (BitVec.ofNat 32 n), b)
  | some .char => do let (n, b) ← readLE b 1; pure (.char (BitVec.ofNat 8 n), b)
  | some .byte => do let (n, b) ← readLE b 1; pure (.byte (BitVec.ofNat 8 n), b)
  | some .int8 => do let (n, b) ← readLE b 1; pure (.int8 (BitVec.ofNat 8 n), b)
  | some .uint8 => do let (n, b) ← readLE b 1; pure (.uint8 (BitVec.ofNat 8 n), b)
  | some .int16 => do let (n, b) ← readLE b 2; pure (.int16 (BitVec.ofNat 16 n), b)
  | some .uint16 => do let (n, b) ← readLE b 2; pure (.uint16 (BitVec.ofNat 16 n), b)
  | some .int64 => do let (n, b) ← readLE b 8; pure (.int64 (BitVec.ofNat 64 n), b)
  | some .uint64 => do let (n, b) ← readLE b 8; pure (.uint64 (BitVec.ofNat 64 n), b)
  | some .single => do let (n, b) ← readLE b 4; pure (.single (BitVec.ofNat 32 n), b)
  | some .double => do let (n, b) ← readLE b 8; pure (.double (BitVec.ofNat 64 n), b)
  | some .datetime => do
    let (bs, b) ← read b 48
    pure (.datetime (DateTime.decode bs), b)
  | some .property | some .object | some .none | Option.none => .fail

/-- Encoding a list of values one after the other (as the subscription cache and the filter
encoder do). -/
def encodeAll (b : Buf) : List Scalar → Res Buf
  | [] => .ok b
  | v :: vs => do
    let b ← encode b v
    encodeAll b vs

/-- Decoding `n` values one after the other. -/
def decodeAll (b : Buf) : Nat → Res (List Scalar × Buf)
  | 0 => .ok ([], b)
  | n + 1 => do
    let (v, b) ← decode b
    let (vs, b) ← decodeAll b n
    pure (v :: vs, b)

end Verif.Value
