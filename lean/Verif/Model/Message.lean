import Verif.Model.Base

/-!
# Model of `src/core/rbuscore_message.c`

A message is a sequence of msgpack items. The msgpack-c functions it calls are modelled at byte
level, following the msgpack format (the library itself is not part of /repo).
-/

namespace Verif.Message

open Verif

/-- The items a message can hold, as `msgpack_unpack_next` reports them (`msgpack_object`): an
integer with its value, a double as its bit pattern, a string, a byte array. -/
inductive Item where
  | int (d : Int)
  | dbl (v : BitVec 64)
  | str (s : Bytes)
  | bin (s : Bytes)
  deriving DecidableEq, Repr

/-- `msgpack_pack_int32` / `msgpack_pack_int64` (called from rbuscore_message.c:210-213, 229-232):
the shortest form for the value; for values in the 32-bit range both functions give the same
bytes. -/
def packInt (d : Int) : Bytes :=
  if d < -32 then
    if d < -32768 then
      if d < -2147483648 then 0xd3 :: beBytes 8 (d + 2 ^ 64).toNat
      else 0xd2 :: beBytes 4 (d + 2 ^ 32).toNat
    else if d < -128 then 0xd1 :: beBytes 2 (d + 2 ^ 16).toNat
    else 0xd0 :: beBytes 1 (d + 2 ^ 8).toNat
  else if d < 0 then beBytes 1 (d + 2 ^ 8).toNat
  else if d < 128 then beBytes 1 d.toNat
  else if d < 65536 then
    if d < 256 then 0xcc :: beBytes 1 d.toNat else 0xcd :: beBytes 2 d.toNat
  else if d < 4294967296 then 0xce :: beBytes 4 d.toNat
  else 0xcf :: beBytes 8 d.toNat

/-- `msgpack_pack_str` + `msgpack_pack_str_body` (VERIFY_PACK_BUFFER(str, ..),
rbuscore_message.c:61-72, 181-188). -/
def packStr (s : Bytes) : Bytes :=
  (if s.length < 32 then beBytes 1 (0xa0 + s.length)
   else if s.length < 256 then 0xd9 :: beBytes 1 s.length
   else if s.length < 65536 then 0xda :: beBytes 2 s.length
   else 0xdb :: beBytes 4 s.length) ++ s

/-- `msgpack_pack_bin` + `msgpack_pack_bin_body` (rbuscore_message.c:197-200, 253-256). -/
def packBin (s : Bytes) : Bytes :=
  (if s.length < 256 then 0xc4 :: beBytes 1 s.length
   else if s.length < 65536 then 0xc5 :: beBytes 2 s.length
   else 0xc6 :: beBytes 4 s.length) ++ s

/-- `msgpack_pack_*` for one item. -/
def pack : Item → Bytes
  | .int d => packInt d
  | .dbl v => 0xcb :: beBytes 8 v.toNat
  | .str s => packStr s
  | .bin s => packBin s

/-- `k` bytes of the rest of the message, or nothing if it is shorter. -/
def grab (bs : Bytes) (k : Nat) : Option (Bytes × Bytes) :=
  if k ≤ bs.length then some (bs.take k, bs.drop k) else none

/-- A big-endian unsigned number of `k` bytes. -/
def grabU (bs : Bytes) (k : Nat) : Option (Nat × Bytes) :=
  (grab bs k).map fun (x, r) => (beNat x, r)

/-- A big-endian two's complement number of `k` bytes. -/
def grabS (bs : Bytes) (k : Nat) : Option (Int × Bytes) :=
  (grabU bs k).map fun (n, r) =>
    ((if n < 256 ^ k / 2 then (n : Int) else (n : Int) - (256 ^ k : Nat)), r)

/-- `msgpack_unpack_next` (VERIFY_UNPACK_NEXT_ITEM, rbuscore_message.c:30-35) on the bytes from
`read_offset` on; the second result is what remains. Items the library never writes (nil, booleans,
floats, arrays, maps, extensions) are reported as failure without consuming input: the callers
reject them by type, but the real offset would move past them. -/
def unpackNext : Bytes → Option (Item × Bytes)
  | [] => none
  | t :: bs =>
    let n := t.toNat
    if n < 0x80 then some (.int n, bs)
    else if 0xe0 ≤ n then some (.int ((n : Int) - 256), bs)
    else if 0xa0 ≤ n ∧ n < 0xc0 then (grab bs (n - 0xa0)).map fun (s, r) => (.str s, r)
    else if n = 0xc4 then do let (k, r) ← grabU bs 1; let (s, r) ← grab r k; pure (.bin s, r)
    else if n = 0xc5 then do let (k, r) ← grabU bs 2; let (s, r) ← grab r k; pure (.bin s, r)
    else if n = 0xc6 then do let (k, r) ← grabU bs 4; let (s, r) ← grab r k; pure (.bin s, r)
    else if n = 0xcb then (grabU bs 8).map fun (v, r) => (.dbl (BitVec.ofNat 64 v), r)
    else if n = 0xcc then (grabU bs 1).map fun (v, r) => (.int v, r)
    else if n = 0xcd then (grabU bs 2).map fun (v, r) => (.int v, r)
    else if n = 0xce then (grabU bs 4).map fun (v, r) => (.int v, r)
    else if n = 0xcf then (grabU bs 8).map fun (v, r) => (.int v, r)
    else if n = 0xd0 then (grabS bs 1).map fun (v, r) => (.int v, r)
    else if n = 0xd1 then (grabS bs 2).map fun (v, r) => (.int v, r)
    else if n = 0xd2 then (grabS bs 4).map fun (v, r) => (.int v, r)
    else if n = 0xd3 then (grabS bs 8).map fun (v, r) => (.int v, r)
    else if n = 0xd9 then do let (k, r) ← grabU bs 1; let (s, r) ← grab r k; pure (.str s, r)
    else if n = 0xda then do let (k, r) ← grabU bs 2; let (s, r) ← grab r k; pure (.str s, r)
    else if n = 0xdb then do let (k, r) ← grabU bs 4; let (s, r) ← grab r k; pure (.str s, r)
    else none

/-- `rbusMessage_SetInt32` (rbuscore_message.c:210-213). -/
def setInt32 (v : BitVec 32) : Bytes := packInt v.toInt

/-- `rbusMessage_SetInt64` (rbuscore_message.c:229-232). -/
def setInt64 (v : BitVec 64) : Bytes := packInt v.toInt

/-- `rbusMessage_SetDouble` (rbuscore_message.c:241-244). -/
def setDouble (v : BitVec 64) : Bytes := pack (.dbl v)

/-- `rbusMessage_SetString` (rbuscore_message.c:181-188), NULL being the empty string: the
terminating NUL is part of the item. -/
def setString (s : Bytes) : Bytes := packStr (s ++ [0])

/-- `rbusMessage_SetBytes` (rbuscore_message.c:197-200). -/
def setBytes (s : Bytes) : Bytes := packBin s

/-- `rbusMessage_GetInt32` / `GetUInt32` (rbuscore_message.c:215-227): the low 32 bits of the
64-bit integer. `none` is RT_FAIL. -/
def getInt32 (bs : Bytes) : Option (BitVec 32 × Bytes) :=
  match unpackNext bs with
  | some (.int d, r) => some (BitVec.ofInt 32 d, r)
  | _ => none

/-- `rbusMessage_GetInt64` (rbuscore_message.c:234-239). -/
def getInt64 (bs : Bytes) : Option (BitVec 64 × Bytes) :=
  match unpackNext bs with
  | some (.int d, r) => some (BitVec.ofInt 64 d, r)
  | _ => none

/-- `rbusMessage_GetDouble` (rbuscore_message.c:246-251). -/
def getDouble (bs : Bytes) : Option (BitVec 64 × Bytes) :=
  match unpackNext bs with
  | some (.dbl v, r) => some (v, r)
  | _ => none

/-- `rbusMessage_GetBytes` (rbuscore_message.c:202-208). -/
def getBytes (bs : Bytes) : Option (Bytes × Bytes) :=
  match unpackNext bs with
  | some (.bin s, r) => some (s, r)
  | _ => none

/-- `rbusMessage_GetString` (rbuscore_message.c:190-195) together with the use of the pointer it
returns as a C string: the pointer goes into the message, and nothing checks that the item holds a
NUL; if it does not, the string continues into what follows (`ub`). -/
def getString (bs : Bytes) : Res (Bytes × Bytes) :=
  match unpackNext bs with
  | some (.str s, r) => if s.contains 0 then .ok (s.takeWhile (· ≠ 0), r) else .ub
  | _ => .fail

/-- `_rbusMessage_SetMetaInfo` (rbuscore.c:424-441) with `rbusMessage_BeginMetaSectionWrite` and
`EndMetaSectionWrite` (rbuscore_message.c:265-274): the three strings, then the offset where they
start, packed with the sign bit set, and the sign bit cleared again in the fourth byte from the end
of the message. -/
def setMeta (body method parent state : Bytes) : Bytes :=
  let strs := setString method ++ setString parent ++ setString state
  let off := BitVec.ofNat 32 body.length ||| 0x80000000#32
  let packed := packInt off.toInt
  let data := body ++ strs ++ packed
  data.modify (data.length - 4) (· &&& 0x7F)

/-- `_rbusMessage_GetMetaInfo` (rbuscore.c:443-460) with `rbusMessage_BeginMetaSectionRead` and
`EndMetaSectionRead` (rbuscore_message.c:276-288), on a message and its read offset: the three
strings and the read offset afterwards. A message shorter than 5 bytes gives a huge offset, and a
failed read of the offset leaves 0; the strings stay NULL if not found (`fail`). -/
def getMeta (msg : Bytes) (readOffset : Nat) : Res ((Bytes × Bytes × Bytes) × Nat) :=
  let off := if msg.length < 5 then 0 else
    match getInt32 (msg.drop (msg.length - 5)) with
    | some (v, _) => if v.toInt < 0 then msg.length else v.toNat
    | none => 0
  do
    let (m, r) ← getString (msg.drop off)
    let (p, r) ← getString r
    let (s, _) ← getString r
    pure ((m, p, s), readOffset)

end Verif.Message
