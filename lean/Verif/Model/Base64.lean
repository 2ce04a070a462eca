import Verif.Model.Base

/-!
# Model of `src/rtmessage/rtBase64.c`

Arithmetic on characters is in `int` (here `Nat`, nothing is negative or overflows); storing into an
`unsigned char` keeps the low 8 bits. Allocation is assumed to succeed.
-/

namespace Verif.Base64

open Verif

/-- `RBUS_BINARY_DATA_SIZE_LIMIT` (rtBase64.h:30). -/
def binLimit : Nat := 1026

/-- `RBUS_BASE64_DATA_SIZE_LIMIT` (rtBase64.h:31). -/
def b64Limit : Nat := binLimit * 4 / 3

/-- `base64_lookup_table[n]` (rtBase64.c:30), the alphabet as ranges; the indices used are below 64. -/
def lookup (n : Nat) : UInt8 :=
  if n < 26 then UInt8.ofNat (65 + n)
  else if n < 52 then UInt8.ofNat (97 + (n - 26))
  else if n < 62 then UInt8.ofNat (48 + (n - 52))
  else if n = 62 then 43
  else 47

/-- `decode_base64_char` (rtBase64.c:32-60); `none` when it sets the error flag. -/
def decodeChar (c : UInt8) : Option Nat :=
  let n := c.toNat
  if 65 ≤ n ∧ n ≤ 90 then some (n - 65)
  else if 97 ≤ n ∧ n ≤ 122 then some (26 + n - 97)
  else if 48 ≤ n ∧ n ≤ 57 then some (52 + n - 48)
  else if n = 43 then some 62
  else if n = 47 then some 63
  else none

/-- '='. -/
def pad : UInt8 := 61

/-- The loop and the last group of `rtBase64_encode` (rtBase64.c:82-124), as a recursion over the
groups. -/
def encodeGroups : Bytes → Bytes
  | a :: b :: c :: rest =>
    lookup (a.toNat >>> 2) :: lookup ((a.toNat &&& 0x03) <<< 4 ||| b.toNat >>> 4) ::
      lookup ((b.toNat &&& 0xF) <<< 2 ||| c.toNat >>> 6) :: lookup (c.toNat &&& 0x3F) :: encodeGroups rest
  | [a, b] =>
    [lookup (a.toNat >>> 2), lookup ((a.toNat &&& 0x03) <<< 4 ||| b.toNat >>> 4),
      lookup ((b.toNat &&& 0xF) <<< 2), pad]
  | [a] => [lookup (a.toNat >>> 2), lookup ((a.toNat &&& 0x03) <<< 4), pad, pad]
  | [] => []

/-- The size allocated and reported by `rtBase64_encode` (rtBase64.c:74-76). -/
def encodeAlloc (n : Nat) : Nat := n * 4 / 3 + 1 + (if n % 3 ≠ 0 then 4 else 0)

/-- `rtBase64_encode` (rtBase64.c:62-130): the C string stored and the size reported. Storing past the
allocation, the terminating NUL included, is `ub`. -/
def encode (bs : Bytes) : Res (Bytes × Nat) :=
  if binLimit < bs.length then .fail
  else if (encodeGroups bs).length + 1 ≤ encodeAlloc bs.length then
    .ok (encodeGroups bs, encodeAlloc bs.length)
  else .ub

/-- The three bytes of a full group (rtBase64.c:172-174); `none` when a character sets the error
flag. -/
def group3 (w x y z : UInt8) : Option Bytes := do
  let a ← decodeChar w
  let b ← decodeChar x
  let c ← decodeChar y
  let d ← decodeChar z
  pure [UInt8.ofNat (a <<< 2 ||| b >>> 4), UInt8.ofNat (b <<< 4 ||| c >>> 2),
    UInt8.ofNat (c <<< 6 ||| d &&& 0x3F)]

/-- The last group with one padding character (rtBase64.c:184-185). -/
def group2 (w x y : UInt8) : Option Bytes := do
  let a ← decodeChar w
  let b ← decodeChar x
  let c ← decodeChar y
  pure [UInt8.ofNat (a <<< 2 ||| b >>> 4), UInt8.ofNat (b <<< 4 ||| c >>> 2)]

/-- The last group with two padding characters (rtBase64.c:180). -/
def group1 (w x : UInt8) : Option Bytes := do
  let a ← decodeChar w
  let b ← decodeChar x
  pure [UInt8.ofNat (a <<< 2 ||| b >>> 4)]

/-- The loop and the last group of `rtBase64_decode` (rtBase64.c:164-186) with `padding` padding
characters, as a recursion over the groups: the loop stops before the last group if there is padding.
An error does not stop the C loop, but nothing of its output is used. -/
def decodeGroups (padding : Nat) : Bytes → Option Bytes
  | w :: x :: y :: z :: rest =>
    if rest = [] ∧ padding = 2 then group1 w x
    else if rest = [] ∧ padding = 1 then group2 w x y
    else do
      let g ← group3 w x y z
      let r ← decodeGroups padding rest
      pure (g ++ r)
  | _ => some []

/-- `num_padding_bytes` (rtBase64.c:147-157): by the last but one character, else by the last. -/
def padding (bs : Bytes) : Nat :=
  if bs[bs.length - 2]? = some pad then 2
  else if bs[bs.length - 1]? = some pad then 1
  else 0

/-- `rtBase64_decode` (rtBase64.c:132-201). An empty input is read at index -2 (`ub`); storing more
than was allocated would be `ub`. The size reported is the number of bytes allocated. -/
def decode (bs : Bytes) : Res (Bytes × Nat) :=
  if b64Limit < bs.length then .fail
  else if bs.length % 4 ≠ 0 then .fail
  else if bs.length = 0 then .ub
  else
    match decodeGroups (padding bs) bs with
    | none => .fail
    | some out =>
      if out.length ≤ bs.length * 3 / 4 - padding bs then .ok (out, bs.length * 3 / 4 - padding bs)
      else .ub

end Verif.Base64
