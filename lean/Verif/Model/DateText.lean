import Verif.Model.Text

/-!
# Times as text: the RBUS_DATETIME cases of `rbusValue_ToString` and `rbusValue_SetFromString`

src/rbus/rbus_value.c:301-303, 365-395 and 1233-1265. `strptime` is that of glibc in the "C" locale.
-/

namespace Verif.DateText

open Verif Verif.Value Verif.Text

/-- `printf("%0wd")` of a number that is not negative, for `w` at least 1: the last `w` digits, before them what is
left of the number. -/
def padded : Nat → Nat → Bytes
  | 0, n => if n = 0 then [] else Element.decimal n
  | w + 1, n => padded w (n / 10) ++ [UInt8.ofNat (48 + n % 10)]

/-- `printf("%0wd")`: the sign counts for the width. -/
def pad (w : Nat) (v : Int) : Bytes :=
  if v < 0 then 45 :: padded (w - 1) v.natAbs else padded w v.natAbs

/-- The time zone (lines 367-375). -/
def zoneText (d : DateTime) : Bytes :=
  if d.tzhour ≠ 0 ∨ d.tzmin ≠ 0 then
    (if d.isWest then [45] else [43]) ++ pad 2 d.tzhour.toInt ++ [58] ++ pad 2 d.tzmin.toInt
  else [90]

/-- `"%04d-%02d-%02dT%02d:%02d:%02d%s"` (lines 377, 387). -/
def fields (year mon : Int) (d : DateTime) : Bytes :=
  pad 4 year ++ [45] ++ pad 2 mon ++ [45] ++ pad 2 d.mday.toInt ++ [84] ++ pad 2 d.hour.toInt ++ [58] ++
    pad 2 d.min.toInt ++ [58] ++ pad 2 d.sec.toInt ++ zoneText d

/-- The text of a time (lines 366-394). The additions are of type `int`; they overflow for the greatest years and
months: `ub`. -/
def text (d : DateTime) : Res Bytes :=
  if d.year = 0 then .ok (fields 0 d.mon.toInt d)
  else if d.year.toInt + 1900 < 2 ^ 31 ∧ d.mon.toInt + 1 < 2 ^ 31 then
    .ok (fields (d.year.toInt + 1900) (d.mon.toInt + 1) d)
  else .ub

/-- `rbusValue_ToString(value, NULL, 0)`: the text in a buffer allocated with 26 bytes (lines 301-303, 309). -/
def toText (d : DateTime) : Res Bytes := do
  let t ← text d
  pure (t.take 25)

/-- `rbusValue_ToString` into a buffer of the caller: the bytes written at its front. -/
def toBuffer (d : DateTime) (n : Nat) : Res Bytes := do
  let t ← text d
  pure (snprintf n t)

/-- A decimal digit. -/
def isDec (c : UInt8) : Bool := 48 ≤ c && c ≤ 57

/-- The loop of `get_number` in glibc's strptime: at most `n` more digits, and none when the number times ten
exceeds the limit. -/
def more (hi : Nat) : Nat → Nat → Bytes → Nat × Bytes
  | 0, v, s => (v, s)
  | _ + 1, v, [] => (v, [])
  | n + 1, v, c :: r =>
    if v * 10 ≤ hi ∧ isDec c = true then more hi n (v * 10 + (c.toNat - 48)) r else (v, c :: r)

/-- `get_number(lo, hi, n)` in glibc's strptime: blanks are skipped, then one to `n` digits are read. -/
def getNumber (lo hi n : Nat) (s : Bytes) : Option (Nat × Bytes) :=
  match s.dropWhile isspace with
  | [] => none
  | c :: r =>
    if isDec c then
      let (v, r) := more hi (n - 1) (c.toNat - 48) r
      if lo ≤ v ∧ v ≤ hi then some (v, r) else none
    else none

/-- A literal character of the format; a blank there matches any number of blanks, also none. -/
def literal (c : UInt8) (s : Bytes) : Option Bytes :=
  if isspace c then some (s.dropWhile isspace)
  else match s with
    | b :: r => if b = c then some r else none
    | [] => none

/-- The fields `strptime` sets from the text. -/
structure Fields where
  year : Nat
  mon : Nat
  mday : Nat
  hour : Nat
  min : Nat
  sec : Nat
  deriving DecidableEq, Repr

/-- `strptime` with `"%Y-%m-%dT%H:%M:%S"`, or with `sep` in place of the T (lines 1240-1243); what is not read. -/
def strptime (sep : UInt8) (s : Bytes) : Option (Fields × Bytes) := do
  let (year, s) ← getNumber 0 9999 4 s
  let s ← literal 45 s
  let (mon, s) ← getNumber 1 12 2 s
  let s ← literal 45 s
  let (mday, s) ← getNumber 1 31 2 s
  let s ← literal sep s
  let (hour, s) ← getNumber 0 23 2 s
  let s ← literal 58 s
  let (min, s) ← getNumber 0 59 2 s
  let s ← literal 58 s
  let (sec, s) ← getNumber 0 61 2 s
  pure (⟨year, mon, mday, hour, min, sec⟩, s)

/-- The zone (lines 1249-1256): west, hours, minutes. `sscanf("%02d:%02d")` reads the minutes only after a colon. -/
def zone (s : Bytes) : Bool × Nat × Nat :=
  match s with
  | [sign, a, b, colon, c, d] =>
    if isDec a && isDec b && isDec c && isDec d then
      (sign = 45, (a.toNat - 48) * 10 + (b.toNat - 48),
        if colon = 58 then (c.toNat - 48) * 10 + (d.toNat - 48) else 0)
    else (false, 0, 0)
  | _ => (false, 0, 0)

/-- What is not in the text: `strptime` computes the day of the week and of the year; `tm_isdst` is whatever the
uninitialised variable of line 1235 held. -/
structure Rest where
  days : Fields → BitVec 32 × BitVec 32
  isdst : BitVec 32

/-- The time with all fields 0. -/
def zero : DateTime := ⟨0, 0, 0, 0, 0, 0, 0, 0, 0, 0, 0, false⟩

/-- The RBUS_DATETIME case of `rbusValue_SetFromString` (lines 1233-1265). A text that begins with "0000-" gives the
time with all fields 0. -/
def fromText (x : Rest) (s : Bytes) : Option DateTime :=
  if s.take 5 = [48, 48, 48, 48, 45] then some zero
  else do
    let (f, r) ← strptime (if 84 ∈ s then 84 else 32) s
    let (west, h, m) := zone r
    let (wday, yday) := x.days f
    pure { sec := BitVec.ofNat 32 f.sec, min := BitVec.ofNat 32 f.min, hour := BitVec.ofNat 32 f.hour,
           mday := BitVec.ofNat 32 f.mday, mon := BitVec.ofNat 32 (f.mon - 1),
           year := BitVec.ofInt 32 (f.year - 1900), wday, yday, isdst := x.isdst,
           tzhour := BitVec.ofNat 32 h, tzmin := BitVec.ofNat 32 m, isWest := west }

end Verif.DateText
