import Verif.Model.Compare
import Verif.Model.DateText

/-!
# Floating-point numbers as text

The RBUS_SINGLE and RBUS_DOUBLE cases of `rbusValue_ToString` and `rbusValue_SetFromString`
(src/rbus/rbus_value.c:295-300, 358-363 and 1215-1240). `printf` and `strtod` are modelled after the C standard
(7.23.6.1, 7.24.1.5) in the "C" locale and the default rounding mode; hexadecimal notation is left out. Numbers are
integer multiples of 2^-1074, as in Compare.
-/

namespace Verif.FloatText

open Verif Verif.Value Verif.Text Verif.DateText

/-- A floating-point type: its bit patterns and what they mean, and the format it is printed with: digits after the
point, and least width. -/
structure Format where
  width : Nat
  val : BitVec width → Dbl
  digits : Nat
  least : Nat

/-- RBUS_DOUBLE: `"%.*f"` with DBL_DIG = 15 (line 362). -/
def double : Format := ⟨64, Dbl.ofBits, 15, 0⟩

/-- RBUS_SINGLE: `"%*f"` with FLT_DIG = 6, which gives the width; six digits are the default (line 359). -/
def single : Format := ⟨32, Dbl.ofSingle, 6, 6⟩

/-- Division rounded to the nearest, ties to even. -/
def divRound (a b : Nat) : Nat :=
  let q := a / b
  let r := a % b
  if b < 2 * r ∨ (b = 2 * r ∧ q % 2 = 1) then q + 1 else q

/-- Digits, a point, `p` digits: `q` units of the last digit. -/
def fixed (p q : Nat) : Bytes := Element.decimal (q / 10 ^ p) ++ [46] ++ padded p (q % 10 ^ p)

/-- The sign bit is set. -/
def signBit {w : Nat} (b : BitVec w) : Bool := b.msb

/-- The text of a number (lines 358-363). NaN prints with or without sign. -/
def text (F : Format) (b : BitVec F.width) : Bytes :=
  let sign := if signBit b then [45] else []
  let t := match F.val b with
    | .nan => sign ++ [110, 97, 110]
    | .ninf => [45, 105, 110, 102]
    | .pinf => [105, 110, 102]
    | .fin n => sign ++ fixed F.digits (divRound (n.natAbs * 10 ^ F.digits) scale)
  List.replicate (F.least - t.length) 32 ++ t

/-- `rbusValue_ToString` into a buffer of the caller: the bytes written at its front (the buffer made when there is
none is as long as the text, lines 295-300). -/
def toBuffer (F : Format) (b : BitVec F.width) (n : Nat) : Bytes := snprintf n (text F b)

/-- What a text denotes before it is rounded: an infinity, NaN, or a fraction; with its sign. -/
inductive Lit where
  | inf (neg : Bool)
  | nan (neg : Bool)
  | frac (neg : Bool) (num den : Nat)
  deriving DecidableEq, Repr

/-- The number written with decimal digits. -/
def number (ds : Bytes) : Nat := ds.foldl (fun a c => a * 10 + (c.toNat - 48)) 0

/-- The exponent, if there is one: sign and value, and what follows. -/
def exponent (s : Bytes) : Option (Bool × Nat × Bytes) :=
  match s with
  | e :: r =>
    if e = 101 ∨ e = 69 then
      let (neg, r) := match r with
        | 45 :: r => (true, r)
        | 43 :: r => (false, r)
        | r => (false, r)
      if r.takeWhile isDec = [] then none
      else some (neg, number (r.takeWhile isDec), r.dropWhile isDec)
    else none
  | [] => none

/-- A number in decimal notation without its sign: numerator and denominator, and what follows. -/
def decimals (s : Bytes) : Option (Nat × Nat × Bytes) :=
  let ip := s.takeWhile isDec
  let r := s.dropWhile isDec
  let (fp, r) := match r with
    | 46 :: r' => if ip = [] ∧ r'.takeWhile isDec = [] then ([], r) else (r'.takeWhile isDec, r'.dropWhile isDec)
    | r => ([], r)
  if ip = [] ∧ fp = [] then none
  else
    let num := number (ip ++ fp)
    let den := 10 ^ fp.length
    match exponent r with
    | some (false, e, r) => some (num * 10 ^ e, den, r)
    | some (true, e, r) => some (num, den * 10 ^ e, r)
    | none => some (num, den, r)

/-- Lower case. -/
def isPrefixI (p s : Bytes) : Bool := (s.take p.length).map lower = p

/-- The subject of `strtod` and what follows; `none`: no conversion. After `nan` a group in parentheses may follow;
it is left out here, and texts with it are refused like others that go on. -/
def strtod (s : Bytes) : Option (Lit × Bytes) :=
  let (neg, s) := match s.dropWhile isspace with
    | 45 :: r => (true, r)
    | 43 :: r => (false, r)
    | r => (false, r)
  if isPrefixI [105, 110, 102, 105, 110, 105, 116, 121] s then some (.inf neg, s.drop 8)
  else if isPrefixI [105, 110, 102] s then some (.inf neg, s.drop 3)
  else if isPrefixI [110, 97, 110] s then some (.nan neg, s.drop 3)
  else (decimals s).map fun (num, den, r) => (.frac neg num den, r)

/-- Rounding of the C library: the bit pattern for what a text denotes, and whether `errno` is ERANGE. -/
abbrev Rounding (F : Format) := Lit → BitVec F.width × Bool

/-- `rbusValue_SetFromString` (lines 1215-1240): the whole text has to be converted, and ERANGE refuses it. -/
def fromText (F : Format) (rnd : Rounding F) (s : Bytes) : Option (BitVec F.width) :=
  match strtod s with
  | none => none
  | some (l, r) => if r ≠ [] ∨ (rnd l).2 = true then none else some (rnd l).1

end Verif.FloatText
