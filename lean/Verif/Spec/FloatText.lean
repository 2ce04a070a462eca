import Verif.Model.FloatText

/-!
# Specification for floating-point numbers as text
-/

namespace Verif.FloatText

open Verif Verif.Value

/-- The numbers of a type, in units of 2^-1074. -/
def Format.Number (F : Format) (n : Int) : Prop := ∃ b, F.val b = .fin n

/-- The signed number `num`. -/
def signed (neg : Bool) (num : Nat) : Int := if neg then -(num : Int) else num

/-- The distance between the number `n` units and the fraction `z / den`, times the denominator. -/
def distance (n z : Int) (den : Nat) : Nat := (n * den - z * scale).natAbs

/-- Rounding as the C standard and IEEE 754 want it. A fraction between two numbers of the type `lo` and `hi`, the lower
of which is at least the least normal number `tiny`, gives a number of the type nearest to it, and no error; zero gives
zero; `inf` and `nan` give those. -/
structure Correct (F : Format) (tiny : Nat) (rnd : Rounding F) : Prop where
  nearest : ∀ neg num den hi, 0 < den → F.Number (hi : Nat) → tiny * den ≤ num * scale → num * scale ≤ hi * den →
    (rnd (.frac neg num den)).2 = false ∧
    ∃ n, F.val (rnd (.frac neg num den)).1 = .fin n ∧
      ∀ m, F.Number m → distance n (signed neg num) den ≤ distance m (signed neg num) den
  zero : ∀ neg den, 0 < den → (rnd (.frac neg 0 den)).2 = false ∧ F.val (rnd (.frac neg 0 den)).1 = .fin 0
  inf : ∀ neg, (rnd (.inf neg)).2 = false ∧ F.val (rnd (.inf neg)).1 = if neg then .ninf else .pinf
  nan : ∀ neg, (rnd (.nan neg)).2 = false ∧ F.val (rnd (.nan neg)).1 = .nan

/-- The least normal double, 2^-1022, and float, 2^-126. -/
def tinyDouble : Nat := 2 ^ 52
def tinySingle : Nat := 2 ^ 948

/-- A string of decimal digits and the number it is. -/
def Digits (s : Bytes) (n : Nat) : Prop :=
  ∃ vs : List Nat, s = vs.map (fun v => UInt8.ofNat (48 + v)) ∧ (∀ v ∈ vs, v < 10) ∧
    n = vs.foldl (fun a v => a * 10 + v) 0

/-- The digits of a number in decimal notation, `num / 10^k`: digits, perhaps a point, `k` digits. -/
def Mantissa (s : Bytes) (num k : Nat) : Prop :=
  ∃ ip fp, (s = ip ++ 46 :: fp ∨ (s = ip ∧ fp = [])) ∧ ip ++ fp ≠ [] ∧ Digits (ip ++ fp) num ∧ fp.length = k

/-- `+` or nothing, or `-`. -/
def Sign (s : Bytes) (neg : Bool) : Prop :=
  (s = [] ∧ neg = false) ∨ (s = [43] ∧ neg = false) ∨ (s = [45] ∧ neg = true)

/-- Decimal notation, perhaps with an exponent and with blanks before it, of the fraction `num / den`. -/
def Notation (s : Bytes) (neg : Bool) (num den : Nat) : Prop :=
  ∃ blanks sign m ex a k, s = blanks ++ (sign ++ (m ++ ex)) ∧ (∀ c ∈ blanks, c = 32 ∨ 9 ≤ c ∧ c ≤ 13) ∧ Sign sign neg ∧
    Mantissa m a k ∧
    ((ex = [] ∧ num = a ∧ den = 10 ^ k) ∨
     ∃ c sg ds up e, ex = c :: (sg ++ ds) ∧ (c = 101 ∨ c = 69) ∧ Sign sg up ∧ ds ≠ [] ∧ Digits ds e ∧
      if up then num = a ∧ den = 10 ^ k * 10 ^ e else num = a * 10 ^ e ∧ den = 10 ^ k)

/-- One of the words for the infinities and NaN, in upper or lower case, with blanks and sign before it. -/
def Word (s : Bytes) (neg : Bool) (l : Lit) : Prop :=
  ∃ blanks sign w, s = blanks ++ (sign ++ w) ∧ (∀ c ∈ blanks, c = 32 ∨ 9 ≤ c ∧ c ≤ 13) ∧ Sign sign neg ∧
    ((w.map Text.lower = [105, 110, 102] ∧ l = .inf neg) ∨
     (w.map Text.lower = [105, 110, 102, 105, 110, 105, 116, 121] ∧ l = .inf neg) ∨
     (w.map Text.lower = [110, 97, 110] ∧ l = .nan neg))

/-- The text of the number `n` units is the decimal notation with `p` digits after the point of a number that differs
from it by at most half a unit of the last digit. -/
def Close (s : Bytes) (neg : Bool) (n : Int) (p : Nat) : Prop :=
  ∃ q, Notation s neg q (10 ^ p) ∧ 2 * distance n (signed neg q) (10 ^ p) ≤ scale

end Verif.FloatText
