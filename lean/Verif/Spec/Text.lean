import Verif.Model.Text

/-!
# What texts denote
-/

namespace Verif.Spec.Text

open Verif Verif.Text

/-- The value of a decimal or hexadecimal digit. -/
def digitOf (c : UInt8) : Option Nat :=
  if 48 ≤ c ∧ c ≤ 57 then some (c.toNat - 48)
  else if 97 ≤ c ∧ c ≤ 102 then some (c.toNat - 97 + 10)
  else if 65 ≤ c ∧ c ≤ 70 then some (c.toNat - 65 + 10)
  else none

/-- The number written with these digits. -/
def number (base : Nat) (vs : List Nat) : Nat := vs.foldl (fun a v => a * base + v) 0

/-- `s` is a number `n` in the base: one or more digits. -/
def Numeral (base : Nat) (s : Bytes) (n : Nat) : Prop :=
  s ≠ [] ∧ ∃ vs : List Nat, s.map digitOf = vs.map some ∧ (∀ v ∈ vs, v < base) ∧ n = number base vs

/-- A decimal number; if `auto`, a number as in C: `0x` begins a hexadecimal, `0` an octal one. -/
def Unsigned (auto : Bool) (s : Bytes) (n : Nat) : Prop :=
  if auto then
    (∃ x h, (x = 120 ∨ x = 88) ∧ s = 48 :: x :: h ∧ Numeral 16 h n) ∨
    (s.head? = some 48 ∧ Numeral 8 s n) ∨
    (s.head? ≠ some 48 ∧ Numeral 10 s n)
  else Numeral 10 s n

/-- Blanks: space, tab, line feed, vertical tab, form feed, carriage return. -/
def Blank (c : UInt8) : Prop := c = 32 ∨ c = 9 ∨ c = 10 ∨ c = 11 ∨ c = 12 ∨ c = 13

/-- `s` denotes `z`: blanks, a sign or none, an unsigned number. -/
def Denotes (auto : Bool) (s : Bytes) (z : Int) : Prop :=
  ∃ blanks sign digits n, s = blanks ++ sign ++ digits ∧ (∀ c ∈ blanks, Blank c) ∧ Unsigned auto digits n ∧
    (((sign = [] ∨ sign = [43]) ∧ z = n) ∨ (sign = [45] ∧ z = -(n : Int)))

/-- The least and greatest number of a type. -/
def least : IntTy → Int
  | .int8 => -2 ^ 7 | .int16 => -2 ^ 15 | .int32 => -2 ^ 31 | .int64 => -2 ^ 63
  | _ => 0

def greatest : IntTy → Int
  | .int8 => 2 ^ 7 - 1 | .int16 => 2 ^ 15 - 1 | .int32 => 2 ^ 31 - 1 | .int64 => 2 ^ 63 - 1
  | .uint8 => 2 ^ 8 - 1 | .uint16 => 2 ^ 16 - 1 | .uint32 => 2 ^ 32 - 1 | .uint64 => 2 ^ 64 - 1

/-- The types of eight bits take C's prefixes. -/
def prefixes : IntTy → Bool
  | .int8 | .uint8 => true
  | _ => false

/-- The type of value. -/
def tyOf : IntTy → Value.Ty
  | .int8 => .int8 | .uint8 => .uint8 | .int16 => .int16 | .uint16 => .uint16
  | .int32 => .int32 | .uint32 => .uint32 | .int64 => .int64 | .uint64 => .uint64

/-- The number in a value of an integer type. -/
def held : IntTy → Value.Scalar → Option Int
  | .int8, .int8 v => some v.toInt
  | .uint8, .uint8 v => some v.toNat
  | .int16, .int16 v => some v.toInt
  | .uint16, .uint16 v => some v.toNat
  | .int32, .int32 v => some v.toInt
  | .uint32, .uint32 v => some v.toNat
  | .int64, .int64 v => some v.toInt
  | .uint64, .uint64 v => some v.toNat
  | _, _ => none

/-- The types without sign. -/
def noSign : IntTy → Bool
  | .uint8 | .uint16 | .uint32 | .uint64 => true
  | _ => false

/-- A minus sign after blanks. -/
def BlankMinus (s : Bytes) : Prop := ∃ b r, s = b ++ 45 :: r ∧ b ≠ [] ∧ ∀ c ∈ b, Blank c

end Verif.Spec.Text
