import Verif.Model.Base

/-!
# Specification of base64 (RFC 4648, section 4)
-/

namespace Verif.Base64

open Verif

/-- The alphabet, from the text of the standard. -/
def alphabet : Bytes := "ABCDEFGHIJKLMNOPQRSTUVWXYZabcdefghijklmnopqrstuvwxyz0123456789+/".toUTF8.toList

/-- The character for a digit below 64. -/
def digit (n : Nat) : UInt8 := alphabet.getD n 0

/-- Three bytes are a 24-bit number written as four digits of six bits; a last group of two or one
bytes is filled with zero bits and the missing digits replaced by '='. -/
def standard : Bytes → Bytes
  | a :: b :: c :: rest =>
    let n := a.toNat * 65536 + b.toNat * 256 + c.toNat
    [digit (n / 262144), digit (n / 4096 % 64), digit (n / 64 % 64), digit (n % 64)] ++ standard rest
  | [a, b] =>
    let n := a.toNat * 65536 + b.toNat * 256
    [digit (n / 262144), digit (n / 4096 % 64), digit (n / 64 % 64), 61]
  | [a] =>
    let n := a.toNat * 65536
    [digit (n / 262144), digit (n / 4096 % 64), 61, 61]
  | [] => []

/-- Texts of the form the standard allows: groups of four characters of the alphabet, the last of
which may end in one or two '='. -/
def WellFormed (t : Bytes) : Prop :=
  ∃ body p, t = body ++ List.replicate p 61 ∧ p ≤ 2 ∧ t.length % 4 = 0 ∧ ∀ c ∈ body, c ∈ alphabet

end Verif.Base64
