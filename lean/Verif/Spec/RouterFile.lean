import Verif.Model.RouterFile

/-!
# What the file with the broker's address means
-/

namespace Verif.RouterFile

open Verif

/-- Bytes between words: tab, newline, vertical tab, form feed, carriage return, space. -/
def Blank (b : UInt8) : Prop := b ∈ ([9, 10, 11, 12, 13, 32] : Bytes)

/-- The file begins with blanks and then has this word. -/
structure FirstWord (blanks w rest : Bytes) : Prop where
  blank : ∀ b ∈ blanks, Blank b
  solid : ∀ b ∈ w, ¬ Blank b
  some : w ≠ []
  ends : ∀ b, rest.head? = .some b → Blank b

/-- How many bytes come before what follows, on the same line. -/
def column (blanks : Bytes) : Nat := blanks.foldl (fun n b => if b = 10 then 0 else n + 1) 0

end Verif.RouterFile
