import Verif.Model.ClientRead

/-!
# Vocabulary for C115
-/

namespace Verif.ClientRead

open Verif

/-- Bytes arrive in pieces of any size, with interruptions by signals, and nothing else happens. -/
def Calm (s : List Recv) : Prop := ∀ r ∈ s, r = .intr ∨ ∃ c, c ≠ [] ∧ r = .data c

/-- The bytes that arrive, put together. -/
def bytes : List Recv → Bytes
  | [] => []
  | .data c :: s => c ++ bytes s
  | _ :: s => bytes s

end Verif.ClientRead
