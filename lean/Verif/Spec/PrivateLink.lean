import Verif.Model.PrivateLink

/-!
# Specification of private connections, consumer's side

Read off the calls made and their results, and the router's notices: which parameters are open, with which
provider; which connections have been made and not ended; which handles have been given and not closed.
-/

namespace Verif.PrivateLink

abbrev History := List (Event × Out)

/-- The open parameters with their providers, after one more step. -/
def heldAfter (l : List (Nat × Nat)) : Event × Out → List (Nat × Nat)
  | (_, .opened _ p q _ _) => l ++ [(p, q)]
  | (_, .closed (some pq) _) => l.erase pq
  | (.gone q, _) => l.filter (·.2 ≠ q)
  | _ => l

def held (h : History) : List (Nat × Nat) := h.foldl heldAfter []

/-- The connections with their providers, after one more step. -/
def linksAfter (l : List (Nat × Nat)) : Event × Out → List (Nat × Nat)
  | (_, .opened _ _ q c true) => l ++ [(c, q)]
  | (_, .closed _ (some c)) => l.filter (·.1 ≠ c)
  | (_, .forgot (some c)) => l.filter (·.1 ≠ c)
  | _ => l

def links (h : History) : List (Nat × Nat) := h.foldl linksAfter []

/-- The handles, after one more step. -/
def givenAfter (l : List Handle) : Event × Out → List Handle
  | (_, .opened k p _ c _) => l ++ [⟨k, p, c⟩]
  | (.close k _, .closed _ _) => l.filter (·.id ≠ k)
  | _ => l

def given (h : History) : List Handle := h.foldl givenAfter []

/-- The provider of an open parameter. -/
def providerOf (l : List (Nat × Nat)) (p : Nat) : Option Nat := (l.find? (·.1 == p)).map (·.2)

/-- No connection can end in this history: nothing is closed and no provider goes. -/
def Quiet (h : History) : Prop := ∀ x ∈ h, (∀ k a, x.1 ≠ .close k a) ∧ ∀ q, x.1 ≠ .gone q

end Verif.PrivateLink
