import Verif.Model.Semaphore

/-!
# Specification: a semaphore
-/

namespace Verif.Spec.Semaphore

open Verif Verif.Semaphore

/-- Steps with what was seen of them. -/
abbrev History := List (Op × Out)

def isPost (x : Op × Out) : Bool := x.1 == .post

def isPass : Op × Out → Bool
  | (_, .passed _) => true
  | _ => false

/-- How often it was posted. -/
def posts (h : History) : Nat := h.countP isPost

/-- How often a wait has succeeded. -/
def passes (h : History) : Nat := h.countP isPass

/-- Steps in which the condition is not woken for no reason, `rtSemaphore_Post` is not interrupted before it wakes the
condition, and nobody begins to wait while a woken thread has not gone on. -/
def orderlyStep (s : State) (e : Op) : Res (State × Out) :=
  match e with
  | .spurious _ => .fail
  | .signal w => step s (.signal w)
  | .wait i => if s.posting ≠ 0 ∨ s.woken ≠ [] then .fail else step s (.wait i)
  | e => if s.posting ≠ 0 then .fail else step s e

/-- Nobody is using the semaphore. -/
def Unused (s : State) : Prop := s.waiting = [] ∧ s.woken = [] ∧ s.expired = [] ∧ s.posting = 0

instance (s : State) : Decidable (Unused s) := inferInstanceAs (Decidable (_ ∧ _ ∧ _ ∧ _))

/-- Steps in which the semaphore is destroyed only when nobody is using it. -/
def politeStep (s : State) (e : Op) : Res (State × Out) :=
  if e = .destroy ∧ ¬ Unused s then .fail else step s e

end Verif.Spec.Semaphore
