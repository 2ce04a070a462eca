import Verif.Model.DisconnectWatch
import Verif.Proof.Exec

/-!
# When a process should learn that another one is gone
-/

namespace Verif.DisconnectWatch

open Verif

/-- What a process did, and what came of it. -/
abbrev History := List (Event × Out)

/-- Some direct handle and some handle are open. -/
def Engaged (s : State) : Prop := s.directs ≠ [] ∧ s.mains ≠ []

/-- At some point a direct handle was opened when none was open and a listener could still be added; from
then on there was always a direct handle open, and always a handle. -/
def Watching (h : History) : Prop :=
  ∃ (h₁ : History) (d m : Nat) (o : Out) (h₂ : History) (t : State),
    h = h₁ ++ (Event.openDirect d m true, o) :: h₂ ∧ Exec step init h₁ t ∧
    t.directs = [] ∧ none ∈ t.slots ∧
    ∀ (k : History) (u : State), k <+: h₂ → Exec step init (h₁ ++ (Event.openDirect d m true, o) :: k) u → Engaged u

/-- No other listener was given the number of the listener for notices. -/
def Apart (h : History) : Prop := ∀ x ∈ h, x.1 ≠ Event.listen advisoryId

/-- The process is told when somebody's connection ends. -/
def Told (s : State) : Prop := ∀ inbox : Bytes, step s (.notice (.gone inbox)) = .ok (s, .told (some inbox))

/-- It is not. -/
def Deaf (s : State) : Prop := ∀ inbox : Bytes, step s (.notice (.gone inbox)) = .ok (s, .told none)

end Verif.DisconnectWatch
