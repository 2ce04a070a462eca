import Verif.Model.Interval
import Verif.Proof.Exec

/-!
# Vocabulary for subscriptions with an interval
-/

namespace Verif.Spec.Interval

open Verif Verif.Interval

/-- What happened and what was seen. -/
abbrev History := List (Op × Out)

/-- `h` leads from the start of the subscription to `s`. -/
def Leads (interval duration : Int) (h : History) (s : State) : Prop :=
  Exec (step interval duration) State.init h s

/-- What the subscriber gets. -/
inductive Event where
  | interval
  | complete
  deriving DecidableEq, Repr

/-- The events sent, in order. -/
def sent (h : History) : List Event :=
  h.filterMap fun e => match e.2 with | .interval => some .interval | .complete => some .complete | _ => none

/-- How many intervals were over while the subscription waited for that. -/
def timeouts (h : History) : Nat :=
  h.countP fun e => match e.1 with | .timeout _ => true | _ => false

/-- How often the value was read successfully. -/
def reads (h : History) : Nat :=
  h.countP fun e => match e.1 with | .timeout r => r | .signal r => r | _ => false

/-- What `n` readings should lead to: one event each; with a duration, at most `duration / interval` and then the
notice that it is over. -/
def expected (interval duration n : Nat) : List Event :=
  if duration = 0 then List.replicate n .interval
  else if n ≤ duration / interval then List.replicate n .interval
  else List.replicate (duration / interval) .interval ++ [.complete]

/-- Nobody unsubscribed or closed the handle. -/
def Undisturbed (h : History) : Prop := ∀ e ∈ h, e.1 ≠ .unsubscribe ∧ e.1 ≠ .close

/-- Neither thread can ever go on: whatever is tried has to wait. -/
def Stuck (interval duration : Int) (s : State) : Prop := ∀ e, step interval duration s e = .fail

end Verif.Spec.Interval
