import Verif.Model.ThreadPool

/-!
# Specification: tasks given to a thread pool
-/

namespace Verif.Spec.ThreadPool

open Verif Verif.ThreadPool

/-- Steps with what was seen of them. -/
abbrev History := List (Op × Out)

/-- The task given to the pool in a step. -/
def submittedIn : Op × Out → Option Nat
  | (.submit t _, _) => some t
  | _ => none

/-- The task a worker starts in a step. -/
def startedIn : Op × Out → Option Nat
  | (_, .worked _ (.took t)) => some t
  | _ => none

/-- The task that has ended. -/
def finishedIn : Op × Out → Option Nat
  | (_, .worked f _) => f
  | _ => none

/-- The tasks given to the pool, in order. -/
def submitted (h : History) : List Nat := h.filterMap submittedIn

/-- The tasks started, in order. -/
def started (h : History) : List Nat := h.filterMap startedIn

/-- The tasks that have ended, in order. -/
def finished (h : History) : List Nat := h.filterMap finishedIn

/-- Destroying has stopped the workers. -/
def Stopped (h : History) : Prop := ∃ c, (Op.stop, Out.stopped c) ∈ h

/-- No worker leaves because it has waited long enough while a task is there that nobody has started. -/
def Unhurried (h : History) : Prop :=
  ∀ a i f b, h = a ++ (.work i, .worked f .left) :: b → ¬ Stopped a → started a = submitted a

/-- Is this worker going to do something without being woken? -/
def Active : Pc → Prop
  | .starting => True
  | .woken => True
  | .expired => True
  | .running _ => True
  | _ => False

/-- The tasks that are running. -/
def inHand (s : State) : List Nat := s.workers.filterMap fun | .running t => some t | _ => none

/-- Steps in which nobody gives a task to the pool while a new worker has not begun. -/
def spacedStep (s : State) : Op → Res (State × Out)
  | .submit t w => if Pc.starting ∈ s.workers then .fail else step s (.submit t w)
  | e => step s e

/-- A worker between having left and its end. -/
def Pc.parting : Pc → Bool
  | .leaving => true
  | .destroying => true
  | _ => false

/-- The destroying thread after the workers were stopped and before its end. -/
def parting : Option Destroyer → Bool
  | some .stopped => true
  | some .leaving => true
  | some .destroying => true
  | _ => false

/-- A step of a thread that is parting. -/
def ofParting (s : State) : Op → Bool
  | .work i => (s.workers[i]?.map Pc.parting).getD false
  | .goOn => parting s.destroyer
  | _ => false

/-- Steps such that a thread that is parting is not interrupted, and the workers are not stopped while one of them has not
begun. -/
def calmStep (s : State) (e : Op) : Res (State × Out) :=
  if (s.workers.any Pc.parting || parting s.destroyer) && !ofParting s e then .fail
  else if e = .stop ∧ Pc.starting ∈ s.workers then .fail
  else step s e

end Verif.Spec.ThreadPool
