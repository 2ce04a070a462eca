import Verif.Model.Base

/-!
# Model of `src/rtmessage/rtSemaphore.c`

Any number of threads, which are numbers. What is done while `m` is held is one step; between such steps the threads go
on in any order. The operations on mutex and condition succeed.
-/

namespace Verif.Semaphore

/-- `struct _rtSemaphore` (rtSemaphore.c:39-44) with the threads in it: those in `pthread_cond_wait` or
`pthread_cond_timedwait` (109-112), those woken or timed out there that do not yet have the mutex again, and the number
of those in `rtSemaphore_Post` between `pthread_mutex_unlock` and `pthread_cond_signal` (81-82). -/
structure State where
  value : Nat
  waiting : List Nat
  woken : List Nat
  expired : List Nat
  posting : Nat
  freed : Bool
  deriving DecidableEq, Repr

/-- `rtSemaphore_Create` (rtSemaphore.c:46-64). -/
def State.init : State := ⟨0, [], [], [], 0, false⟩

/-- What can happen.

* `wait i`: thread `i` calls `rtSemaphore_Wait` or `rtSemaphore_TimedWait`, up to where it gives up the mutex.
* `post`: `rtSemaphore_Post` up to there; `signal w`: its `pthread_cond_signal`, which wakes `w` if any waits.
* `spurious i`, `expire i`: the wait ends for no reason, or because of the time.
* `resume i`: a thread whose wait has ended has the mutex again.
* `destroy`: `rtSemaphore_Destroy`. -/
inductive Op where
  | wait (i : Nat)
  | post
  | signal (w : Option Nat)
  | spurious (i : Nat)
  | expire (i : Nat)
  | resume (i : Nat)
  | destroy
  deriving DecidableEq, Repr

/-- What is seen: a wait has returned RT_OK or RT_ERROR_TIMEOUT, or nothing. -/
inductive Out where
  | passed (i : Nat)
  | timedOut (i : Nat)
  | silent
  deriving DecidableEq, Repr

/-- One step. Using the semaphore when it is freed is `ub`; a step that cannot happen now is `fail`. -/
def step (s : State) : Op → Res (State × Out)
  -- rtSemaphore.c:98-112
  | .wait i =>
    if i ∈ s.waiting ∨ i ∈ s.woken ∨ i ∈ s.expired then .fail
    else if s.freed then .ub
    else if s.value > 0 then .ok ({ s with value := s.value - 1 }, .passed i)
    else .ok ({ s with waiting := i :: s.waiting }, .silent)
  -- 76-81
  | .post => if s.freed then .ub else .ok ({ s with value := s.value + 1, posting := s.posting + 1 }, .silent)
  -- 82
  | .signal w =>
    if s.posting = 0 then .fail
    else if s.freed then .ub
    else
      match w with
      | some i =>
        if i ∈ s.waiting then
          .ok ({ s with posting := s.posting - 1, waiting := s.waiting.erase i, woken := i :: s.woken }, .silent)
        else .fail
      | none => if s.waiting = [] then .ok ({ s with posting := s.posting - 1 }, .silent) else .fail
  | .spurious i =>
    if i ∈ s.waiting then .ok ({ s with waiting := s.waiting.erase i, woken := i :: s.woken }, .silent) else .fail
  | .expire i =>
    if i ∈ s.waiting then .ok ({ s with waiting := s.waiting.erase i, expired := i :: s.expired }, .silent) else .fail
  -- 113-130: the value is not looked at again before returning RT_OK
  | .resume i =>
    if i ∈ s.woken then
      if s.freed then .ub
      else .ok ({ s with woken := s.woken.erase i, value := if s.value > 0 then s.value - 1 else s.value }, .passed i)
    else if i ∈ s.expired then
      if s.freed then .ub
      else .ok ({ s with expired := s.expired.erase i }, .timedOut i)
    else .fail
  -- 66-74
  | .destroy => if s.freed then .ub else .ok ({ s with freed := true }, .silent)

/-- Several. -/
def run (s : State) : List Op → Res (State × List Out)
  | [] => .ok (s, [])
  | op :: ops => do
    let (s1, o) ← step s op
    let (s2, os) ← run s1 ops
    pure (s2, o :: os)

end Verif.Semaphore
