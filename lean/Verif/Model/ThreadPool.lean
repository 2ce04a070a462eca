import Verif.Model.Base

/-!
# Model of `src/rtmessage/rtThreadPool.c`

The pool, its worker threads, and one thread that destroys it. What is done while `poolLock` is held is one step;
between such steps the threads go on in any order. Tasks are numbers. The list of tasks is a Lean list, as justified by
`C27_list_is_sequence`. Creating threads and allocation succeed. The application calls nothing on the pool after it has
begun to destroy it.
-/

namespace Verif.ThreadPool

/-- Where a worker is (`rtThread_WorkerThreadFunc`, rtThreadPool.c:115-155). -/
inductive Pc where
  /-- Created, before it first locks the pool (120). -/
  | starting
  /-- In `pthread_cond_timedwait` (140). -/
  | waiting
  /-- Woken from it, before it has the lock again. -/
  | woken
  /-- Timed out, before it has the lock again. -/
  | expired
  /-- In the task's function (128), without the lock. -/
  | running (t : Nat)
  /-- Before `rtThreadPool_TryRealDestroy` (152) locks the pool. -/
  | leaving
  /-- In it, having found that the pool is to be destroyed (77-86). -/
  | destroying
  /-- Has ended. -/
  | gone
  deriving DecidableEq, Repr

/-- Where the thread in `rtThreadPool_Destroy` is (rtThreadPool.c:280-291). -/
inductive Destroyer where
  /-- Waiting in `rtThreadPool_StopAllThread` (237-278), for all tasks or for some time. -/
  | stopping (forever : Bool)
  /-- Before it sets `isShutdown` (285-287). -/
  | stopped
  /-- Before `rtThreadPool_TryRealDestroy` (288) locks the pool. -/
  | leaving
  | destroying
  | done
  deriving DecidableEq, Repr

/-- `struct _rtThreadPool` (rtThreadPool.c:35-49) and its threads; `freed` once the pool has been freed. -/
structure State where
  queue : List Nat
  workers : List Pc
  maxThreads : Nat
  threadCount : Nat
  busy : Nat
  isRunning : Bool
  isShutdown : Bool
  destroyer : Option Destroyer
  freed : Bool
  deriving DecidableEq, Repr

/-- `rtThreadPool_Create` (rtThreadPool.c:176-207). -/
def State.init (n : Nat) : State := ⟨[], [], n, 0, 0, true, false, none, false⟩

/-- What can happen.

* `submit t w`: `rtThreadPool_RunTask`; `w` is the waiting worker that `pthread_cond_signal` wakes, if it is called and
  any waits.
* `work i`: the `i`-th worker goes on to where it next gives up the lock or waits.
* `timeout i`, `spurious i`: the wait of a worker ends because of the time, or for no reason.
* `destroy forever`: `rtThreadPool_Destroy` is called, with a negative time to wait or another.
* `stop`: its wait is over. When it does not wait for ever the time may be over or not: this is not modelled here, see
  `elapsed` below.
* `goOn`: it goes on to where it next gives up the lock. -/
inductive Op where
  | submit (t : Nat) (w : Option Nat)
  | work (i : Nat)
  | timeout (i : Nat)
  | spurious (i : Nat)
  | destroy (forever : Bool)
  | stop
  | goOn
  deriving DecidableEq, Repr

/-- What a worker does before it gives up the lock: starts a task, waits, or leaves. -/
inductive Next where
  | took (t : Nat)
  | waits
  | left
  deriving DecidableEq, Repr

/-- What is seen of a step: the result of submitting (`pending` for RT_ERROR_THREADPOOL_TASK_PENDING); a worker that has
finished a task, or none, and what it does next; what `rtThreadPool_StopAllThread` returns. -/
inductive Out where
  | submitted (pending : Bool)
  | worked (finished : Option Nat) (n : Next)
  | stopped (cancelled : Bool)
  | silent
  deriving DecidableEq, Repr

/-- Sets the place of a worker. -/
def setPc (s : State) (i : Nat) (p : Pc) : State := { s with workers := s.workers.set i p }

/-- The loop (rtThreadPool.c:122-150, with rtThread_DequeTask, 89-113) from where the lock is held to where it is given up. -/
def loop (s : State) (i : Nat) : State × Next :=
  if s.isRunning then
    match s.queue with
    | t :: q => (setPc { s with queue := q, busy := s.busy + 1 } i (.running t), .took t)
    | [] => (setPc s i .waiting, .waits)
  else (setPc { s with threadCount := s.threadCount - 1 } i .leaving, .left)

/-- `rtThreadPool_TryRealDestroy` up to the unlock (rtThreadPool.c:74-77). -/
def shouldDestroy (s : State) : Bool := s.threadCount == 0 && s.isShutdown

/-- `rtThreadPool_RunTask` (rtThreadPool.c:293-342). -/
def submit (s : State) (t : Nat) (w : Option Nat) : Res (State × Out) :=
  let s := { s with queue := s.queue ++ [t] }
  if s.busy < s.threadCount then
    match w with
    | some i => if s.workers[i]? = some .waiting then .ok (setPc s i .woken, .submitted false) else .fail
    | none => if Pc.waiting ∈ s.workers then .fail else .ok (s, .submitted false)
  else if w ≠ none then .fail
  else if s.threadCount < s.maxThreads then .ok ({ s with workers := s.workers ++ [.starting] }, .submitted false)
  else .ok (s, .submitted true)

/-- One step of a worker. -/
def work (s : State) (i : Nat) : Pc → Res (State × Out)
  | .starting =>
    if s.freed then .ub
    else
      let (s, n) := loop { s with threadCount := s.threadCount + 1 } i
      .ok (s, .worked none n)
  | .woken =>
    if s.freed then .ub
    else
      let (s, n) := loop s i
      .ok (s, .worked none n)
  | .expired =>
    if s.freed then .ub
    else .ok (setPc { s with threadCount := s.threadCount - 1 } i .leaving, .worked none .left)
  | .running t =>
    if s.freed then .ub
    else
      let (s, n) := loop { s with busy := s.busy - 1 } i
      .ok (s, .worked (some t) n)
  | .leaving =>
    if s.freed then .ub
    else .ok (setPc s i (if shouldDestroy s then .destroying else .gone), .silent)
  | .destroying => if s.freed then .ub else .ok (setPc { s with freed := true } i .gone, .silent)
  | .waiting => .fail
  | .gone => .fail

/-- One step. Using the pool when it is freed is `ub`; a step that cannot happen now is `fail`. -/
def step (s : State) : Op → Res (State × Out)
  | .submit t w => if s.destroyer ≠ none then .fail else submit s t w
  | .work i =>
    match s.workers[i]? with
    | some p => work s i p
    | none => .fail
  | .timeout i => if s.workers[i]? = some .waiting then .ok (setPc s i .expired, .silent) else .fail
  | .spurious i => if s.workers[i]? = some .waiting then .ok (setPc s i .woken, .silent) else .fail
  | .destroy forever =>
    if s.destroyer ≠ none then .fail else .ok ({ s with destroyer := some (.stopping forever) }, .silent)
  -- 261-277
  | .stop =>
    match s.destroyer with
    | some (.stopping forever) =>
      if s.freed then .ub
      else if forever ∧ s.busy ≠ 0 then .fail
      else
        .ok ({ s with isRunning := false, destroyer := some .stopped,
                      workers := s.workers.map fun p => if p = .waiting then .woken else p },
          .stopped (!s.queue.isEmpty))
    | _ => .fail
  | .goOn =>
    match s.destroyer with
    | some .stopped =>
      if s.freed then .ub else .ok ({ s with isShutdown := true, destroyer := some .leaving }, .silent)
    | some .leaving =>
      if s.freed then .ub
      else .ok ({ s with destroyer := some (if shouldDestroy s then .destroying else .done) }, .silent)
    | some .destroying => if s.freed then .ub else .ok ({ s with freed := true, destroyer := some .done }, .silent)
    | _ => .fail

/-- Several. -/
def run (s : State) : List Op → Res (State × List Out)
  | [] => .ok (s, [])
  | op :: ops => do
    let (s1, o) ← step s op
    let (s2, os) ← run s1 ops
    pure (s2, o :: os)

/-! ## Waiting for some time -/

/-- `timeAddMS` (rtThreadPool.c:209-218) for times that are not negative: seconds and nanoseconds. -/
def addMs (t : Int × Int) (ms : Int) : Int × Int :=
  let sec := t.1 + ms / 1000
  let ns := t.2 + ms % 1000 * 1000000
  if ns ≥ 1000000000 then (sec + 1, ns - 1000000000) else (sec, ns)

/-- `timeGetElapsed` (rtThreadPool.c:219-235), for times that do not go back; conversion to `int` is not modelled. -/
def elapsed (start now : Int × Int) : Int :=
  if now.2 ≥ start.2 then (now.1 - start.1) * 1000 + (now.2 - start.2) / 1000000
  else (now.1 - start.1 - 1) * 1000 + (1000000000 + now.2 - start.2)

/-- The loop of `rtThreadPool_StopAllThread` (rtThreadPool.c:250-259) while a task goes on running: `wakes` are the times
at which the waits begin and end. The result is what remains of the time to wait after them, if the loop gets
there. -/
def remaining (ms : Int) : List ((Int × Int) × (Int × Int)) → Int
  | [] => ms
  | (a, b) :: ws => if ms > 0 then remaining (ms - elapsed a b) ws else ms

end Verif.ThreadPool
