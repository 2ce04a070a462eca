import Verif.Model.Base

/-!
# Model of the retry loop of a synchronous subscribe (src/rbus/rbus.c:5042-5130)

The answers of the bus to the attempts are an arbitrary sequence. Times are in milliseconds. What an
attempt itself takes is not part of the model: only the sleeps between attempts are.
-/

namespace Verif.Retry

open Verif

/-- What `rbus_subscribeToEventTimeout` returned (rbus.c:5103): success,
`RBUSCORE_ERROR_ENTRY_NOT_FOUND` when there is no provider, or another error. -/
inductive Answer where
  | success
  | notFound
  | error (code : Nat)
  deriving DecidableEq, Repr

/-- `RBUS_SUBSCRIBE_MAXWAIT` (rbus_handle.h:33). -/
def maxWait : Nat := 60000

/-- Lines 5119-5124: the next wait, doubled and capped. -/
def nextSleep (sleep : Nat) : Nat :=
  if sleep * 2 > maxWait then maxWait else sleep * 2

/-- `sleepTime` (rbus.c:5107-5110). -/
def sleepTime (left : Int) (sleep : Nat) : Nat :=
  if (sleep : Int) > left then left.toNat else sleep

/-- The loop (rbus.c:5099-5130) before attempt `k`, with `left` = `destNotFoundTimeout` and
`sleep` = `destNotFoundSleep`: the seconds passed to `sleep()` in turn, and the answer the loop leaves
with. A wait of 0 would be an endless loop; the loop never gets there (`sleep` starts at 1000). -/
def loop (answer : Nat → Answer) (k : Nat) (left : Int) (sleep : Nat) : List Nat × Answer :=
  if answer k = .notFound ∧ left > 0 ∧ 0 < sleep then
    let rest := loop answer (k + 1) (left - sleep) (nextSleep sleep)
    (sleepTime left sleep / 1000 :: rest.1, rest.2)
  else
    ([], answer k)
termination_by left.toNat
decreasing_by omega

/-- `destNotFoundTimeout` (rbus.c:5063-5070): the timeout of the handle for -1, otherwise the seconds
of the caller times 1000, which overflows an `int` for large ones. -/
def timeoutMs (handleTimeout : Int) (timeout : Int) : Res Int :=
  if timeout = -1 then .ok handleTimeout
  else if -2 ^ 31 ≤ timeout * 1000 ∧ timeout * 1000 < 2 ^ 31 then .ok (timeout * 1000)
  else .ub

/-- The part of `rbusEvent_SubscribeWithRetries` (rbus.c:5042, 5063-5070, 5099-5130) that waits. -/
def subscribe (handleTimeout timeout : Int) (answer : Nat → Answer) : Res (List Nat × Answer) := do
  let ms ← timeoutMs handleTimeout timeout
  pure (loop answer 0 ms 1000)

end Verif.Retry
