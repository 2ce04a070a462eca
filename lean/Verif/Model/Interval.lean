import Verif.Model.Base

/-!
# A subscription with an interval (src/rbus/rbus_intervalsubscription.c)

One subscription whose publishing thread has been started, and the provider's other thread that may unsubscribe it
(`subscribeHandlerImpl`, rbus.c:1070-1237) or close the handle (`rbus_close`, rbus.c:3164-3271).

The two threads take turns at the places where the code waits for a mutex, a condition or the other thread. A step
whose thread has to wait fails; the other thread may go on. The record's own mutex is not modelled: only the
publishing thread locks it. Reading the value and sending the event are one step with the end of the wait; how the
value is read and the event encoded is not modelled, only whether reading succeeds. Sending an event that fails is
logged and not otherwise noticed (lines 186-189), so it is not distinguished. `count` is unbounded (an `int` in the
code). Spurious wake-ups of the condition are not modelled.
-/

namespace Verif.Interval

open Verif

/-- A 32-bit pattern as `int32_t`: how the `uint32_t` of `rbusEventSubscription_t` (include/rbus.h:294-298) comes
out at the provider. -/
def int32 (n : Nat) : Int := (BitVec.ofNat 32 n).toInt

/-- Where the publishing thread is (lines 105-214). -/
inductive Pub where
  /-- At the test of line 116. -/
  | top
  /-- In `pthread_cond_timedwait` (line 125). -/
  | asleep
  /-- Done; wants the records' mutex (line 204). -/
  | wantRecords
  /-- Wants the handle's mutex (line 205). -/
  | wantSubs
  /-- Has both (lines 206-209). -/
  | removing
  | ended
  deriving DecidableEq, Repr

/-- Where the unsubscribing thread is. -/
inductive Un where
  | away
  /-- Wants the handle's mutex (rbus.c:1145). -/
  | wantSubs
  /-- Found the subscription; wants the records' mutex (line 282). -/
  | wantRecords
  /-- In `pthread_join` (line 291). -/
  | join
  /-- Wants the records' mutex again (line 293). -/
  | wantRecords2
  deriving DecidableEq, Repr

/-- The threads. -/
inductive Who where
  | publisher
  | other
  deriving DecidableEq, Repr

/-- What there is. -/
structure State where
  /-- `sub_rec->running`. -/
  running : Bool
  count : Nat
  pub : Pub
  un : Un
  /-- Who holds `gMutex`. -/
  records : Option Who
  /-- Who holds `handle_subsMutex`. -/
  subs : Option Who
  /-- The subscription is in the registry. -/
  present : Bool
  /-- The subscription and its elements are freed. -/
  freed : Bool
  deriving DecidableEq, Repr

/-- After `rbusInterval_AddSubscriptionRecord` (lines 217-263) and the release of the handle's mutex (rbus.c:1235). -/
def State.init : State := ⟨true, 0, .top, .away, none, none, true, false⟩

/-- What can happen. -/
inductive Op where
  /-- The publishing thread's wait ends because the interval is over; `read`: the value can be read. -/
  | timeout (read : Bool)
  /-- The wait ends because of the signal of line 290. -/
  | signal (read : Bool)
  /-- Another step of the publishing thread. -/
  | publisher
  /-- The consumer unsubscribes. -/
  | unsubscribe
  /-- Another step of the thread that unsubscribes. -/
  | other
  /-- `rbus_close` of the provider's handle. -/
  | close
  deriving DecidableEq, Repr

/-- What is seen of it. -/
inductive Out where
  | interval
  | complete
  | unsubscribed
  | unknown
  | silent
  deriving DecidableEq, Repr

/-- Line 166: `duration / interval` on `int32_t`. -/
def durationCount (interval duration : Int) : Res Int :=
  if interval = 0 then .ub
  else if duration = -2 ^ 31 ∧ interval = -1 then .ub
  else .ok (duration.tdiv interval)

/-- Lines 132-199: read the value, publish it; the thread is at the end of its loop's body. -/
def publish (interval duration : Int) (s : State) (read : Bool) : Res (State × Out) :=
  if s.freed then .ub
  else if !read then .ok ({ s with pub := .top }, .silent)
  else if duration = 0 then .ok ({ s with pub := .top, count := s.count + 1 }, .interval)
  else do
    let n ← durationCount interval duration
    if n ≤ s.count then pure ({ s with pub := .wantRecords }, .complete)
    else pure ({ s with pub := .top, count := s.count + 1 }, .interval)

/-- Lines 116-127: test `running`; compute the time to wait for. The product is one of `int32_t`. -/
def top (interval : Int) (s : State) : Res (State × Out) :=
  if !s.running then .ok ({ s with pub := .ended }, .silent)
  else if s.freed then .ub
  else if interval * 1000 < -2 ^ 31 ∨ 2 ^ 31 ≤ interval * 1000 then .ub
  else .ok ({ s with pub := .asleep }, .silent)

/-- One event. The thread that ends without having completed (line 213) leaves its record for line 294; a record is
found (line 283) exactly while its subscription is in the registry. -/
def step (interval duration : Int) (s : State) : Op → Res (State × Out)
  | .timeout read =>
    match s.pub with
    | .asleep => publish interval duration s read
    | _ => .fail
  | .signal read =>
    match s.pub with
    | .asleep => if s.running then .fail else publish interval duration s read
    | _ => .fail
  | .publisher =>
    match s.pub with
    | .top => top interval s
    | .wantRecords =>
      if s.records ≠ none then .fail
      else .ok ({ s with pub := .wantSubs, records := some .publisher }, .silent)
    | .wantSubs =>
      if s.freed then .ub
      else if s.subs ≠ none then .fail
      else .ok ({ s with pub := .removing, subs := some .publisher }, .silent)
    | .removing =>
      if s.freed then .ub
      else .ok ({ s with pub := .ended, subs := none, records := none, present := false }, .silent)
    | _ => .fail
  | .unsubscribe =>
    match s.un with
    | .away => if s.freed then .fail else .ok ({ s with un := .wantSubs }, .silent)
    | _ => .fail
  | .other =>
    match s.un with
    | .away => .fail
    | .wantSubs =>
      if s.subs ≠ none then .fail
      else if s.present then .ok ({ s with un := .wantRecords, subs := some .other }, .silent)
      else .ok ({ s with un := .away }, .unknown)
    | .wantRecords =>
      if s.records ≠ none then .fail
      else .ok ({ s with un := .join, running := false }, .silent)
    | .join =>
      if s.pub ≠ .ended then .fail
      else .ok ({ s with un := .wantRecords2 }, .silent)
    | .wantRecords2 =>
      if s.records ≠ none then .fail
      else .ok ({ s with un := .away, subs := none, present := false }, .unsubscribed)
  | .close =>
    match s.un with
    | .away => if s.freed ∨ s.subs ≠ none then .fail else .ok ({ s with freed := true }, .silent)
    | _ => .fail

/-- A sequence of events. -/
def run (interval duration : Int) (s : State) : List Op → Res (State × List Out)
  | [] => .ok (s, [])
  | e :: es => do
    let (s1, o) ← step interval duration s e
    let (s2, os) ← run interval duration s1 es
    pure (s2, o :: os)

end Verif.Interval
