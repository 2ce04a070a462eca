import Verif.Model.Compare

/-!
# Value-change detection (src/rbus/rbus_valuechange.c)

The list of watched properties with the value last taken over, and the polling of all of them. A property is
identified by a number (the address of its element). What the provider's get handler does is the event's data: a
value, or nothing when it returns an error. A handler that returns success without setting a value is not modelled,
nor the "by" field of the events (lines 188-195, 204-207) nor who gets them (`Model/Publish.lean`).

The second part models the mutexes of the polling thread and of a thread that subscribes or unsubscribes.
-/

namespace Verif.ValueChange

open Verif Verif.Value

/-- `ValueChangeRecord` (lines 68-73). -/
structure Record where
  handle : Nat
  node : Nat
  value : Scalar
  deriving DecidableEq, Repr

/-- `gVC->params`. -/
structure State where
  records : List Record
  deriving DecidableEq, Repr

/-- Before the first subscription; a detector that has been freed (lines 412-417) behaves the same. -/
def State.init : State := ⟨[]⟩

/-- What is published: property, `oldValue`, `value`. -/
structure Event where
  node : Nat
  old : Scalar
  new : Scalar
  deriving DecidableEq, Repr

inductive Op where
  /-- `rbusValueChange_AddPropertyNode` (lines 247-328); `value` is what the get handler gives if it is called. -/
  | watch (handle node : Nat) (value : Option Scalar)
  /-- `rbusValueChange_RemovePropertyNode` (lines 330-370). -/
  | unwatch (node : Nat)
  /-- `rbusValueChange_CloseHandle` (lines 372-425). -/
  | close (handle : Nat)
  /-- One round of the polling thread (lines 154-240); `now` is what the get handlers give. -/
  | poll (now : Nat → Option Scalar)

inductive Out where
  | started
  | already
  | failed
  | stopped (nodes : List Nat)
  | polled (events : List Event)
  deriving DecidableEq, Repr

/-- `vcParams_Find` (lines 115-125). -/
def find (node : Nat) (rs : List Record) : Option Record := rs.find? fun r => r.node = node

/-- Lines 154-240 for one record after the other. -/
def pollAll (sc : Bool) (now : Nat → Option Scalar) : List Record → Res (List Record × List Event)
  | [] => .ok ([], [])
  | r :: rs =>
    match now r.node with
    | none => do
      let (rs', es) ← pollAll sc now rs
      pure (r :: rs', es)
    | some v => do
      let c ← compare sc v r.value
      let (rs', es) ← pollAll sc now rs
      if c ≠ .eq then pure ({ r with value := v } :: rs', ⟨r.node, r.value, v⟩ :: es)
      else pure (r :: rs', es)

/-- One event. `rtVector_RemoveItem` removes the one record that was found (lines 342-346); closing removes every
record of the handle (lines 384-397). -/
def step (sc : Bool) (s : State) : Op → Res (State × Out)
  | .watch h n v =>
    match find n s.records with
    | some _ => .ok (s, .already)
    | none =>
      match v with
      | none => .ok (s, .failed)
      | some v => .ok (⟨s.records ++ [⟨h, n, v⟩]⟩, .started)
  | .unwatch n =>
    match find n s.records with
    | some r => .ok (⟨s.records.erase r⟩, .stopped [n])
    | none => .ok (s, .stopped [])
  | .close h =>
    .ok (⟨s.records.filter fun r => r.handle ≠ h⟩, .stopped ((s.records.filter fun r => r.handle = h).map (·.node)))
  | .poll now => do
    let (rs, es) ← pollAll sc now s.records
    pure (⟨rs⟩, .polled es)

/-- A sequence of events. -/
def run (sc : Bool) (s : State) : List Op → Res (State × List Out)
  | [] => .ok (s, [])
  | e :: es => do
    let (s1, o) ← step sc s e
    let (s2, os) ← run sc s1 es
    pure (s2, o :: os)

/-! ## The mutexes -/

namespace Locks

/-- The polling thread (lines 127-245), which holds `gVC->mutex` except while it waits. -/
inductive Poller where
  /-- In `pthread_cond_timedwait` (line 142), without the mutex. -/
  | asleep
  /-- Going through the records. -/
  | polling
  /-- In `rbusEvent_Publish`, before the handle's mutex (rbus.c:5956). -/
  | wantSubs
  /-- In `rbusEvent_Publish`, going through the subscriptions (rbus.c:5957-6031). -/
  | publishing
  deriving DecidableEq, Repr

/-- A thread with a request to subscribe or unsubscribe (`subscribeHandlerImpl`, rbus.c:1144-1235). -/
inductive Server where
  | away
  /-- Before the handle's mutex (rbus.c:1144). -/
  | wantSubs
  /-- In `rbusValueChange_AddPropertyNode` or `_RemovePropertyNode`, before the detector's mutex (lines 281, 344). -/
  | wantDetector
  deriving DecidableEq, Repr

inductive Who where
  | poller
  | server
  deriving DecidableEq, Repr

structure State where
  poller : Poller
  server : Server
  /-- Who holds `gVC->mutex`. -/
  detector : Option Who
  /-- Who holds `handle_subsMutex`. -/
  subs : Option Who
  /-- The handle's subscriptions are freed. -/
  freed : Bool
  deriving DecidableEq, Repr

/-- A property is watched, nothing happens. -/
def State.init : State := ⟨.asleep, .away, none, none, false⟩

inductive Op where
  /-- The polling thread's period is over and it has the mutex again. -/
  | wake
  /-- A changed value is found. -/
  | change
  /-- The handle's mutex is got. -/
  | enter
  /-- The event is published. -/
  | publish
  /-- The round is over. -/
  | sleep
  /-- A request comes. -/
  | request
  /-- The other thread's next step: the handle's mutex, then the detector's mutex and all the rest. -/
  | serve
  /-- `rbus_close`, line 3217 of rbus.c, which frees the subscriptions before the polling is stopped. -/
  | close
  deriving DecidableEq, Repr

/-- One event; a thread that has to wait fails. -/
def step (s : State) : Op → Res State
  | .wake =>
    if s.poller = .asleep ∧ s.detector = none then .ok { s with poller := .polling, detector := some .poller }
    else .fail
  | .change => if s.poller = .polling then .ok { s with poller := .wantSubs } else .fail
  | .enter =>
    if s.poller = .wantSubs ∧ s.subs = none then .ok { s with poller := .publishing, subs := some .poller }
    else .fail
  | .publish =>
    if s.poller = .publishing then
      if s.freed then .ub else .ok { s with poller := .polling, subs := none }
    else .fail
  | .sleep => if s.poller = .polling then .ok { s with poller := .asleep, detector := none } else .fail
  | .request => if s.server = .away ∧ s.freed = false then .ok { s with server := .wantSubs } else .fail
  | .serve =>
    match s.server with
    | .away => .fail
    | .wantSubs => if s.subs = none then .ok { s with server := .wantDetector, subs := some .server } else .fail
    | .wantDetector => if s.detector = none then .ok { s with server := .away, subs := none } else .fail
  | .close => if s.subs = none ∧ s.server = .away then .ok { s with freed := true } else .fail

/-- A sequence of events. -/
def run (s : State) : List Op → Res State
  | [] => .ok s
  | e :: es => do
    let s1 ← step s e
    run s1 es

end Locks

end Verif.ValueChange
