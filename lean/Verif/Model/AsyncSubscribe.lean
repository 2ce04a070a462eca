import Verif.Model.Time
import Verif.Model.Filter

/-!
# Model of asynchronous subscriptions (src/rbus/rbus_asyncsubscribe.c)

The queue of requests, the application's threads that add to it and take from it, and the one worker thread that
sends subscribe messages. Each step of the application runs under the queue's mutex. The worker takes the mutex
only to look when the next request is due and to remove a finished one; while it walks the queue and sends
messages the application may step in, so its walk is cut at the points where it is about to look at an item, waits
for an answer, and calls the application back.

Items are identified by numbers that are not used again. Touching an item that was removed is undefined, as is
touching a handle that was closed. The timeout of a handle does not change. Allocation, mutexes and the start of
the worker work. Logging is left out, and what the callback handler does with an accepted subscription
(rbus.c:1362-1392) except that it touches the handle.
-/

namespace Verif.Async

open Verif Verif.Time Verif.Filter

/-- `AsyncSubscription_t` (rbus_asyncsubscribe.c:58-65) with what is used of its `subscription`. -/
structure Item where
  id : Nat
  handle : Nat
  event : Bytes
  filter : Filter
  wait : Nat
  start : Time
  due : Time
  deriving DecidableEq, Repr

/-- Where the worker is (rbus_asyncsubscribe.c:158-316): outside of
`rbusAsyncSubscribeRetrier_SendSubscriptionRequests`; about to look at the item `li`; waiting for the answer; in the
application's callback; behind it, where the subscription of the item is freed if it failed. `now` is the local
variable. -/
inductive Worker where
  | idle
  | item (now : Time) (li : Option Nat)
  | waiting (now : Time) (i : Nat)
  | calling (now : Time) (i : Nat) (ok : Bool)
  | called (now : Time) (i : Nat) (ok : Bool)
  deriving DecidableEq, Repr

/-- The queue, the worker and the handles that were closed. -/
structure State where
  items : List Item
  worker : Worker
  nextId : Nat
  closed : List Nat
  deriving Repr

/-- Nothing requested yet. -/
def State.init : State := ⟨[], .idle, 0, []⟩

/-- The result of `rbus_subscribeToEventTimeout` (rbuscore.c:1591-1657 with 702-780): accepted with a number; no
provider; an error of the provider; no usable answer, when `providerError` (rbus_asyncsubscribe.c:179) keeps the
indeterminate value it had. -/
inductive Answer where
  | accepted (subscriptionId : Nat)
  | notFound
  | refused (code : Int)
  | lost (leftover : Int)
  deriving DecidableEq, Repr

/-- What can happen. -/
inductive Op where
  /-- `rbusEvent_SubscribeAsync`, from the check for a pending one (rbus.c:5057) to the queue (5093); the time is
  that of rbus_asyncsubscribe.c:382. -/
  | request (handle : Nat) (event : Bytes) (filter : Filter) (time : Time)
  /-- `rbusEvent_Unsubscribe` for an event that is not subscribed yet (rbus.c:5726-5751). -/
  | cancel (handle : Nat) (event : Bytes) (filter : Filter)
  /-- `rbus_close` (rbus.c:3224). -/
  | close (handle : Nat)
  /-- The worker looks when the next request is due; the second time is that of line 165. -/
  | check (time later : Time)
  /-- The worker looks at its item. -/
  | look
  /-- The worker gets its answer. -/
  | answer (a : Answer) (time : Time)
  /-- The application's callback returns. -/
  | back
  /-- The worker removes the item. -/
  | finish
  deriving Repr

/-- What is seen of it. -/
inductive Out where
  | accepted (id : Nat)
  | refused
  | cancelled (id : Nat)
  | unknown
  | closed (ids : Option Nat)
  | sleeping (wake : Time)
  | sending
  | attempt (id : Nat)
  | retry (id : Nat) (due : Time)
  | done (id : Nat) (code : Int)
  | silent
  deriving DecidableEq, Repr

/-- `RBUS_SUBSCRIBE_MAXWAIT` (rbus_handle.h:33). -/
def maxWait : Nat := 60000

/-- `rbusError_t` (include/rbus.h:103-136). -/
def eOk : Int := 0
def eBus : Int := 1
def eTimeout : Int := 20

/-- `rbusAsyncSubscribeRetrier_CompareSubscription` (rbus_asyncsubscribe.c:90-104), first match. The item whose
subscription is freed cannot be compared. -/
def search (sc : Bool) (freed : Option Nat) (handle : Nat) (event : Bytes) (filter : Filter) :
    List Item → Res (Option Item)
  | [] => .ok none
  | i :: is =>
    if freed = some i.id then .ub
    else if i.handle = handle ∧ i.event = event then do
      let c ← cmp sc i.filter filter
      if c = .eq then pure (some i) else search sc freed handle event filter is
    else search sc freed handle event filter is

/-- `rbusAsyncSubscribeRetrier_CompareHandle` (rbus_asyncsubscribe.c:79-88), first match. -/
def searchHandle (freed : Option Nat) (handle : Nat) : List Item → Res (Option Item)
  | [] => .ok none
  | i :: is =>
    if freed = some i.id then .ub
    else if i.handle = handle then .ok (some i)
    else searchHandle freed handle is

/-- The item with a freed subscription, if there is one: after a failure, once the callback has returned
(rbus.c:1387-1390). -/
def Worker.freed : Worker → Option Nat
  | .called _ i false => some i
  | _ => none

/-- `rtListItem_GetNext`. -/
def nextOf (i : Nat) : List Item → Option Nat
  | x :: y :: r => if x.id = i then some y.id else nextOf i (y :: r)
  | _ => none

/-- The earliest time (rbus_asyncsubscribe.c:127-139). -/
def earliest : List Item → Time → Time
  | [], t => t
  | i :: is, t => earliest is (if Time.compare i.due t < 0 then i.due else t)

/-- `elapsed` (rbus_asyncsubscribe.c:178, 190), a `uint32_t`. -/
def elapsed (start now : Time) : Nat := (BitVec.ofInt 32 (Time.elapsed start now)).toNat

/-- Lines 195-202: the next wait. -/
def nextWait (w : Nat) : Nat :=
  let w := if w = 0 then 1000 else w * 2
  if w > maxWait then maxWait else w

/-- Lines 192-214: the item with its next attempt. The sum is one of `uint32_t`. -/
def retry (timeout : Nat) (i : Item) (now : Time) : Item :=
  let w := nextWait i.wait
  if (elapsed i.start now + w) % 2 ^ 32 < timeout then
    { i with wait := w, due := later now (BitVec.ofNat 32 w) }
  else { i with wait := w, due := later i.start (BitVec.ofNat 32 timeout) }

/-- Lines 224-256: the code for the callback. -/
def code : Answer → Int
  | .accepted _ => eOk
  | .notFound => eTimeout
  | .refused e => if e ≠ 0 then e else eBus
  | .lost e => if e ≠ 0 then e else eBus

/-- One event. `timeout` is `rbusHandle_FetchSubscribeTimeout` (rbus_handle.c:327-331). -/
def step (sc : Bool) (timeout : Nat → Nat) (s : State) : Op → Res (State × Out)
  | .request h e f t =>
    if h ∈ s.closed then .ub
    else do
      let found ← search sc s.worker.freed h e f s.items
      match found with
      | some _ => pure (s, .refused)
      | none =>
        pure ({ s with items := s.items ++ [⟨s.nextId, h, e, f, 0, t, t⟩], nextId := s.nextId + 1 },
          .accepted s.nextId)
  | .cancel h e f => do
    let found ← search sc s.worker.freed h e f s.items
    match found with
    | some i => pure ({ s with items := s.items.filter (fun x => x.id ≠ i.id) }, .cancelled i.id)
    | none => pure (s, .unknown)
  | .close h => do
    let found ← searchHandle s.worker.freed h s.items
    let s := { s with closed := h :: s.closed }
    match found with
    | some i => pure ({ s with items := s.items.filter (fun x => x.id ≠ i.id) }, .closed (some i.id))
    | none => pure (s, .closed none)
  | .check t t' =>
    match s.worker with
    | .idle =>
      let w := earliest s.items (later t (BitVec.ofNat 32 (maxWait + 1000)))
      if s.items ≠ [] ∧ Time.compare w t ≤ 0 then
        .ok ({ s with worker := .item t' (s.items.head?.map (·.id)) }, .sending)
      else .ok (s, .sleeping w)
    | _ => .fail
  | .look =>
    match s.worker with
    | .item now (some i) =>
      match s.items.find? (fun x => x.id = i) with
      | none => .ub
      | some x =>
        if Time.compare x.due now ≤ 0 then .ok ({ s with worker := .waiting now i }, .attempt i)
        else .ok ({ s with worker := .item now (nextOf i s.items) }, .silent)
    | .item _ none => .ok ({ s with worker := .idle }, .silent)
    | _ => .fail
  | .answer a t =>
    match s.worker with
    | .waiting _ i =>
      match s.items.find? (fun x => x.id = i) with
      | none => .ub
      | some x =>
        if a = .notFound ∧ x.handle ∈ s.closed then .ub
        else if a = .notFound ∧ elapsed x.start t < timeout x.handle then
          let y := retry (timeout x.handle) x t
          .ok ({ s with
            items := s.items.map (fun z => if z.id = i then y else z)
            worker := .item t (nextOf i s.items) }, .retry i y.due)
        else .ok ({ s with worker := .calling t i (code a = 0) }, .done i (code a))
    | _ => .fail
  | .back =>
    match s.worker with
    | .calling now i ok =>
      match s.items.find? (fun x => x.id = i) with
      | none => .ub
      | some x =>
        if ok ∧ x.handle ∈ s.closed then .ub
        else .ok ({ s with worker := .called now i ok }, .silent)
    | _ => .fail
  | .finish =>
    match s.worker with
    | .called now i _ =>
      match s.items.find? (fun x => x.id = i) with
      | none => .ub
      | some _ =>
        .ok ({ s with
          items := s.items.filter (fun x => x.id ≠ i)
          worker := .item now (nextOf i s.items) }, .silent)
    | _ => .fail

/-- A history. -/
def run (sc : Bool) (timeout : Nat → Nat) (s : State) : List Op → Res (State × List Out)
  | [] => .ok (s, [])
  | e :: es => do
    let (s, o) ← step sc timeout s e
    let (s, os) ← run sc timeout s es
    pure (s, o :: os)

end Verif.Async
