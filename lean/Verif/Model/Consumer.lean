import Verif.Model.Filter

/-!
# Model of the subscriptions of a consumer (src/rbus/rbus.c)

One handle and its list `eventSubs`. Steps are what happens while `handle_eventSubsMutex` is held; what the bus and the
provider do is given with the step. Data sent as is (`rbusEvent_SubscribeRawData`) comes in by listeners, which are not
modelled; only the list is.
-/

namespace Verif.Consumer

open Verif
open Verif.Filter (Filter)

/-- What identifies a subscription of a handle (the arguments of `rbusEventSubscription_find`, rbus.c:308-309). -/
structure Key where
  name : Bytes
  filter : Filter
  interval : BitVec 32
  duration : BitVec 32
  raw : Bool
  deriving DecidableEq

/-- `rbusEventSubscriptionInternal_t` (rbus_handle.h) with its `rbusEventSubscription_t`. `id` stands for its address;
`rawSet` tells whether `rawData` has been set, and `number` is `subscriptionId`, if set. -/
structure Entry where
  id : Nat
  key : Key
  handler : Nat
  dirty : Bool
  rawSet : Bool
  number : Option (BitVec 32)
  deriving DecidableEq

/-- A synchronous call that has not returned. `entry` is the address of what it added to the list, once it has. -/
structure Call where
  id : Nat
  key : Key
  handler : Nat
  entry : Option Nat
  deriving DecidableEq

/-- `subs` is `eventSubs`; `pending` are the items of this handle with the thread for asynchronous subscriptions
(rbus_asyncsubscribe.c:60-66; see `Model/AsyncSubscribe`). -/
structure State where
  subs : List Entry
  calls : List Call
  pending : List (Key × Nat)
  next : Nat

/-- After `rbus_open` (rbus.c:3020). -/
def State.init : State := ⟨[], [], [], 0⟩

/-- The condition in `rbusEventSubscription_find` (rbus.c:316-318). -/
def hit (sc : Bool) (e : Entry) (k : Key) : Res Bool :=
  if e.key.name ≠ k.name then .ok false
  else do
    let c ← Filter.cmp sc e.key.filter k.filter
    if c ≠ .eq then pure false
    else if e.key.interval ≠ k.interval then pure false
    else if e.key.duration ≠ k.duration then pure false
    else if e.rawSet then pure (e.key.raw == k.raw)
    else .ub

/-- `rbusEventSubscription_find` (rbus.c:308-324). -/
def find (sc : Bool) : List Entry → Key → Res (Option Entry)
  | [], _ => .ok none
  | e :: es, k => do
    let b ← hit sc e k
    if b then pure (some e) else find sc es k

/-- `rtVector_RemoveItem` (rtVector.c; see `Model/Vector`) of an entry. -/
def remove (subs : List Entry) (e : Entry) : List Entry := subs.filter fun x => x.id ≠ e.id

/-- Setting `dirty` of an entry. -/
def setDirty (subs : List Entry) (e : Entry) (d : Bool) : List Entry :=
  subs.map fun x => if x.id = e.id then { x with dirty := d } else x

/-- `rbusAsyncSubscribeRetrier_CompareSubscription` (rbus_asyncsubscribe.c:91-105) for items of the same handle: interval
and duration are not compared. -/
def alike (sc : Bool) (a k : Key) : Res Bool :=
  if a.name ≠ k.name then .ok false
  else do
    let c ← Filter.cmp sc a.filter k.filter
    pure (c == .eq)

/-- The pending items without the first one alike; `none` if there is none (`rtList_RemoveItemByCompare`,
rtList.c:262-281, and `rtList_Find`). -/
def takePending (sc : Bool) : List (Key × Nat) → Key → Res (Option (List (Key × Nat)))
  | [], _ => .ok none
  | p :: ps, k => do
    let b ← alike sc p.1 k
    if b then pure (some ps)
    else do
      let r ← takePending sc ps k
      pure (r.map (p :: ·))

/-- How the request to the provider to subscribe ends: accepted with a number; no provider was found; the provider has
this subscription; it refused; something else failed (rbus.c:5107, 5137-5217). -/
inductive Reply where
  | accepted
  | noProvider
  | existing
  | refused
  | failed
  deriving DecidableEq

/-- How the request to the provider to end a subscription ends (`rbus_unsubscribeFromEvent`, rbus.c:4988). -/
inductive Ended where
  | success
  | noProvider
  | failed
  deriving DecidableEq

/-- What happens to a handle.

* `subscribe`: a synchronous call starts and checks (rbus.c:5043-5062).
* `replied`: its request has been answered (5137-5217).
* `numbered`: it has handed over the initial value, if any (which is an `event`), and takes the number (5164).
* `subscribeAsync`: an asynchronous call (5043-5062, 5094).
* `repliedAsync`: the `i`-th pending request is settled (rbus_asyncsubscribe.c:222-264): accepted with a number or
  given up.
* `event`: an event for this handle, with the key it carries; whether it says that the duration is over; and how a
  request to the provider ends if one is made (1425-1494).
* `unsubscribe`: `rbusEvent_UnsubscribeEx` for one subscription (5777-5803) or, according to `raw` in the key,
  `rbusEvent_UnsubscribeExRawData` or `rbusEvent_UnsubscribeRawData` (5688-5712, 5472-5492); with `ex` false,
  `rbusEvent_Unsubscribe` (5404-5448).
* `exists`: `rbusEvent_IsSubscriptionExist` (5808-5847). -/
inductive Op where
  | subscribe (call : Nat) (k : Key) (handler : Nat)
  | replied (call : Nat) (k : Key) (handler : Nat) (r : Reply)
  | numbered (call : Nat) (n : BitVec 32)
  | subscribeAsync (k : Key) (handler : Nat)
  | repliedAsync (i : Nat) (k : Key) (handler : Nat) (n : Option (BitVec 32))
  | event (k : Key) (over : Bool) (r : Ended)
  | unsubscribe (ex : Bool) (k : Key) (r : Ended)
  | exists (k : Key)

/-- What can be seen of a step: a call went on without returning; a call returned success, that the subscription exists,
an error; an event was handed to a handler or to none; an answer. -/
inductive Out where
  | going
  | success
  | already
  | error
  | invoked (handler : Nat)
  | ignored
  | answer (b : Bool)
  deriving DecidableEq

/-- The check at the start of `rbusEvent_SubscribeWithRetries` (rbus.c:5043-5062): whether it goes on, and the list
after it, where a dirty entry is made clean. -/
def check (sc : Bool) (s : State) (k : Key) : Res (Option (List Entry)) := do
  match ← find sc s.subs k with
  | some e => if e.dirty then pure (some (setDirty s.subs e false)) else pure none
  | none => do
    match ← takePending sc s.pending k with
    | some _ => pure none
    | none => pure (some s.subs)

/-- Putting a new entry into the list in place of the one found (rbus.c:5142-5150, 5188-5195, 1372-1383). -/
def put (sc : Bool) (s : State) (k : Key) (handler : Nat) (rawSet : Bool) (n : Option (BitVec 32)) : Res State := do
  let f ← find sc s.subs k
  let subs := match f with
    | some e => remove s.subs e
    | none => s.subs
  pure { s with subs := subs ++ [⟨s.next, k, handler, false, rawSet, n⟩], next := s.next + 1 }

/-- `_rbus_event_unsubscribe` (rbus.c:4950-5019) and freeing the entry afterwards if it was removed. The listeners for
data sent as is are not modelled. -/
def unsubscribeEntry (subs : List Entry) (e : Entry) : Ended → List Entry
  | .noProvider => setDirty subs e true
  | _ => remove subs e

/-- Not a step that can happen: `fail`. Use of freed memory: `ub`. -/
def step (sc : Bool) (s : State) : Op → Res (State × Out)
  | .subscribe c k h =>
    if s.calls.any (·.id == c) then .fail
    else do
      match ← check sc s k with
      | some subs => pure ({ s with subs := subs, calls := s.calls ++ [⟨c, k, h, none⟩] }, .going)
      | none => pure (s, .already)
  | .replied c k h r =>
    if (⟨c, k, h, none⟩ : Call) ∈ s.calls then
      let s' := { s with calls := s.calls.filter (·.id ≠ c) }
      match r with
      | .accepted => do
        let s' ← put sc s' k h true none
        pure ({ s' with calls := s'.calls ++ [⟨c, k, h, some s.next⟩] }, .going)
      | .noProvider => do
        match ← find sc s'.subs k with
        | some e => pure ({ s' with subs := setDirty s'.subs e true }, .error)
        | none => pure (s', .error)
      | .existing => do
        let s' ← put sc s' k h false none
        pure (s', .success)
      | .refused => .ok (s', .error)
      | .failed => .ok (s', .error)
    else .fail
  | .numbered c n =>
    match s.calls.find? (·.id == c) with
    | some ⟨_, _, _, some a⟩ =>
      if s.subs.any (·.id == a) then
        .ok ({ s with calls := s.calls.filter (·.id ≠ c),
                      subs := s.subs.map fun x => if x.id = a then { x with number := some n } else x }, .success)
      else .ub
    | _ => .fail
  | .subscribeAsync k h =>
    if k.raw then .fail
    else do
      match ← check sc s k with
      | some subs => pure ({ s with subs := subs, pending := s.pending ++ [(k, h)] }, .success)
      | none => pure (s, .already)
  | .repliedAsync i k h n =>
    if s.pending[i]? = some (k, h) then
      let s' := { s with pending := s.pending.eraseIdx i }
      match n with
      | some n => do
        let s' ← put sc s' k h true (some n)
        pure (s', .success)
      | none => .ok (s', .error)
    else .fail
  | .event k over r =>
    if k.raw then .fail
    else do
      match ← find sc s.subs k with
      | none => pure (s, .ignored)
      | some e =>
        if e.dirty ∧ r ≠ .noProvider then pure ({ s with subs := remove s.subs e }, .ignored)
        else if over then pure ({ s with subs := remove s.subs e }, .invoked e.handler)
        else pure (s, .invoked e.handler)
  | .unsubscribe ex k r => do
    match ← find sc s.subs k with
    | some e =>
      pure ({ s with subs := unsubscribeEntry s.subs e r }, if r = .failed ∧ ex = false then .error else .success)
    | none =>
      if k.raw ∨ ex = false then pure (s, .error)
      else do
        match ← takePending sc s.pending k with
        | some ps => pure ({ s with pending := ps }, .success)
        | none => pure (s, .error)
  | .exists k =>
    if k.raw then .fail
    else do
      let f ← find sc s.subs k
      pure (s, .answer f.isSome)

/-- All steps of a history. -/
def run (sc : Bool) (s : State) : List Op → Res (State × List Out)
  | [] => .ok (s, [])
  | op :: ops => do
    let (s1, o) ← step sc s op
    let (s2, os) ← run sc s1 ops
    pure (s2, o :: os)

/-! ## Subscribing to several events at once -/

/-- One of the subscriptions given to `rbusEvent_SubscribeEx` or, with `raw` in the key, `rbusEvent_SubscribeExRawData`;
`handler` is `none` for NULL. The reply of the provider, the number it gives, and how a request to end the
subscription ends if it is made, come with it. -/
structure Item where
  key : Key
  handler : Option Nat
  reply : Reply
  number : BitVec 32
  undo : Ended

/-- `rbusEvent_SubscribeWithRetries` (rbus.c:5021-5219) from start to end without an initial value, while nothing else
happens to the handle. -/
def subscribeCall (sc : Bool) (s : State) (c : Nat) (q : Item) (handler : Nat) : Res (State × Out) := do
  let (s, o) ← step sc s (.subscribe c q.key handler)
  if o = .already then pure (s, .already)
  else do
    let (s, o) ← step sc s (.replied c q.key handler q.reply)
    if o = .going then step sc s (.numbered c q.number) else pure (s, o)

/-- `rbusEvent_UnsubscribeEx` (rbus.c:5753-5806) for the subscriptions made so far: it looks for subscriptions with
`rawData` false. -/
def unsubscribeAll (sc : Bool) (s : State) : List Item → Res State
  | [] => .ok s
  | q :: qs => do
    let (s, _) ← step sc s (.unsubscribe true { q.key with raw := false } q.undo)
    unsubscribeAll sc s qs

/-- The loop of `rbusEvent_SubscribeEx` (rbus.c:5511-5534) and of `rbusEvent_SubscribeExRawData` (5559-5622, without the
listeners), which also refuses a handler that is NULL; `done` are the subscriptions made so far, and the result tells
whether all were made. A NULL handler is not called here: 0 stands for it. -/
def subscribeAll (sc : Bool) (c : Nat) (done : List Item) (s : State) : List Item → Res (State × Bool)
  | [] => .ok (s, true)
  | q :: qs =>
    if q.key.raw ∧ q.handler = none then .ok (s, false)
    else do
      let (s, o) ← subscribeCall sc s c q (q.handler.getD 0)
      if o = .success then subscribeAll sc c (done ++ [q]) s qs
      else do
        let s ← unsubscribeAll sc s done
        pure (s, false)

/-- The whole call. -/
def subscribeEx (sc : Bool) (c : Nat) (s : State) (qs : List Item) : Res (State × Bool) := subscribeAll sc c [] s qs

end Verif.Consumer
