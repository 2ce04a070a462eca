import Verif.Model.Subscriptions

/-!
# Model of publishing to subscribers

`rbusEvent_Publish` (src/rbus/rbus.c:5907-6034) and `rbusEvent_PublishRawData` (5849-5905). Values are the
scalars of the filter model. Messages are what `rbus_publishSubscriberEvent` and
`rbuscore_publishDirectSubscriberEvent` are given; whether these answer success is told by `net` (for what that means see
`EventWire.send`).
-/

namespace Verif.Subs

open Verif Verif.Element Verif.Filter Verif.Value

/-- `rbusError_t` (include/rbus.h:103-136). -/
def eBusError : Nat := 1
def eNoSubscribers : Nat := 23

/-- The event's type as far as it matters: a change of value with what the data holds under `value` and
`oldValue`, or anything else. -/
inductive EventKind where
  | valueChanged (new old : Option Scalar)
  | other
  deriving DecidableEq, Repr

/-- A message to a subscriber. `filter` is what the event's data holds under `filter`. -/
structure Msg where
  listener : Bytes
  eventName : Bytes
  componentId : Int
  subscriptionId : Nat
  filter : Option Bool
  deriving DecidableEq, Repr

/-- Whether to publish to one subscriber, and the `filter` field of the data afterwards
(rbus.c:5971-6003). -/
def entitled (sc : Bool) (k : EventKind) (f : Filter) (flag : Option Bool) : Res (Bool × Option Bool) :=
  match k with
  | .valueChanged (some new) (some old) =>
    if f = .null then .ok (true, flag)
    else do
      let n ← apply sc f new
      let o ← apply sc f old
      pure (if n = o then (false, flag) else (true, some n))
  | _ => .ok (true, flag)

/-- The loop over an element's subscriptions (rbus.c:5956-6030). The `filter` field stays in the data for
the following subscribers. -/
def deliver (sc : Bool) (s : State) (k : EventKind) (net : Nat → Bool) : Option Bool → List Nat →
    Res (List Msg × Bool)
  | _, [] => .ok ([], true)
  | flag, a :: as =>
    match byAddr s a with
    | none => .ub
    | some x => do
      let (pub, flag) ← entitled sc k x.key.filter flag
      let (ms, ok) ← deliver sc s k net flag as
      if pub && !x.key.rawData then
        pure (⟨x.key.listener, x.key.eventName, x.key.componentId, x.subscriptionId, flag⟩ :: ms,
          net x.subscriptionId && ok)
      else pure (ms, ok)

/-- `rbusEvent_Publish` (rbus.c:5907-6034) on a regular handle, with an event whose data has no `filter`
field. A node has a list of subscriptions exactly if it is not empty (rbus_element.c:826-829, 849-853). -/
def publish (sc : Bool) (s : State) (name : Bytes) (k : EventKind) (net : Nat → Bool) :
    Res (List Msg × Nat) :=
  match retrieveInstance s.tree name with
  | none => .ok ([], eNoElement)
  | some el =>
    if s.attached el.id = [] then .ok ([], eNoSubscribers)
    else
      match k with
      | .valueChanged none _ => .ok ([], eInvalidInput)
      | .valueChanged _ none => .ok ([], eInvalidInput)
      | k => do
        let (ms, ok) ← deliver sc s k net none (s.attached el.id)
        pure (ms, if ok then eOk else eBusError)

/-- The loop of `rbusEvent_PublishRawData` (rbus.c:5882-5899): `rc` is that of the last subscriber. -/
def deliverRaw (s : State) (net : Nat → Bool) : List Nat → Res (List Msg)
  | [] => .ok []
  | a :: as =>
    match byAddr s a with
    | none => .ub
    | some x => do
      let ms ← deliverRaw s net as
      if x.key.rawData then
        pure (⟨x.key.listener, x.key.eventName, x.key.componentId, x.subscriptionId, none⟩ :: ms)
      else pure ms

/-- `rbusEvent_PublishRawData` (rbus.c:5849-5905). The final message to the topic `rawdata.<name>` decides
the answer, whatever became of the others; `last` tells whether it could be sent. -/
def publishRaw (s : State) (name : Bytes) (net : Nat → Bool) (last : Bool) : Res (List Msg × Nat) :=
  match retrieveInstance s.tree name with
  | none => .ok ([], eNoElement)
  | some el =>
    if s.attached el.id = [] then .ok ([], eNoSubscribers)
    else do
      let ms ← deliverRaw s net (s.attached el.id)
      pure (ms, if last then eOk else eBusError)

end Verif.Subs
