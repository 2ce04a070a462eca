import Verif.Model.Wire

/-!
# Model of the messages for subscribing (src/rbus/rbus.c, src/core/rbuscore.c)

The request as the consumer writes and the provider reads it, and the response as the provider writes and the
consumer reads it. What the provider does with a subscription is in `Model/Subscriptions`.
-/

namespace Verif.Subscribe

open Verif Verif.Message Verif.Wire
open Verif.Filter (Filter)

/-- What the consumer asks for (the arguments of `rbusEvent_SubscribeWithRetries`, rbus.c:5021-5032, and the component
id of its handle). -/
structure Request where
  event : Bytes
  filter : Filter
  interval : BitVec 32
  duration : BitVec 32
  componentId : BitVec 32
  publish : Bool
  raw : Bool

/-- `rbusEvent_CreateSubscribePayload` (rbus.c:4924-4945). -/
def payload (fc : FloatConv) (q : Request) : Res Bytes := do
  let f ← appendFilterOpt fc q.filter
  pure (setInt32 q.componentId ++ (setInt32 q.interval ++ (setInt32 q.duration ++ f)))

/-- The request of `send_subscription_request` (rbuscore.c:702-725), with the address of its sender; there always is a
payload. -/
def request (fc : FloatConv) (q : Request) (sender : Bytes) : Res Bytes := do
  let p ← payload fc q
  pure (setString q.event ++ (setString sender ++ (setInt32 1 ++ (setBytes p ++
    (setInt32 (if q.publish then 1 else 0) ++ setInt32 (if q.raw then 1 else 0))))))

/-- The provider reads the payload (rbus.c:2600-2608). -/
def readPayload (fc : FloatConv) (bs : Bytes) : Res (BitVec 32 × BitVec 32 × BitVec 32 × Filter) := do
  let (c, bs) := getInt32Z bs
  let (i, bs) := getInt32Z bs
  let (d, bs) := getInt32Z bs
  let (f, _) ← readFilterOpt fc bs
  pure (c, i, d, f)

/-- The first part of `_subscribe_callback_handler` (rbus.c:2584-2632): what it understands of a request. `fail`: the
strings are missing, and the response stays empty. -/
def readRequest (fc : FloatConv) (bs : Bytes) : Res (Bytes × Request) := do
  let (event, bs) ← getString bs
  let (sender, bs) ← getString bs
  let (has, bs) := getInt32Z bs
  let (p, bs) ← if has ≠ 0 then
      match getBytes bs with
      | some (p, bs) => do
        let p ← readPayload fc p
        pure (p, bs)
      | none => .ok ((0, 0, 0, .null), bs)
    else .ok ((0, 0, 0, .null), bs)
  let (publish, bs) := getInt32Z bs
  let (raw, _) := getInt32Z bs
  pure (sender, { event := event, filter := p.2.2.2, interval := p.2.1, duration := p.2.2.1, componentId := p.1,
                  publish := publish ≠ 0, raw := raw ≠ 0 })

/-- How the provider comes by the initial value (rbus.c:2650-2713): as the object with the value, the rows of a table or
what a wildcard stands for; there is no handler for getting; or the handler failed. -/
inductive Initial where
  | data (o : Obj)
  | noHandler
  | error

/-- `RBUS_EVENT_INITIAL_VALUE` (include/rbus.h). -/
def initialValue : BitVec 32 := 4

/-- The part of the response about the initial value (rbus.c:2708-2726). -/
def initialPart (fc : FloatConv) (q : Request) : Initial → Res Bytes
  | .data o => do
    let e ← appendEvent fc { name := q.event, type := initialValue, data := some o, filter := q.filter,
                             interval := q.interval, duration := q.duration, componentId := q.componentId }
    pure (setInt32 1 ++ e)
  | .noHandler => .ok (setInt32 0)
  | .error => .ok []

/-- The rest of `_subscribe_callback_handler` (rbus.c:2636-2736): the response to a request, with the result of the
subscription, the way the initial value comes about, and the number of the subscription (0 if there is none). -/
def reply (fc : FloatConv) (q : Request) (ret : BitVec 32) (i : Initial) (id : BitVec 32) : Res Bytes := do
  let p ← if q.publish ∧ ret = 0 then initialPart fc q i else .ok []
  pure (setInt32 ret ++ (p ++ setInt32 id))

/-- `METHOD_RESPONSE` (rbuscore_types.h:74). -/
def methodResponse : Bytes := "METHOD_RESPONSE".toUTF8.toList

/-- What `rbus_sendResponse` sends (rbuscore.c:2343). -/
def sent (body : Bytes) : Bytes := setMeta body methodResponse [] []

/-- What the consumer understands: an unusable response; an error of the provider, returned to the application;
success for a subscription that existed already, whose number is not looked at and not set; success, with the
initial value if there is one, and the number. -/
inductive Seen where
  | malformed
  | refused (code : BitVec 32)
  | existing
  | subscribed (initial : Option Event) (id : BitVec 32)

/-- `RBUS_ERROR_SUBSCRIPTION_ALREADY_EXIST` (include/rbus.h:129). -/
def alreadyExist : BitVec 32 := 24

/-- How the consumer reads the response (rbuscore.c:733-757, rbus.c:5137-5166 and 5182-5210). Sending and retrying is not
modelled here. -/
def receive (fc : FloatConv) (publish : Bool) (bs : Bytes) : Res Seen :=
  match getInt32 bs with
  | none => .ok .malformed
  | some (ret, bs) =>
    if ret ≠ 0 then
      if ret = alreadyExist then .ok .existing else .ok (.refused ret)
    else do
      let (i, bs) ← if publish then
          let (flag, bs) := getInt32Z bs
          if flag ≠ 0 then do
            let (e, bs) ← readEvent fc bs
            pure (some e, bs)
          else .ok (none, bs)
        else .ok (none, bs)
      let (id, _) := getInt32Z bs
      pure (.subscribed i id)

end Verif.Subscribe
