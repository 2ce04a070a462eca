import Verif.Model.Publish
import Verif.Model.Consumer
import Verif.Model.Method

/-!
# Model of events from end to end

The message from a provider that publishes an event to a subscriber, byte by byte: `rbusEvent_Publish`
(src/rbus/rbus.c:5907-6034) with `rbus_publishSubscriberEvent` (src/core/rbuscore.c:1832-1878), and at the subscriber
`master_event_callback` (src/core/rbuscore.c:1452-1520) with `_master_event_callback_handler` (src/rbus/rbus.c:1426-1494). Handles are
regular ones and the subscriber has no private connection to the provider. Locks and reference counts are left out.
-/

namespace Verif.EventWire

open Verif Verif.Message Verif.Wire Verif.Value
open Verif.Method (str getProp setProp)
open Verif.Subs (EventKind Sub byAddr)

/-- `rbusEvent_t` (include/rbus.h:226-231). -/
structure Ev where
  name : Bytes
  type : BitVec 32
  data : Option Obj

/-- `rbusEventType_t` (include/rbus.h:212-221) and names of properties (rbus.c:5942-5943, 5994). -/
def valueChanged : BitVec 32 := 2
def durationComplete : BitVec 32 := 6
def value : Bytes := str "value"
def oldValue : Bytes := str "oldValue"
def filter : Bytes := str "filter"

/-- `MAX_OBJECT_NAME_LENGTH` (rbuscore.h:28, rtMessageHeader.h:31). -/
def maxName : Nat := 256

/-- What publishing takes from the event (rbus.c:5938-5951). Values that are not scalars are not represented (`none`). A property
without a value is taken to have one of type none. -/
def kindOf (e : Ev) : Option EventKind :=
  if e.type = valueChanged then
    match e.data with
    | none => some (.valueChanged none none)
    | some (.mk _ _ ps _) =>
      match getProp value ps, getProp oldValue ps with
      | some (.scalar a), some (.scalar b) => some (.valueChanged (some a) (some b))
      | none, _ => some (.valueChanged none none)
      | _, none => some (.valueChanged none none)
      | _, _ => none
  else some .other

/-- `rbusObject_SetValue(eventData->data, "filter", ..)` (rbus.c:5991-5995). -/
def setFlag (b : Bool) (e : Ev) : Ev :=
  match e.data with
  | some (.mk n t ps cs) => ⟨e.name, e.type, some (.mk n t (setProp filter (.scalar (.boolean b)) ps) cs)⟩
  | none => e

/-- A message on its way: for whom, from whom, and the bytes. `subscription` is the number of the subscription it was sent for; it
does not travel. -/
structure Packet where
  subscription : Nat
  listener : Bytes
  sender : Bytes
  bytes : Bytes
  deriving DecidableEq

/-- `rbusMessage_BeginMetaSectionWrite`, writing these items, and `rbusMessage_EndMetaSectionWrite` (rbuscore_message.c:265-274). -/
def closeMeta (body items : Bytes) : Bytes :=
  let data := body ++ items ++ packInt (BitVec.ofNat 32 body.length ||| 0x80000000#32).toInt
  data.modify (data.length - 4) (· &&& 0x7F)

/-- The bytes from where `rbusMessage_BeginMetaSectionRead` moves to (rbuscore_message.c:276-283; see `getMeta`). -/
def openMeta (msg : Bytes) : Bytes :=
  msg.drop (if msg.length < 5 then 0 else
    match getInt32 (msg.drop (msg.length - 5)) with
    | some (v, _) => if v.toInt < 0 then msg.length else v.toNat
    | none => 0)

/-- `rbusEventData_appendToMessage` for a subscription (rbus.c:6010). -/
def eventFor (e : Ev) (x : Sub) : Event :=
  ⟨e.name, e.type, e.data, x.key.filter, BitVec.ofInt 32 x.key.interval, BitVec.ofInt 32 x.key.duration,
    BitVec.ofInt 32 x.key.componentId⟩

/-- `rbus_publishSubscriberEvent` (rbuscore.c:1832-1878): the message, if one leaves, and whether success is answered. `net` tells
whether `rbus_sendMessage` succeeds, and `known` whether the component is registered as an object. -/
def send (fc : FloatConv) (comp : Bytes) (known : Bool) (net : Nat → Bool) (x : Sub) (e : Ev) : Res (List Packet × Bool) := do
  let d ← appendEvent fc (eventFor e x)
  if maxName ≤ comp.length then pure ([], false)
  else
    let m := closeMeta d (setString x.key.eventName ++ (setString comp ++ setInt32 1))
    pure (if net x.subscriptionId then [⟨x.subscriptionId, x.key.listener, comp, m⟩] else [], known)

/-- Sending only if it is to be published to the subscription (rbus.c:6005-6028). -/
def sendIf (pub : Bool) (fc : FloatConv) (comp : Bytes) (known : Bool) (net : Nat → Bool) (x : Sub) (e : Ev) :
    Res (List Packet × Bool) :=
  if pub then send fc comp known net x e else .ok ([], true)

/-- The event with the property `filter`, if it is set. -/
def mark (e : Ev) : Option Bool → Ev
  | some b => setFlag b e
  | none => e

/-- The loop over an element's subscriptions (rbus.c:5956-6030). -/
def deliver (sc : Bool) (fc : FloatConv) (s : Subs.State) (comp : Bytes) (known : Bool) (net : Nat → Bool) (k : EventKind) :
    Ev → List Nat → Res (List Packet × Bool)
  | _, [] => .ok ([], true)
  | e, a :: as =>
    match byAddr s a with
    | none => .ub
    | some x => do
      let (pub, flag) ← Subs.entitled sc k x.key.filter none
      let e := mark e flag
      let (p, ok) ← sendIf (pub && !x.key.rawData) fc comp known net x e
      let (ps, oks) ← deliver sc fc s comp known net k e as
      pure (p ++ ps, ok && oks)

/-- `rbusEvent_Publish` (rbus.c:5907-6034): the messages that leave, and the answer. -/
def publish (sc : Bool) (fc : FloatConv) (s : Subs.State) (comp : Bytes) (known : Bool) (net : Nat → Bool) (e : Ev) :
    Res (List Packet × Nat) :=
  match Element.retrieveInstance s.tree e.name with
  | none => .ok ([], Subs.eNoElement)
  | some el =>
    if s.attached el.id = [] then .ok ([], Subs.eNoSubscribers)
    else
      match kindOf e with
      | none => .fail
      | some (.valueChanged none _) => .ok ([], Subs.eInvalidInput)
      | some (.valueChanged _ none) => .ok ([], Subs.eInvalidInput)
      | some k => do
        let (ps, ok) ← deliver sc fc s comp known net k e (s.attached el.id)
        pure (ps, if ok then Subs.eOk else Subs.eBusError)

/-! ### The subscriber -/

/-- The handles of a process by their component ids, in the order of `gHandleList` (rbus_handle.c). -/
abbrev Process := List (BitVec 32 × Consumer.State)

/-- `rbusHandleList_GetByComponentID` (rbus_handle.c:131-149): the position of the handle. If there is none with the id, the variable
is left at the last one. -/
def lookup (P : Process) (id : BitVec 32) : Option Nat :=
  match P.findIdx? (fun h => h.1 = id) with
  | some i => some i
  | none => if P = [] then none else some (P.length - 1)

/-- What becomes of a message at the process: it is not looked at further; no handler is called; or a handler of the handle with an
id is called with an event. -/
inductive Heard where
  | dropped
  | ignored
  | called (handle : BitVec 32) (handler : Nat) (e : Ev)

/-- `rbusMessage_GetString` into a pointer that was NULL, its result ignored (rbuscore.c:1474-1475): NULL if there is no string. -/
def getName (bs : Bytes) : Res (Option Bytes × Bytes) :=
  match unpackNext bs with
  | some (.str s, r) => if s.contains 0 then .ok (some (s.takeWhile (· ≠ 0)), r) else .ub
  | some (_, r) => .ok (none, r)
  | none => .ok (none, bs)

/-- `_master_event_callback_handler` (rbus.c:1426-1494). `r` tells how a request to the provider ends if one is made. A handler is
looked for by comparing with the name, which may be NULL. -/
def handle (sc : Bool) (fc : FloatConv) (P : Process) (name : Option Bytes) (body : Bytes) (r : Consumer.Ended) :
    Res (Process × Heard) := do
  let (e, _) ← readEvent fc body
  match lookup P e.componentId with
  | none => pure (P, .ignored)
  | some i =>
    match P[i]?, name with
    | some (id, c), some name => do
      let (c, o) ← Consumer.step sc c (.event ⟨name, e.filter, e.interval, e.duration, false⟩ (e.type = durationComplete) r)
      let P := P.set i (id, c)
      match o with
      | .invoked h => pure (P, .called id h ⟨e.name, e.type, e.data⟩)
      | _ => pure (P, .ignored)
    | some (_, c), none => if c.subs = [] then pure (P, .ignored) else .ub
    | none, _ => .ub

/-- `master_event_callback` (rbuscore.c:1452-1520). Only the last of three reads is checked. The list searched for events that are
not handled is empty in a process with handles (rbuscore.c:1608-1630). -/
def receive (sc : Bool) (fc : FloatConv) (P : Process) (p : Packet) (r : Consumer.Ended) : Res (Process × Heard) :=
  if maxName ≤ p.sender.length then .ok (P, .dropped)
  else do
    let (name, ms) ← getName (openMeta p.bytes)
    let (_, ms) ← getName ms
    match getInt32 ms with
    | none => pure (P, .dropped)
    | some (flag, _) => if flag = 0 then pure (P, .ignored) else handle sc fc P name p.bytes r

end Verif.EventWire
