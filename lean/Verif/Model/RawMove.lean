import Verif.Model.Base

/-!
# Model of data sent as is while private connections come and go (src/rbus/rbus.c, src/rbus/rbus_message.c)

A consumer subscribes to events whose data are sent as is (`rbusEvent_SubscribeRawData`), and opens and closes
private connections to the provider meanwhile. What is subscribed is listened for on the router's connection
or on the private one, and moves from one to the other.

One consumer with one thread that calls the API, one provider that has all events and is always there, and
one private connection, which parameters of one provider share (rbuscore.c:2958-2986, see `Verif.PrivateLink`).
Events are numbers. The provider publishes at any time, also while the consumer's thread is in the middle of
`rbus_openDirect` or `rbus_closeDirect`; the callback threads take messages as they come. What becomes of
messages that wait is in `Verif.Messages`, as are full tables of listeners; refusals by the provider are in
`Verif.PrivateLink` and `Verif.PrivateServer`. Subscriptions that are not raw, and asynchronous ones, are left
out.
-/

namespace Verif.RawMove

/-- The texts that listeners and contexts are kept under, and that messages are sent on: `"rawdata.%s"`
(rbus.c:350, 397, 4979, 5302, 5323, 5901), the event's name, `"%d.%s"` (rbus_message.c:146, 209), and the
consumer's inbox (rtrouteBase.c:227, 529). Events whose names look like one of the others are left out. -/
inductive Topic where
  | raw (event : Nat)
  | event (event : Nat)
  | numbered (id event : Nat)
  | inbox
  deriving DecidableEq, Repr

/-- `rbusEventSubscriptionInternal_t` with its `rbusEventSubscription_t` (rbus.c:112-118, include/rbus.h:288-318). The
number the provider gave it serves as its address. -/
structure Sub where
  event : Nat
  id : Nat
  handler : Nat
  user : Nat
  deriving DecidableEq, Repr

/-- `rbusMessageHandlerContext_t` (rbus_message.c:48-56): its address, expression, handle (0 is the one made
by `rbus_open`), the subscription that is its user data, and the id. The handler is always
`_subscribe_rawdata_handler`. -/
structure Ctx where
  addr : Nat
  expr : Topic
  handle : Nat
  sub : Nat
  id : Nat
  deriving DecidableEq, Repr

/-- An entry in the table of listeners of a connection (rtConnection.c:89-96), with the address of the
context that is its closure. -/
structure Listener where
  topic : Topic
  id : Nat
  ctx : Nat
  deriving DecidableEq, Repr

/-- Where the consumer's thread is: in no call; in `rbus_openDirect` after the connection was made
(rbus.c:3095), and after the listener was removed from the router's connection (rbus.c:356); in
`rbus_closeDirect` after the listener was removed from the private connection (rbus.c:389), and after
`rbusCloseDirect_SubRemove` (rbus.c:3149). With the event and the direct handle. -/
inductive Phase where
  | idle
  | connected (event handle : Nat)
  | left (event handle : Nat)
  | parted (event handle : Nat)
  | back (event handle : Nat)
  deriving DecidableEq, Repr

/-- The consumer's subscriptions (`eventSubs`), its contexts (`messageCallbacks`; what is not there has been
freed), the listeners of the two connections, the events with a private connection and their handles
(`gListOfClientDirectDMLs` and what the application holds), the direct handles not freed, the provider's
subscriptions of this consumer (event and id), the events the provider sends privately
(`gListOfServerDirectDMLs`), and the next id, address and handle. -/
structure State where
  subs : List Sub
  ctxs : List Ctx
  main : List Listener
  priv : List Listener
  direct : List (Nat × Nat)
  handles : List Nat
  psubs : List (Nat × Nat)
  served : List Nat
  nextId : Nat
  nextCtx : Nat
  nextHandle : Nat
  phase : Phase
  deriving DecidableEq, Repr

/-- After `rbus_open`; providers number subscriptions from 3 (rbus_subscriptions.c:126). -/
def init : State := ⟨[], [], [], [], [], [], [], [], 3, 0, 1, .idle⟩

/-- What happens. -/
inductive Event where
  /-- `rbusEvent_SubscribeRawData` -/
  | subscribe (event handler user : Nat)
  /-- `rbusEvent_UnsubscribeRawData` -/
  | unsubscribe (event : Nat)
  /-- `rbus_openDirect`, as far as making the connection -/
  | openDirect (event : Nat)
  /-- `rbus_closeDirect`, as far as removing the private listener -/
  | closeDirect (handle : Nat)
  /-- the thread goes on with `rbus_openDirect` or `rbus_closeDirect` -/
  | go
  /-- the provider calls `rbusEvent_PublishRawData` -/
  | publish (event : Nat)
  deriving DecidableEq, Repr

/-- A call of an application's handler: with which user data and handle, and the name of the event it is
told. -/
structure Call where
  handler : Nat
  user : Nat
  handle : Nat
  name : Topic
  deriving DecidableEq, Repr

/-- What is seen, or done, in a step. -/
inductive Out where
  | subscribed
  /-- `RBUS_ERROR_SUBSCRIPTION_ALREADY_EXIST` -/
  | alreadyExists
  | unsubscribed
  /-- `RBUS_ERROR_INVALID_OPERATION` -/
  | notSubscribed
  /-- `RBUS_ERROR_ELEMENT_NAME_DUPLICATE` -/
  | duplicate
  /-- there is a private connection for the event now, with this handle -/
  | connected (event handle : Nat)
  /-- the event is not listened for on the router's connection any more -/
  | leftRouter (event : Nat)
  /-- `rbus_openDirect` returns; the event is listened for on the private connection if subscribed to -/
  | opened (event : Nat)
  /-- the event is not listened for on the private connection any more -/
  | leftPrivate (event : Nat)
  /-- nothing to remove: not subscribed to -/
  | nothingHeard (event : Nat)
  /-- the event is listened for on the router's connection again -/
  | returned (event handle : Nat)
  /-- `rbus_closeDirect` returns, the handle is freed -/
  | closed (event handle : Nat)
  /-- the handlers called -/
  | calls (cs : List Call)
  deriving DecidableEq, Repr

/-- `rbusEventSubscription_find` (rbus.c:308-324) for subscriptions without filter and interval. -/
def findSub (s : State) (e : Nat) : Option Sub := s.subs.find? (·.event == e)

/-- `rbuscore_FindClientPrivateConnection` (rbuscore.c:2892-2909). -/
def hasDirect (s : State) (e : Nat) : Bool := s.direct.any (·.1 == e)

/-- `rbusMessage_HasListener` (rbus_message.c:267-293). -/
def hasListener (s : State) (t : Topic) : Bool := s.ctxs.any (·.expr == t)

/-- `rbusMessage_AddListener` (rbus_message.c:160-189) with the handle given. The direct handle shares the
contexts, and has the router's connection by then (rbus.c:395). -/
def addListener (s : State) (k : Nat) (b : Sub) : State :=
  { s with
    ctxs := s.ctxs ++ [⟨s.nextCtx, .raw b.event, k, b.id, b.id⟩]
    main := s.main ++ [⟨.raw b.event, b.id, s.nextCtx⟩]
    nextCtx := s.nextCtx + 1 }

/-- `rbusMessage_AddPrivateListener` (rbus_message.c:120-158), when there is a private connection. -/
def addPrivate (s : State) (b : Sub) : State :=
  { s with
    ctxs := s.ctxs ++ [⟨s.nextCtx, .event b.event, 0, b.id, b.id⟩]
    priv := s.priv ++ [⟨.numbered b.id b.event, b.id, s.nextCtx⟩]
    nextCtx := s.nextCtx + 1 }

/-- `rbusMessage_RemoveListener` (rbus_message.c:221-241): the first context with the expression is freed, the
first listener with the id is removed. -/
def removeListener (s : State) (b : Sub) : State :=
  { s with
    ctxs := s.ctxs.eraseP (·.expr == .raw b.event)
    main := s.main.eraseP (·.id == b.id) }

/-- `rbusMessage_RemovePrivateListener` (rbus_message.c:192-219): the contexts are searched for a text they
are not kept under. -/
def removePrivate (s : State) (b : Sub) : State :=
  { s with
    ctxs := s.ctxs.eraseP (·.expr == .numbered b.id b.event)
    priv := s.priv.eraseP (·.id == b.id) }

/-- `rbusEvent_SubscribeRawData` (rbus.c:5271-5332): the subscription is made with the provider and kept
(rbus.c:5021-5158), then listened for. -/
def subscribe (s : State) (e h u : Nat) : State × Out :=
  match findSub s e with
  | some _ => (s, .alreadyExists)
  | none =>
    let b : Sub := ⟨e, s.nextId, h, u⟩
    let s1 := { s with subs := s.subs ++ [b], psubs := s.psubs ++ [(e, s.nextId)], nextId := s.nextId + 1 }
    if hasDirect s1 e then
      let s2 := if hasListener s1 (.raw e) then removeListener s1 b else s1
      (addPrivate s2 b, .subscribed)
    else (addListener s1 0 b, .subscribed)

/-- `rbusEvent_UnsubscribeRawData` (rbus.c:5453-5493) with `_rbus_event_unsubscribe` (rbus.c:4950-5019), which
the provider answers with success. -/
def unsubscribe (s : State) (e : Nat) : State × Out :=
  match findSub s e with
  | none => (s, .notSubscribed)
  | some b =>
    let s1 :=
      if hasDirect s e then removePrivate s b
      else if hasListener s (.raw e) then removeListener s b else s
    ({ s1 with subs := s1.subs.eraseP (·.event == e), psubs := s1.psubs.eraseP (·.1 == e) }, .unsubscribed)

/-- `rbus_openDirect` (rbus.c:3079-3125) until the connection is made (rbuscore.c:2941-3040). -/
def openDirect (s : State) (e : Nat) : State × Out :=
  if hasDirect s e then (s, .duplicate)
  else
    ({ s with
       direct := s.direct ++ [(e, s.nextHandle)]
       served := s.served ++ [e]
       handles := s.handles ++ [s.nextHandle]
       nextHandle := s.nextHandle + 1
       phase := .connected e s.nextHandle }, .connected e s.nextHandle)

/-- `rbus_closeDirect` (rbus.c:3127-3162) as far as `rbusMessage_RemovePrivateListener` in
`rbusCloseDirect_SubRemove` (rbus.c:377-406). A handle that is not open is left out. -/
def closeDirect (s : State) (k : Nat) : Res (State × Out) :=
  match s.direct.find? (·.2 == k) with
  | none => .fail
  | some d =>
    match findSub s d.1 with
    | none => .ok ({ s with phase := .back d.1 k }, .nothingHeard d.1)
    | some b => .ok ({ removePrivate s b with phase := .parted d.1 k }, .leftPrivate d.1)

/-- The rest of both, one step after the other: `rbusOpenDirect_SubAdd` (rbus.c:337-375) is given the handle
of `rbus_open`, `rbusCloseDirect_SubRemove` (rbus.c:377-406) the direct one. Then the private connection is
closed (rbuscore.c:3042-3098), destroyed with its listeners if no event is left, and the handle is freed
(rbus.c:3150-3154). -/
def goOn (s : State) : Res (State × Out) :=
  match s.phase with
  | .idle => .fail
  | .connected e k =>
    match findSub s e with
    | none => .ok ({ s with phase := .idle }, .opened e)
    | some b =>
      let s1 := if hasListener s (.raw e) then removeListener s b else s
      .ok ({ s1 with phase := .left e k }, .leftRouter e)
  | .left e _ =>
    match findSub s e with
    | none => .ok ({ s with phase := .idle }, .opened e)
    | some b => .ok ({ addPrivate s b with phase := .idle }, .opened e)
  | .parted e k =>
    match findSub s e with
    | none => .ok ({ s with phase := .back e k }, .returned e k)
    | some b => .ok ({ addListener s k b with phase := .back e k }, .returned e k)
  | .back e k =>
    let d := s.direct.eraseP (·.1 == e)
    .ok ({ s with
           direct := d
           priv := if d.isEmpty then [] else s.priv
           served := s.served.erase e
           handles := s.handles.erase k
           phase := .idle }, .closed e k)

/-- A message with an id is read from a connection: `rtConnection_CallbackThread` (rtConnection.c:1818-1840)
finds the listener, `rtMessage_CallbackHandler` (rbus_message.c:73-101) reads the context,
`_subscribe_rawdata_handler` (rbus.c:5219-5269) locks the handle's mutex, reads the subscription and calls
the application's handler. -/
def deliver (s : State) (ls : List Listener) (id : Nat) (name : Topic) : Res (List Call) :=
  match ls.find? (·.id == id) with
  | none => .ok []
  | some l =>
    match s.ctxs.find? (·.addr == l.ctx) with
    | none => .ub
    | some c =>
      if c.handle = 0 ∨ c.handle ∈ s.handles then
        match s.subs.find? (·.id == c.sub) with
        | none => .ub
        | some b => .ok [⟨b.handler, b.user, c.handle, name⟩]
      else .ub

/-- Messages with these ids, one after the other. -/
def deliverAll (s : State) (ls : List Listener) (name : Topic) : List Nat → Res (List Call)
  | [] => .ok []
  | i :: is => do
    let a ← deliver s ls i name
    let b ← deliverAll s ls name is
    pure (a ++ b)

/-- `rbusEvent_PublishRawData` (rbus.c:5849-5903): to the subscriber over the private connection if there is
one (rbuscore.c:1818-1830, rtrouteBase.c:512-565), and to the router in any case, which sends it on to those
that listen for the topic. -/
def publish (s : State) (e : Nat) : Res (List Call) := do
  let a ←
    match s.psubs.find? (·.1 == e) with
    | some p => if e ∈ s.served then deliver s s.priv p.2 .inbox else .ok []
    | none => .ok []
  let b ← deliverAll s s.main (.raw e) ((s.main.filter (·.topic == .raw e)).map (·.id))
  pure (a ++ b)

/-- One step. `fail`: the consumer's thread is elsewhere. -/
def step (s : State) : Event → Res (State × Out)
  | .subscribe e h u => if s.phase = .idle then .ok (subscribe s e h u) else .fail
  | .unsubscribe e => if s.phase = .idle then .ok (unsubscribe s e) else .fail
  | .openDirect e => if s.phase = .idle then .ok (openDirect s e) else .fail
  | .closeDirect k => if s.phase = .idle then closeDirect s k else .fail
  | .go => goOn s
  | .publish e => do
    let cs ← publish s e
    pure (s, .calls cs)

/-- A history of steps. -/
def run (s : State) : List Event → Res (State × List Out)
  | [] => .ok (s, [])
  | e :: es => do
    let (s1, o) ← step s e
    let (s2, os) ← run s1 es
    pure (s2, o :: os)

end Verif.RawMove
