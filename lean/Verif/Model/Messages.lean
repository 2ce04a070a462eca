import Verif.Model.Dispatch

/-!
# Model of message listeners (src/rbus/rbus_message.c)

One handle, its connection to the router, and at most one private connection, to a provider it talks to
directly. For each listener there is a context on the heap: the handle's vector of contexts points to
it, and so does an entry in the connection's table of listeners (`Verif.Dispatch`). The functions hold
one mutex (`gMutex`) from end to end, the callback threads do not take it: a callback thread finds the
context under the connection's mutex and uses it after that.

The router is reduced to what it does for this one client: which topics lead to which of its routes
(rtrouted.c:740-831, modelled in full in `Verif.Router`). Its answers come without delay here; what is
under way from it to the client is the queue of messages read. Topics of other clients, wildcards and
prefixes of topics are left out. Confirmations of receipt (rbus_message.c:78-90) are left out.
-/

namespace Verif.Messages

open Verif.Dispatch (Listener fill clear)

/-- `rbusMessageHandlerContext_t` (rbus_message.c:48-56); handler and user data are named by numbers,
the handle is the only one, and the connection is not read except for confirmations. -/
structure Ctx where
  expr : Bytes
  handler : Nat
  user : Nat
  id : Nat
  deriving DecidableEq, Repr

/-- A message read from a connection: `control_data` and the topic in its header, and the rest. -/
structure Msg where
  control : Nat
  topic : Bytes
  body : Nat
  deriving DecidableEq, Repr

/-- A connection (see `Verif.Dispatch.State`): the table of listeners, the queue of messages, and the
message for which the callback thread has found a callback it has not called yet. A callback of the
table is a number: 0 is the connection's own (`onDefaultMessage`), `a + 1` is
`rtMessage_CallbackHandler` with the context at address `a` as closure. -/
structure Conn where
  slots : List (Option Listener)
  queue : List Msg
  hand : Option (Msg × Option Nat)
  deriving DecidableEq, Repr

/-- The handle: its connection, the private one, the names that `rbuscore_FindClientPrivateConnection`
finds the private one for, the contexts on the heap by address, the vector `messageCallbacks`, the next
address; and the router's routes of this client by expression and id, with further topics that lead to
the route with an id. -/
structure State where
  main : Conn
  priv : Conn
  direct : List Bytes
  heap : List (Nat × Ctx)
  vec : List Nat
  next : Nat
  routes : List (Bytes × Nat)
  aliases : List (Bytes × Nat)
  deriving DecidableEq, Repr

/-- `RTCONNECTION_CREATE_EXPRESSION_ID` (rtConnection.c:65), the id of the inbox's listener. -/
def inboxId : Nat := 1

/-- A connection with the listener for its inbox (rtConnection.c:613). -/
def newConn (inbox : Bytes) : Conn :=
  { slots := some ⟨inboxId, inbox, 0⟩ :: List.replicate 127 none, queue := [], hand := none }

/-- A handle without message listeners (rbus.c:3021). -/
def init (inbox : Bytes) (direct : List Bytes) : State :=
  { main := newConn inbox, priv := newConn inbox, direct := direct, heap := [], vec := [], next := 0,
    routes := [(inbox, inboxId)], aliases := [] }

/-- Reading a context: `ub` when it was freed. -/
def ctxAt (s : State) (a : Nat) : Res Ctx :=
  match s.heap.find? (fun x => x.1 = a) with
  | some x => .ok x.2
  | none => .ub

/-- `cleanupContext` (rbus_message.c:103-111). -/
def freeCtx (s : State) (a : Nat) : State := { s with heap := s.heap.filter (fun x => x.1 ≠ a) }

/-- The router is told to add a topic (rtrouted.c:761-786): under an id it has a route for, the topic
becomes another name of that route, unless the topic leads somewhere already (`rtRouted_AddAlias`,
rtrouted.c:410-421, rtRoutingTree.c:477-535). -/
def routeAdd (s : State) (topic : Bytes) (id : Nat) : State :=
  if s.routes.any (fun r => r.2 = id) then
    if s.routes.any (fun r => r.1 = topic) || s.aliases.any (fun r => r.1 = topic) then s
    else { s with aliases := s.aliases ++ [(topic, id)] }
  else { s with routes := s.routes ++ [(topic, id)] }

/-- The router is told to remove a topic (rtrouted.c:790-812): the first route of the client with that
expression goes, with all its names, whatever the id; or else the name goes. -/
def routeRemove (s : State) (topic : Bytes) : State :=
  match s.routes.find? (fun r => r.1 = topic) with
  | some r =>
    { s with routes := s.routes.filter (fun x => x.2 ≠ r.2), aliases := s.aliases.filter (fun x => x.2 ≠ r.2) }
  | none => { s with aliases := s.aliases.filter (fun x => x.1 ≠ topic) }

/-- The ids a message on a topic comes to this client with (rtrouted.c:612-718). -/
def targets (s : State) (topic : Bytes) : List Nat :=
  (s.routes.filter (fun r => r.1 = topic)).map (·.2) ++ (s.aliases.filter (fun r => r.1 = topic)).map (·.2)

/-- `rtVector_RemoveItemByCompare` with `compareContextExpression` and `cleanupContext`
(rtVector.c:127-160, rbus_message.c:113-118): each context is read up to the first with the expression.
Gives the vector and what is freed. -/
def takeFirst (s : State) (expr : Bytes) : List Nat → Res (List Nat × Option Nat)
  | [] => .ok ([], none)
  | a :: r => do
    let c ← ctxAt s a
    if c.expr = expr then pure (r, some a)
    else
      let (r', o) ← takeFirst s expr r
      pure (a :: r', o)

/-- The removal of a context by expression. -/
def dropCtx (s : State) (expr : Bytes) : Res State := do
  let (v, o) ← takeFirst s expr s.vec
  match o with
  | some a => pure { freeCtx s a with vec := v }
  | none => pure { s with vec := v }

/-- The number as text, `%d` of `snprintf`; the ids are small enough not to be negative as `int`. -/
def digits (n : Nat) : Bytes := (Nat.toDigits 10 n).map (fun c => UInt8.ofNat c.toNat)

/-- `"%d.%s"` (rbus_message.c:146, 209); longer names than `RBUS_MAX_NAME_LENGTH` are not modelled. -/
def privateTopic (id : Nat) (expr : Bytes) : Bytes := digits id ++ 46 :: expr

/-- What is done. -/
inductive Op where
  /-- `rbusMessage_AddListener` -/
  | add (expr : Bytes) (handler user id : Nat)
  /-- `rbusMessage_RemoveListener` -/
  | remove (expr : Bytes) (id : Nat)
  /-- `rbusMessage_RemoveAllListeners` -/
  | removeAll
  /-- `rbusMessage_HasListener` -/
  | has (expr : Bytes)
  /-- `rbusMessage_AddPrivateListener` -/
  | addPrivate (expr : Bytes) (handler user id : Nat)
  /-- `rbusMessage_RemovePrivateListener` -/
  | removePrivate (expr : Bytes) (id : Nat)
  /-- somebody sends a message on a topic through the router, and the reader thread reads what comes -/
  | publish (topic : Bytes) (body : Nat)
  /-- the provider sends a message over the private connection -/
  | direct (m : Msg)
  /-- the callback thread of a connection (`true`: the private one) looks up the next message -/
  | look (priv : Bool)
  /-- it calls the callback it found -/
  | call (priv : Bool)
  deriving DecidableEq, Repr

/-- What is seen of it. -/
inductive Out where
  | success
  /-- `RBUS_ERROR_BUS_ERROR` -/
  | busError
  /-- `RBUS_ERROR_DIRECT_CON_NOT_EXIST` -/
  | noDirect
  | has (b : Bool)
  /-- the messages put into the queue, and how many were dropped because it was full -/
  | queued (ms : List Msg) (dropped : Nat)
  /-- the message in hand now -/
  | looked (m : Msg)
  /-- a handler is called with a message and its user data -/
  | called (handler user : Nat) (m : Msg)
  /-- the connection's own callback is called -/
  | own (m : Msg)
  /-- there was no listener for it -/
  | ignored (m : Msg)
  deriving DecidableEq, Repr

/-- Messages put into the queue of a connection one after the other (rtConnection.c:1647-1698): those
that went in, and the number dropped. -/
def enqueue (c : Conn) : List Msg → Conn × List Msg × Nat
  | [] => (c, [], 0)
  | m :: ms =>
    if c.queue.length > Dispatch.maxMessages then
      let r := enqueue c ms
      (r.1, r.2.1, r.2.2 + 1)
    else
      let r := enqueue { c with queue := c.queue ++ [m] } ms
      (r.1, m :: r.2.1, r.2.2)

/-- A context for a new listener (rbus_message.c:139-145, 171-178). -/
def newCtx (s : State) (c : Ctx) : State :=
  { s with heap := s.heap ++ [(s.next, c)], vec := s.vec ++ [s.next], next := s.next + 1 }

/-- `rbusMessage_AddListener` (rbus_message.c:160-189) with `rtConnection_AddListenerWithId`
(rtConnection.c:1241-1280). -/
def addListener (s : State) (e : Bytes) (h u id : Nat) : State × Out :=
  let s1 := newCtx s ⟨e, h, u, id⟩
  match fill ⟨id, e, s.next + 1⟩ s.main.slots with
  | some t => (routeAdd { s1 with main := { s.main with slots := t } } e id, .success)
  | none => (s1, .busError)

/-- `rbusMessage_AddPrivateListener` (rbus_message.c:120-158). The connection's own route table is that
of the provider (rtrouteBase.c), which is not modelled. -/
def addPrivate (s : State) (e : Bytes) (h u id : Nat) : State × Out :=
  if e ∈ s.direct then
    let s1 := newCtx s ⟨e, h, u, id⟩
    match fill ⟨id, privateTopic id e, s.next + 1⟩ s.priv.slots with
    | some t => ({ s1 with priv := { s.priv with slots := t } }, .success)
    | none => (s1, .busError)
  else (s, .noDirect)

/-- `rbusMessage_RemoveListener` (rbus_message.c:221-241) with `rtConnection_RemoveListenerWithId`
(rtConnection.c:1321-1358): the context goes by the expression, the listener by the id. -/
def removeListener (s : State) (e : Bytes) (id : Nat) : Res (State × Out) := do
  let s1 ← dropCtx s e
  match clear (fun l => l.id = id) s1.main.slots with
  | some (t, _) => pure (routeRemove { s1 with main := { s1.main with slots := t } } e, .success)
  | none => pure (s1, .busError)

/-- `rbusMessage_RemovePrivateListener` (rbus_message.c:192-219): the contexts are searched for the
topic made of id and expression. -/
def removePrivate (s : State) (e : Bytes) (id : Nat) : Res (State × Out) :=
  if e ∈ s.direct then do
    let s1 ← dropCtx s (privateTopic id e)
    match clear (fun l => l.id = id) s1.priv.slots with
    | some (t, _) => pure ({ s1 with priv := { s1.priv with slots := t } }, .success)
    | none => pure (s1, .busError)
  else .ok (s, .noDirect)

/-- The loop of `rbusMessage_RemoveAllListeners` (rbus_message.c:243-265): the listener is looked for on
the handle's connection, and the vector keeps the pointers. -/
def removeEach (s : State) : List Nat → Res State
  | [] => .ok s
  | a :: r => do
    let c ← ctxAt s a
    let s1 := match clear (fun l => l.id = c.id) s.main.slots with
      | some (t, _) => routeRemove { s with main := { s.main with slots := t } } c.expr
      | none => s
    removeEach (freeCtx s1 a) r

/-- `rbusMessage_HasListener` (rbus_message.c:267-293). -/
def hasListener (s : State) (e : Bytes) : List Nat → Res Bool
  | [] => .ok false
  | a :: r => do
    let c ← ctxAt s a
    if c.expr = e then pure true else hasListener s e r

/-- The callback thread takes up the next message (rtConnection.c:1803-1829). -/
def look (c : Conn) : Res (Conn × Msg) :=
  match c.hand, c.queue with
  | none, m :: q => .ok ({ c with queue := q, hand := some (m, Dispatch.lookup m.control c.slots) }, m)
  | _, _ => .fail

/-- The callback is called (rtConnection.c:1831-1841, rbus_message.c:73-101): the context is read. -/
def call (s : State) (c : Conn) : Res Out :=
  match c.hand with
  | some (m, none) => .ok (.ignored m)
  | some (m, some 0) => .ok (.own m)
  | some (m, some (a + 1)) => do
    let x ← ctxAt s a
    pure (.called x.handler x.user m)
  | none => .fail

/-- One step. `fail`: the callback thread is not at that place. -/
def step (s : State) : Op → Res (State × Out)
  | .add e h u id => .ok (addListener s e h u id)
  | .remove e id => removeListener s e id
  | .removeAll => do
    let s' ← removeEach s s.vec
    pure (s', .success)
  | .has e => do
    let b ← hasListener s e s.vec
    pure (s, .has b)
  | .addPrivate e h u id => .ok (addPrivate s e h u id)
  | .removePrivate e id => removePrivate s e id
  | .publish t b =>
    let r := enqueue s.main ((targets s t).map (fun id => ⟨id, t, b⟩))
    .ok ({ s with main := r.1 }, .queued r.2.1 r.2.2)
  | .direct m =>
    let r := enqueue s.priv [m]
    .ok ({ s with priv := r.1 }, .queued r.2.1 r.2.2)
  | .look false => do
    let (c, m) ← look s.main
    pure ({ s with main := c }, .looked m)
  | .look true => do
    let (c, m) ← look s.priv
    pure ({ s with priv := c }, .looked m)
  | .call false => do
    let o ← call s s.main
    pure ({ s with main := { s.main with hand := none } }, o)
  | .call true => do
    let o ← call s s.priv
    pure ({ s with priv := { s.priv with hand := none } }, o)

/-- A history of steps. -/
def run (s : State) : List Op → Res (State × List Out)
  | [] => .ok (s, [])
  | e :: es => do
    let (s1, o) ← step s e
    let (s2, os) ← run s1 es
    pure (s2, o :: os)

end Verif.Messages
