import Verif.Model.Routing

/-!
# Model of the router's handling of messages (src/rtmessage/rtrouted.c)

Reading messages off a socket is modelled in `Verif.Framing`; here a message arrives whole. The vector
of routes is a list, as justified by `C26_vector_is_list`. Routes (`rtRouteEntry`) and clients are
identified by numbers standing for their addresses; new ones are fresh. What cJSON makes of a payload is
given with the message (`Body`): the parser is not modelled, and neither is that it reads beyond the
payload when that is not terminated (`rtMessage_FromBytes` ignores the length). A delivery is a call of
`sendmsg`; whether it succeeds is not modelled, so the branch for `EBADF` (rtrouted.c:1449-1453), which
needs a client whose descriptor was closed without destroying it, is left out. Also left out are
encryption (WITH_SPAKE2), timing (MSG_ROUNDTRIP_TIME), traffic monitoring and logging. The handler for
`_RTROUTED.INBOX.HELLO` (rtrouted.c:833-855) is left out because the router registers no route for this
topic (rtrouted.c:1784-1789), so that it is never called.
-/

namespace Verif.Router

open Verif

/-- `rtRouteEntry` (rtrouteBase.h:65-70) with its subscription; `client` is `none` when the subscription
is NULL, which is the case for the router's own route, whose handler is `rtRouted_OnMessage`; all others
have the handler `rtRouted_ForwardMessage`. -/
structure Entry where
  ptr : Nat
  client : Option Nat
  subId : Int
  expr : Bytes
  deriving DecidableEq, Repr

/-- The part of `rtConnectedClient` used here. -/
structure Client where
  id : Nat
  inbox : Bytes
  deriving DecidableEq, Repr

/-- `gRoutingTree`, `gRoutes`, `gClients` and the next fresh address. -/
structure State where
  tree : Routing.State
  entries : List Entry
  clients : List Client
  next : Nat

/-- The part of `rtMessageHeader` used here; `flags` are those other than the three named. The lengths
of the topics are recomputed when the header is encoded. -/
structure Header where
  topic : Bytes
  reply : Bytes
  seq : Nat
  request : Bool
  response : Bool
  undeliverable : Bool
  flags : Nat
  control : Int
  deriving DecidableEq, Repr

/-- The fields of a JSON object the handlers ask for; for a text, `some none` is a field that is not a
text. -/
structure Fields where
  add : Option Int
  topic : Option (Option Bytes)
  routeId : Option Int
  expression : Option (Option Bytes)
  count : Option Int
  items : List (Option Bytes)
  command : Option (Option Bytes)
  deriving DecidableEq, Repr

/-- What `rtMessage_FromBytes` (rtMessage.c:102-134) makes of a payload: nothing, or an object. -/
inductive Body where
  | bad
  | json (f : Fields)
  deriving DecidableEq, Repr

/-- A message from a client. -/
structure Message where
  hdr : Header
  payload : Bytes
  body : Body
  deriving DecidableEq, Repr

/-- The result a client is told. -/
inductive Result where
  | tree (rc : Routing.Rc)
  | invalidArg
  deriving DecidableEq, Repr

/-- What is sent. -/
inductive Content where
  | forwarded (payload : Bytes)
  | result (r : Result)
  | advisory (connected : Bool) (inbox : Bytes)
  | components (names : List Bytes)
  | wildcard (names : Option (List Bytes))
  | elements (names : List Bytes)
  | objects (r : Option (List Nat × List Bytes))
  deriving DecidableEq, Repr

/-- A message sent to a client. -/
structure Delivery where
  client : Nat
  hdr : Header
  content : Content
  deriving DecidableEq, Repr

/-- The route at an address: freed memory is read when it is gone. -/
def entryOf (s : State) (ptr : Nat) : Res Entry :=
  match s.entries.find? (fun e => e.ptr = ptr) with
  | some e => .ok e
  | none => .ub

/-- `_RTROUTED.INBOX.SUBSCRIBE` -/
def subscribeTopic : Bytes :=
  [95, 82, 84, 82, 79, 85, 84, 69, 68, 46, 73, 78, 66, 79, 88, 46, 83, 85, 66, 83, 67, 82, 73, 66, 69]

/-- `RTM_DISCOVER_WILDCARD_DESTINATIONS`, `_RTROUTED.INBOX.QUERY` -/
def wildcardTopic : Bytes :=
  [95, 82, 84, 82, 79, 85, 84, 69, 68, 46, 73, 78, 66, 79, 88, 46, 81, 85, 69, 82, 89]

/-- `RTM_DISCOVER_REGISTERED_COMPONENTS`, `_registered_components` -/
def componentsTopic : Bytes :=
  [95, 114, 101, 103, 105, 115, 116, 101, 114, 101, 100, 95, 99, 111, 109, 112, 111, 110, 101, 110, 116, 115]

/-- `RTM_DISCOVER_OBJECT_ELEMENTS`, `_enumerate_elements` -/
def elementsTopic : Bytes :=
  [95, 101, 110, 117, 109, 101, 114, 97, 116, 101, 95, 101, 108, 101, 109, 101, 110, 116, 115]

/-- `RTM_DISCOVER_ELEMENT_OBJECTS`, `_trace_origin_object` -/
def objectsTopic : Bytes :=
  [95, 116, 114, 97, 99, 101, 95, 111, 114, 105, 103, 105, 110, 95, 111, 98, 106, 101, 99, 116]

/-- `RTROUTER_DIAG_DESTINATION`, `_RTROUTED.INBOX.DIAG` -/
def diagTopic : Bytes :=
  [95, 82, 84, 82, 79, 85, 84, 69, 68, 46, 73, 78, 66, 79, 88, 46, 68, 73, 65, 71]

/-- The topics of the router's own route (rtrouted.c:1784-1789), in order. -/
def ownTopics : List Bytes :=
  [subscribeTopic, wildcardTopic, componentsTopic, elementsTopic, objectsTopic, diagTopic]

/-- The router's own route, at address 0 (rtrouted.c:1779-1783); its expression is `_RTROUTED.>`. -/
def ownEntry : Entry := ⟨0, none, 0, [95, 82, 84, 82, 79, 85, 84, 69, 68, 46, 62]⟩

/-- The start of `main` (rtrouted.c:1777-1796). -/
def boot : Res State := do
  let r ← Routing.run Routing.init (ownTopics.map (fun t => .add t 0 false))
  pure { tree := r.1, entries := [ownEntry], clients := [], next := 1 }

/-- The loop of `rtRouted_SendMessage` (rtrouted.c:495-535) over the routes found. -/
def sendEach (s : State) (h : Header) (content : Content) (skip : Option Nat) :
    List Nat → Res (List Delivery)
  | [] => .ok []
  | p :: ps => do
    let e ← entryOf s p
    match e.client with
    | none => .ub
    | some c =>
      let rest ← sendEach s h content skip ps
      if skip = some c then pure rest
      else pure (⟨c, { h with control := e.subId }, content⟩ :: rest)

/-- `rtRouted_SendMessage` (rtrouted.c:476-546). -/
def sendMessage (s : State) (h : Header) (content : Content) (skip : Option Nat) :
    Res (List Delivery) := do
  let l ← Routing.lookup s.tree h.topic
  sendEach s h content skip l

/-- `prep_reply_header_from_request` (rtrouted.c:720-738). -/
def replyHeader (h : Header) : Header :=
  { topic := h.reply, reply := h.topic, seq := h.seq, request := false, response := true,
    undeliverable := false, flags := 0, control := 0 }

/-- The header made in `rtRouted_SendAdvisoryMessage` (rtrouted.c:1242-1244). -/
def advisoryHeader : Header :=
  { topic := Routing.advisory, reply := [], seq := 0, request := false, response := false,
    undeliverable := false, flags := 0, control := 0 }

/-- `rtRouted_SendAdvisoryMessage` (rtrouted.c:1233-1251). -/
def sendAdvisory (s : State) (c : Nat) (connected : Bool) (inbox : Bytes) : Res (List Delivery) :=
  sendMessage s advisoryHeader (.advisory connected inbox) (some c)

/-- `validate_string(ptr, RTMSG_MAX_EXPRESSION_LEN) == 0` (rtrouted.c:147-165). -/
def validString (s : Bytes) : Bool := s.length < 128 && s.all (fun b => 32 ≤ b.toNat && b.toNat ≤ 126)

/-- Whether a text contains another (`strstr`). -/
def contains (sub : Bytes) : Bytes → Bool
  | [] => sub.isEmpty
  | c :: cs => sub.isPrefixOf (c :: cs) || contains sub cs

/-- `.INBOX.` -/
def inboxMark : Bytes := [46, 73, 78, 66, 79, 88, 46]

/-- The inbox of a client. -/
def inboxOf (s : State) (c : Nat) : Bytes :=
  ((s.clients.find? (fun x => x.id = c)).map (·.inbox)).getD []

/-- `rtRouted_AddRoute` (rtrouted.c:367-379); what the tree returns is ignored. -/
def addRoute (s : State) (c : Nat) (expr : Bytes) (routeId : Int) : Res State := do
  let r ← Routing.addTopicRoute s.tree expr s.next false
  pure { s with tree := r.1, entries := s.entries ++ [⟨s.next, some c, routeId, expr⟩], next := s.next + 1 }

/-- Lines 766-789 of `rtRouted_OnMessageSubscribe`: an alias for a route the client has under this id,
or a new route; the first inbox is announced. -/
def subscribe (s : State) (c : Nat) (expr : Bytes) (routeId : Int) :
    Res (State × Result × List Delivery) :=
  match s.entries.find? (fun e => e.client = some c ∧ e.subId = routeId) with
  | some e => do
    let r ← Routing.addTopicRoute s.tree expr e.ptr true
    pure ({ s with tree := r.1 }, .tree r.2, [])
  | none => do
    let s' ← addRoute s c expr routeId
    if contains inboxMark expr = true ∧ inboxOf s' c = [] then
      let s'' := { s' with clients := s'.clients.map (fun x => if x.id = c then { x with inbox := expr } else x) }
      let ds ← sendAdvisory s'' c true expr
      pure (s'', .tree .ok, ds)
    else pure (s', .tree .ok, [])

/-- `rtRouted_ClearRoute` (rtrouted.c:422-431). -/
def clearRoute (s : State) (ptr : Nat) : State :=
  { s with tree := Routing.removeRoute s.tree ptr, entries := s.entries.filter (fun e => e.ptr ≠ ptr) }

/-- Lines 793-812: the client's own route with this expression is removed, or else whatever the tree
has under this name. -/
def unsubscribe (s : State) (c : Nat) (expr : Bytes) : Res State :=
  match s.entries.find? (fun e => e.expr = expr ∧ e.client = some c) with
  | some e => .ok (clearRoute s e.ptr)
  | none => do
    let t ← Routing.removeTopic s.tree expr
    pure { s with tree := t }

/-- Lines 757-819 of `rtRouted_OnMessageSubscribe`. -/
def subscribeBody (s : State) (c : Nat) (f : Fields) : Res (State × Result × List Delivery) :=
  match f.add, f.topic, f.routeId with
  | some a, some (some t), some r =>
    if validString t = true then
      if a = 1 then subscribe s c t r
      else do
        let s' ← unsubscribe s c t
        pure (s', .tree .ok, [])
    else .ok (s, .invalidArg, [])
  | _, _, _ => .ok (s, .invalidArg, [])

/-- `rtRouted_OnMessageSubscribe` (rtrouted.c:740-831). When the payload cannot be parsed, the message
is NULL and `rtMessage_Release` (line 820) dereferences it (rtMessage.c:620). -/
def onSubscribe (s : State) (c : Nat) (h : Header) (b : Body) : Res (State × List Delivery) :=
  match b with
  | .bad => .ub
  | .json f => do
    let r ← subscribeBody s c f
    if h.request then
      let ds ← sendMessage r.1 (replyHeader h) (.result r.2.1) none
      pure (r.1, r.2.2 ++ ds)
    else pure (r.1, r.2.2)

/-- `rtRouted_OnMessageDiscoverRegisteredComponents` (rtrouted.c:889-929). -/
def onComponents (s : State) (h : Header) : Res (List Delivery) :=
  if h.request then
    sendMessage s (replyHeader h)
      (.components ((s.entries.map (·.expr)).filter (fun x => x ≠ [] ∧ x.head? ≠ some 95))) none
  else .ok []

/-- `fullName` of a topic (rtRoutingTree.c:63-71). -/
def fullName : Routing.Path → Bytes
  | [] => []
  | [t] => t
  | t :: u :: ts => t ++ 46 :: fullName (u :: ts)

/-- `rtRouted_OnMessageDiscoverWildcardDestinations` (rtrouted.c:931-983). -/
def onWildcard (s : State) (h : Header) (b : Body) : Res (List Delivery) :=
  match b with
  | .bad => .ok []
  | .json f =>
    if h.request then
      match f.expression with
      | some (some x) =>
        if validString x then do
          let ps ← Routing.resolvePartial s.tree x
          sendMessage s (replyHeader h) (.wildcard (some (ps.map fullName))) none
        else sendMessage s (replyHeader h) (.wildcard none) none
      | _ => sendMessage s (replyHeader h) (.wildcard none) none
    else .ok []

/-- `rtRouted_OnMessageDiscoverObjectElements` (rtrouted.c:988-1060): the topics of the first route with
this expression. -/
def onElements (s : State) (h : Header) (b : Body) : Res (List Delivery) :=
  match b with
  | .bad => .ok []
  | .json f =>
    if h.request then
      match f.expression with
      | some (some x) =>
        match s.entries.find? (fun e => e.expr = x) with
        | none => sendMessage s (replyHeader h) (.elements []) none
        | some e =>
          sendMessage s (replyHeader h) (.elements ((Routing.routeTopics s.tree e.ptr).map fullName)) none
      | _ => .ok []
    else .ok []

/-- The expressions of the routes found (rtrouted.c:1098-1110). -/
def exprs (s : State) : List Nat → Res (List Bytes)
  | [] => .ok []
  | p :: ps => do
    let e ← entryOf s p
    let rest ← exprs s ps
    pure (e.expr :: rest)

/-- The loop at lines 1080-1134 over the names asked for: the numbers set and the expressions added, or
`none` when a name is not a text. -/
def traceEach (s : State) : List (Option Bytes) → Res (Option (List Nat × List Bytes))
  | [] => .ok (some ([], []))
  | none :: _ => .ok none
  | some x :: xs => do
    let l ← Routing.lookup s.tree x
    let es ← exprs s l
    let rest ← traceEach s xs
    pure (rest.map (fun r => (l.length :: r.1, es ++ r.2)))

/-- `rtRouted_OnMessageDiscoverElementObjects` (rtrouted.c:1062-1152): as many names as the count says,
those beyond the end of the list not being texts. -/
def onObjects (s : State) (h : Header) (b : Body) : Res (List Delivery) :=
  match b with
  | .bad => .ok []
  | .json f =>
    if h.request then
      match f.count with
      | some n =>
        if 0 < n then do
          let r ← traceEach s ((f.items ++ List.replicate (n.toNat - f.items.length) none).take n.toNat)
          sendMessage s (replyHeader h) (.objects r) none
        else sendMessage s (replyHeader h) (.objects none) none
      | none => sendMessage s (replyHeader h) (.objects none) none
    else .ok []

/-- `rtRouted_OnMessageDiagnostics` (rtrouted.c:1154-1230): nothing of the state here is changed, but
the result of parsing is not looked at, nor whether there is a command. What the commands do (log level,
statistics, further listeners, shutting down) is not modelled. -/
def onDiag (b : Body) : Res Unit :=
  match b with
  | .bad => .ub
  | .json f =>
    match f.command with
    | some (some _) => .ok ()
    | _ => .ub

/-- `rtRouted_OnMessage` (rtrouted.c:1333-1379). -/
def onMessage (s : State) (c : Nat) (m : Message) : Res (State × List Delivery) :=
  if m.hdr.topic = subscribeTopic then onSubscribe s c m.hdr m.body
  else if m.hdr.topic = componentsTopic then do
    let ds ← onComponents s m.hdr
    pure (s, ds)
  else if m.hdr.topic = wildcardTopic then do
    let ds ← onWildcard s m.hdr m.body
    pure (s, ds)
  else if m.hdr.topic = elementsTopic then do
    let ds ← onElements s m.hdr m.body
    pure (s, ds)
  else if m.hdr.topic = objectsTopic then do
    let ds ← onObjects s m.hdr m.body
    pure (s, ds)
  else if m.hdr.topic = diagTopic then do
    let _ ← onDiag m.body
    pure (s, [])
  else .ok (s, [])

/-- `rtRouted_ForwardMessage` (rtrouted.c:612-718). -/
def forward (e : Entry) (c : Nat) (m : Message) : Delivery :=
  ⟨c, { m.hdr with control := e.subId }, .forwarded m.payload⟩

/-- The loop of `rtRouter_DispatchMessageFromClient` (rtrouted.c:1422-1456) while the routes found are
those of clients. The router's own route occurs once among the routes of a topic, so it is not met
again; it counts as undefined here. -/
def visitRest (s : State) (m : Message) : List Nat → Res (List Delivery)
  | [] => .ok []
  | i :: is => do
    let p ← Routing.deref s.tree i
    let e ← entryOf s p
    match e.client with
    | none => .ub
    | some d =>
      let ds ← visitRest s m is
      pure (forward e d m :: ds)

/-- The same loop from the start. The router's own handler may change the list that is being gone
through: the next cell, remembered before the call (line 1429), must still be there. (That it is looked
for under the same topic again is a simplification that can only add undefined cases.) -/
def visit (s : State) (c : Nat) (m : Message) : List Nat → Res (State × List Delivery)
  | [] => .ok (s, [])
  | i :: is => do
    let p ← Routing.deref s.tree i
    let e ← entryOf s p
    match e.client with
    | some d =>
      let r ← visit s c m is
      pure (r.1, forward e d m :: r.2)
    | none =>
      let r ← onMessage s c m
      match is with
      | [] => pure r
      | x :: _ =>
        let now ← Routing.getTopicRoutes r.1.tree m.hdr.topic
        if x ∈ now then
          let ds ← visitRest r.1 m (now.dropWhile (fun y => y ≠ x))
          pure (r.1, r.2 ++ ds)
        else .ub

/-- Lines 1458-1471: the message turned around, without its payload; the buffer still holds it for
handlers that parse it. -/
def turned (m : Message) : Message :=
  { m with
    hdr := { m.hdr with topic := m.hdr.reply, request := false, response := true, undeliverable := true }
    payload := [] }

/-- `rtRouter_DispatchMessageFromClient` (rtrouted.c:1407-1481). -/
def dispatch (s : State) (c : Nat) (m : Message) : Res (State × List Delivery) := do
  let l ← Routing.getTopicRoutes s.tree m.hdr.topic
  if l ≠ [] then visit s c m l
  else if m.hdr.request then
    let l' ← Routing.getTopicRoutes s.tree m.hdr.reply
    visit s c (turned m) l'
  else pure (s, [])

/-- `rtRouted_ClearClientRoutes` (rtrouted.c:433-447): the loop over the routes present. -/
def clearAll (s : State) : List Entry → State
  | [] => s
  | e :: es => clearAll (clearRoute s e.ptr) es

/-- The end of a connection (rtrouted.c:1962-1969): the others are told, then the client's routes are
removed. -/
def disconnect (s : State) (c : Nat) : Res (State × List Delivery) := do
  let s1 := { s with clients := s.clients.filter (fun x => x.id ≠ c) }
  let ds ← sendAdvisory s1 c false (inboxOf s c)
  pure (clearAll s1 (s1.entries.filter (fun e => e.client = some c)), ds)

/-- What happens at the router; clients are numbered anew. -/
inductive Event where
  | connect (c : Nat)
  | message (c : Nat) (m : Message)
  | disconnect (c : Nat)
  deriving DecidableEq, Repr

/-- One event (the main loop, rtrouted.c:1906-1975; accepting a client, rtrouted.c:1645-1690). -/
def step (s : State) : Event → Res (State × List Delivery)
  | .connect c => .ok ({ s with clients := s.clients ++ [⟨c, []⟩] }, [])
  | .message c m => dispatch s c m
  | .disconnect c => disconnect s c

/-- A history of events, with what is sent at each. -/
def run (s : State) : List Event → Res (State × List (List Delivery))
  | [] => .ok (s, [])
  | e :: es => do
    let r ← step s e
    let rest ← run r.1 es
    pure (rest.1, r.2 :: rest.2)

end Verif.Router
