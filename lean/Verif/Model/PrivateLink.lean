import Verif.Model.Base

/-!
# Model of private connections, consumer's side (src/core/rbuscore.c, src/rbus/rbus.c)

A consumer opens a parameter for private use: it asks the provider through the router, connects to the
address it is told, and from then on sends requests about that parameter over the private connection.
Parameters of one provider share a connection.

Parameters, providers, connections and handles are numbers. The list of open parameters is
`gListOfClientDirectDMLs`, guarded by `g_directCliMutex`; a step is one section under that mutex, or what
happens outside it. Names are compared up to 160 characters and copied with `strcpy` (rbuscore.c:2990-2991);
longer ones are left out. Raw-data listeners that move between connections (rbus.c:337-406) are left out,
and so is the counting of handles for the router's notices (rbus.c:3077, 3109-3113, 3140-3148): a notice
comes as an event of its own.
-/

namespace Verif.PrivateLink

/-- `rbusClientDMLList_t` (rbuscore.c:2452-2458): an open parameter, its provider, the connection. -/
structure Entry where
  param : Nat
  provider : Nat
  conn : Nat
  deriving DecidableEq, Repr

/-- A handle made by `rbus_openDirect` (rbus.c:3099-3107): its name and its `m_connection`. -/
structure Handle where
  id : Nat
  param : Nat
  conn : Nat
  deriving DecidableEq, Repr

/-- Where a thread is between two steps. -/
inductive Place where
  | idle
  /-- in `rbus_openDirect`, having found the parameter not open (rbus.c:3088-3095) -/
  | opening (param : Nat)
  /-- in a request, having chosen a connection; `none` is the router's (rbus.c:3502-3507) -/
  | calling (conn : Option Nat)
  deriving DecidableEq, Repr

/-- The open parameters, the connections that have not been destroyed, the numbers of the next connection
and handle, the handles not yet closed, and the threads. -/
structure State where
  entries : List Entry
  live : List Nat
  nextConn : Nat
  handles : List Handle
  nextHandle : Nat
  place : Nat → Place

/-- Before anything is opened (rbuscore.c:380). -/
def init : State := ⟨[], [], 0, [], 0, fun _ => .idle⟩

inductive Event where
  /-- a thread calls `rbus_openDirect` -/
  | check (thread param : Nat)
  /-- the provider's answer, or none, and whether its address could be connected to -/
  | create (thread : Nat) (answer : Option Nat) (connects : Bool)
  /-- `rbus_closeDirect`, and whether the provider agrees -/
  | close (handle : Nat) (agrees : Bool)
  /-- the router tells that a provider has gone -/
  | gone (provider : Nat)
  /-- a request about a name begins; `none` is the ordinary handle -/
  | pick (thread : Nat) (handle : Option Nat) (name : Nat)
  /-- the request is sent and answered -/
  | use (thread : Nat)
  deriving DecidableEq, Repr

inductive Out where
  /-- the event does not apply in this state -/
  | idle
  | checked
  /-- `RBUS_ERROR_ELEMENT_NAME_DUPLICATE` -/
  | duplicate
  /-- `RBUS_ERROR_COMPONENT_DOES_NOT_EXIST` -/
  | refused
  /-- the handle, the parameter, its provider, the connection, and whether that was made just now -/
  | opened (handle param provider conn : Nat) (made : Bool)
  /-- the parameter and provider taken off the list, if any, and the connection destroyed, if any -/
  | closed (what : Option (Nat × Nat)) (destroyed : Option Nat)
  /-- the connection destroyed, if any -/
  | forgot (destroyed : Option Nat)
  /-- the connection chosen -/
  | picked (conn : Option Nat)
  /-- the connection the request went over -/
  | sent (conn : Option Nat)
  deriving DecidableEq, Repr

/-- `rtVector_Find` with `_findClientPrivateDML` (rbuscore.c:2862-2865). -/
def findParam (es : List Entry) (p : Nat) : Option Entry := es.find? (·.param == p)

/-- `rtVector_Find` with `_findClientPrivateConnection` (rbuscore.c:2857-2860). -/
def findProvider (es : List Entry) (q : Nat) : Option Entry := es.find? (·.provider == q)

/-- `rtConnection_Destroy` (rtConnection.c:697-765): undefined when it was destroyed before. -/
def destroy (s : State) (c : Nat) : Res State :=
  if c ∈ s.live then .ok { s with live := s.live.erase c } else .ub

/-- A thread moves to another place. -/
def move (s : State) (t : Nat) (p : Place) : State :=
  { s with place := fun u => if u = t then p else s.place u }

/-- The rest of `rbus_openDirect` once the list is settled: a handle for the parameter
(rbus.c:3096-3113). -/
def grant (s : State) (t p q c : Nat) (made : Bool) : State × Out :=
  (move { s with
      entries := s.entries ++ [⟨p, q, c⟩]
      handles := s.handles ++ [⟨s.nextHandle, p, c⟩]
      nextHandle := s.nextHandle + 1 } t .idle, .opened s.nextHandle p q c made)

/-- `rbuscore_openPrivateConnectionToProvider` (rbuscore.c:2945-3003) after the provider's answer to
`rbuscore_createPrivateConnection` (rbuscore.c:3005-3036), and the rest of `rbus_openDirect`. -/
def create (s : State) (t p : Nat) : Option Nat → Bool → State × Out
  | none, _ => (move s t .idle, .refused)
  | some q, connects =>
    match findProvider s.entries q with
    | some e => grant s t p q e.conn false
    | none =>
      if connects then
        grant { s with live := s.live ++ [s.nextConn], nextConn := s.nextConn + 1 } t p q s.nextConn true
      else (move s t .idle, .refused)

/-- `rbuscore_closePrivateConnection` (rbuscore.c:3038-3098), whose result `rbus_closeDirect` ignores
(rbus.c:3150-3154): the handle is freed in any case. With the provider not agreeing, the name looked for
at rbuscore.c:3085 is empty and the connection destroyed at 3089 is none. -/
def close (s : State) (k : Nat) (agrees : Bool) : Res (State × Out) :=
  match s.handles.find? (·.id == k) with
  | none => .ub
  | some h =>
    let s := { s with handles := s.handles.filter (·.id != k) }
    match findParam s.entries h.param with
    | none => .ok (s, .closed none none)
    | some e =>
      if agrees then
        let s := { s with entries := s.entries.erase e }
        match findProvider s.entries e.provider with
        | some _ => .ok (s, .closed (some (e.param, e.provider)) none)
        | none => do
          let s ← destroy s e.conn
          .ok (s, .closed (some (e.param, e.provider)) (some e.conn))
      else .ok (s, .closed none none)

/-- `rbuscore_terminatePrivateConnection` (rbuscore.c:3100-3120). -/
def gone (s : State) (q : Nat) : Res (State × Out) :=
  match findProvider s.entries q with
  | none => .ok (s, .forgot none)
  | some e => do
    let s ← destroy s e.conn
    .ok ({ s with entries := s.entries.filter (·.provider != q) }, .forgot (some e.conn))

/-- The connection for a request: `rbuscore_FindClientPrivateConnection` (rbuscore.c:2892-2909) and, when
that finds none, the handle's own (rbus.c:3502-3505, the same in 4013, 4091, 4492, 4559, 4691, 6072). -/
def pick (s : State) (t : Nat) (k : Option Nat) (name : Nat) : Res (State × Out) :=
  match k with
  | none =>
    let c := (findParam s.entries name).map (·.conn)
    .ok (move s t (.calling c), .picked c)
  | some k =>
    match s.handles.find? (·.id == k) with
    | none => .ub
    | some h =>
      let c := ((findParam s.entries name).map (·.conn)).getD h.conn
      .ok (move s t (.calling (some c)), .picked (some c))

/-- One step of one thread, or a notice of the router. -/
def step (s : State) : Event → Res (State × Out)
  | .check t p =>
    match s.place t with
    | .idle =>
      match findParam s.entries p with
      | some _ => .ok (s, .duplicate)
      | none => .ok (move s t (.opening p), .checked)
    | _ => .ok (s, .idle)
  | .create t answer connects =>
    match s.place t with
    | .opening p => .ok (create s t p answer connects)
    | _ => .ok (s, .idle)
  | .close k agrees => close s k agrees
  | .gone q => gone s q
  | .pick t k name =>
    match s.place t with
    | .idle => pick s t k name
    | _ => .ok (s, .idle)
  | .use t =>
    match s.place t with
    | .calling none => .ok (move s t .idle, .sent none)
    | .calling (some c) =>
      if c ∈ s.live then .ok (move s t .idle, .sent (some c)) else .ub
    | _ => .ok (s, .idle)

/-- A run of steps. -/
def run (s : State) : List Event → Res (State × List Out)
  | [] => .ok (s, [])
  | e :: es => do
    let (s1, o) ← step s e
    let (s2, os) ← run s1 es
    pure (s2, o :: os)

/-- One round of the inner loop of `_rbuscore_destroy_clientPrivate_connections` (rbuscore.c:2880-2883):
the first entry of that provider is taken off, if there is one. -/
def sweepOnce (es : List Entry) (q : Nat) : List Entry := es.eraseP (·.provider == q)

/-- The inner loop, given so many rounds: what is left when it ends, or `none` when they are used up. -/
def sweep : Nat → List Entry → Nat → Option (List Entry)
  | 0, _, _ => none
  | _ + 1, [], _ => some []
  | n + 1, e :: es, q => sweep n (sweepOnce (e :: es) q) q

/-- `_rbuscore_destroy_clientPrivate_connections` (rbuscore.c:2867-2890), called by the last `rbus_close`,
given so many rounds for each loop: the connections it destroys. -/
def destroyAll (rounds : Nat) : Nat → List Entry → Option (List Nat)
  | 0, _ => none
  | _ + 1, [] => some []
  | n + 1, e :: es => do
    let left ← sweep rounds es e.provider
    let cs ← destroyAll rounds n left
    pure (e.conn :: cs)

end Verif.PrivateLink
