import Verif.Model.Base

/-!
# Model of private connections, provider's side (src/core/rbuscore.c, src/rtmessage/rtrouteBase.c)

A provider asked to open a parameter for a consumer starts a thread that listens at an address made for
that consumer, and remembers the parameter. The consumer connects there and tells its name; from then on
requests come, and events about the parameter go, over that connection.

Consumers, parameters, addresses and descriptors are numbers. The list is `gListOfServerDirectDMLs`,
guarded by `g_directServMutex`. That mutex checks for errors (rbuscore.c:619-622), so that unlocking it a
second time does nothing; a step is what happens between taking and first releasing it. Looking for
the entry to close happens without it (rbuscore.c:2678-2687); here that is one step with the removal. The
cache file (rbuscore.c:2478-2632) is left out, and so are reading messages (`Verif.Framing`) and the
contents of requests.
-/

namespace Verif.PrivateServer

/-- `rbusServerDMLList_t` (rbuscore.c:2430-2443). `id` stands for the memory the entry is in; `fd` is
`m_consumerInfo.clientFD`, with `none` for the zeros it starts with. -/
structure Entry where
  id : Nat
  addr : Nat
  consumer : Nat
  param : Nat
  fd : Option Nat
  deriving DecidableEq, Repr

/-- A thread of `rbuscore_PrivateThreadFunc`: not yet listening (rbuscore.c:2708), or listening with the
descriptor of `myDirectClient`, if any. -/
inductive Phase where
  | starting
  | listening (client : Option Nat)
  deriving DecidableEq, Repr

structure Instance where
  id : Nat
  addr : Nat
  phase : Phase
  deriving DecidableEq, Repr

/-- Where a thread is between two steps. -/
inductive Place where
  | idle
  /-- has found the entry to send an event to, and released the mutex (rbuscore.c:2655, 1826, 1857) -/
  | sending (entry : Nat)
  /-- has found the entry for a request and released the mutex (rbuscore.c:2746-2748) -/
  | answering (entry : Nat)
  deriving DecidableEq, Repr

/-- The list, the next entry and instance, the threads listening, the addresses in use, the next
descriptor, and the other threads. -/
structure State where
  entries : List Entry
  nextEntry : Nat
  instances : List Instance
  nextInstance : Nat
  bound : List Nat
  nextFd : Nat
  place : Nat → Place

/-- Before anything is opened. Descriptors begin after the standard ones. -/
def init : State := ⟨[], 0, [], 0, [], 3, fun _ => .idle⟩

inductive Event where
  /-- a consumer asks to open a parameter; the address is made of the consumer's name, or at random -/
  | «open» (consumer param addr : Nat)
  | close (consumer param : Nat)
  /-- a listening thread gets to binding its address -/
  | bind (inst : Nat)
  /-- somebody connects to a listening thread -/
  | connect (inst : Nat)
  /-- the client of a listening thread tells it is this consumer -/
  | register (inst consumer : Nat)
  /-- the client of a listening thread goes -/
  | hangup (inst : Nat)
  /-- a request arrives on a descriptor; it is handled by a thread with the number of the instance -/
  | ask (inst fd param : Nat)
  | answer (inst : Nat)
  /-- a thread of the application publishes an event to one consumer -/
  | publish (thread consumer param : Nat)
  | send (thread : Nat)
  deriving DecidableEq, Repr

inductive Out where
  /-- the event does not apply in this state -/
  | idle
  | opened
  | closed
  | notOpen
  | listening
  /-- the thread has ended, and its address with it -/
  | ended (addr : Nat)
  | connected (fd : Nat)
  | registered (fd : Nat)
  /-- nobody reads that descriptor -/
  | unread
  | asked
  | unsupported
  | answered
  /-- the event is left to the router -/
  | routed
  | privately
  /-- sent to a descriptor; `none` is the provider's standard input, number 0 -/
  | sent (fd : Option Nat)
  deriving DecidableEq, Repr

/-- `rbuscore_FindServerPrivateClient` (rbuscore.c:2640-2663). -/
def find (es : List Entry) (consumer param : Nat) : Option Entry :=
  es.find? (fun e => e.param == param && e.consumer == consumer)

/-- `rbuscore_startPrivateListener` (rbuscore.c:2801-2852). -/
def startListener (s : State) (consumer param addr : Nat) : State :=
  match s.entries.find? (·.addr == addr) with
  | none =>
    { s with
      instances := s.instances ++ [⟨s.nextInstance, addr, .starting⟩]
      nextInstance := s.nextInstance + 1
      entries := s.entries ++ [⟨s.nextEntry, addr, consumer, param, none⟩]
      nextEntry := s.nextEntry + 1 }
  | some e =>
    { s with
      entries := s.entries ++ [⟨s.nextEntry, addr, consumer, param, e.fd⟩]
      nextEntry := s.nextEntry + 1 }

/-- `rbuscore_updatePrivateListener` (rbuscore.c:2678-2702), which `_close_direct_connection_callback_handler`
reports as success in any case (rbus.c:2834-2838). -/
def closeParam (s : State) (consumer param : Nat) : State × Out :=
  match find s.entries consumer param with
  | some e => ({ s with entries := s.entries.filter (·.id != e.id) }, .closed)
  | none => (s, .notOpen)

/-- The end of a listening thread: the address is freed (rtrouteBase.c:594-600, 656-661) and every entry
with that address is (rbuscore.c:2712-2721). -/
def finish (s : State) (i : Instance) : State × Out :=
  ({ s with
      instances := s.instances.filter (·.id != i.id)
      bound := s.bound.filter (· != i.addr)
      entries := s.entries.filter (·.addr != i.addr) }, .ended i.addr)

/-- An instance by number. -/
def inst (s : State) (i : Nat) : Option Instance := s.instances.find? (·.id == i)

/-- Changes the phase of an instance. -/
def setPhase (s : State) (i : Nat) (p : Phase) : State :=
  { s with instances := s.instances.map fun x => if x.id = i then { x with phase := p } else x }

/-- A thread moves to another place. -/
def move (s : State) (t : Nat) (p : Place) : State :=
  { s with place := fun u => if u = t then p else s.place u }

/-- `_onDirectMessage` for a registration (rbuscore.c:2777-2795): every entry of that consumer gets the
descriptor. -/
def tellAll (es : List Entry) (consumer fd : Nat) : List Entry :=
  es.map fun e => if e.consumer = consumer then { e with fd := some fd } else e

/-- One step. The threads that publish are even, those that listen odd. -/
def step (s : State) : Event → Res (State × Out)
  | .open consumer param addr => .ok (startListener s consumer param addr, .opened)
  | .close consumer param => .ok (closeParam s consumer param)
  | .bind i =>
    -- rtRouteBase_BindListener (rtrouteBase.c:54-149): one attempt for a socket file; an address in use
    -- is an error, after which the file is removed (rtrouteBase.c:594-600)
    match inst s i with
    | some x =>
      match x.phase with
      | .starting =>
        if x.addr ∈ s.bound then .ok (finish s x)
        else .ok ({ setPhase s i (.listening none) with bound := s.bound ++ [x.addr] }, .listening)
      | .listening _ => .ok (s, .idle)
    | none => .ok (s, .idle)
  | .connect i =>
    -- rtrouteBase.c:638-642: the new client takes the place of the one there was
    match inst s i with
    | some x =>
      match x.phase with
      | .starting => .ok (s, .idle)
      | .listening _ =>
        if x.addr ∈ s.bound then
          .ok ({ setPhase s i (.listening (some s.nextFd)) with nextFd := s.nextFd + 1 },
            .connected s.nextFd)
        else .ok (s, .idle)
    | none => .ok (s, .idle)
  | .register i consumer =>
    match inst s i with
    | some x =>
      match x.phase with
      | .listening (some fd) => .ok ({ s with entries := tellAll s.entries consumer fd }, .registered fd)
      | _ => .ok (s, .idle)
    | none => .ok (s, .idle)
  | .hangup i =>
    -- rtrouteBase.c:644-652
    match inst s i with
    | some x =>
      match x.phase with
      | .listening (some _) => .ok (finish s x)
      | _ => .ok (s, .idle)
    | none => .ok (s, .idle)
  | .ask i fd param =>
    -- rtrouteBase.c:644-646 reads the client there is; `_onDirectMessage` (rbuscore.c:2727-2760)
    match inst s i with
    | some x =>
      if x.phase = .listening (some fd) ∧ s.place (2 * i + 1) = .idle then
        match s.entries.find? (·.param == param) with
        | some e => .ok (move s (2 * i + 1) (.answering e.id), .asked)
        | none => .ok (s, .unsupported)
      else .ok (s, .unread)
    | none => .ok (s, .unread)
  | .answer i =>
    match s.place (2 * i + 1) with
    | .answering id =>
      if s.entries.any (·.id == id) then .ok (move s (2 * i + 1) .idle, .answered) else .ub
    | _ => .ok (s, .idle)
  | .publish t consumer param =>
    -- rbuscore.c:1822-1825, 1850-1853, 1860
    match s.place (2 * t) with
    | .idle =>
      match find s.entries consumer param with
      | some e => .ok (move s (2 * t) (.sending e.id), .privately)
      | none => .ok (s, .routed)
    | _ => .ok (s, .idle)
  | .send t =>
    -- `rtRouteDirect_SendMessage` (rtrouteBase.c:522-577) reads the entry it was given
    match s.place (2 * t) with
    | .sending id =>
      match s.entries.find? (·.id == id) with
      | some e => .ok (move s (2 * t) .idle, .sent e.fd)
      | none => .ub
    | _ => .ok (s, .idle)

/-- A run of steps. -/
def run (s : State) : List Event → Res (State × List Out)
  | [] => .ok (s, [])
  | e :: es => do
    let (s1, o) ← step s e
    let (s2, os) ← run s1 es
    pure (s2, o :: os)

end Verif.PrivateServer
