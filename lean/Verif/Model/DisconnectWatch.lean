import Verif.Model.Base

/-!
# Model of how a process learns that another one is gone (src/rbus/rbus.c, src/core/rbuscore.c)

When a connection ends, the router sends a notice to whoever listens to `_RTROUTED.ADVISORY`
(rtrouted.c:1233-1251, 1966). On such a notice a process drops the subscriptions of the one that is gone
(rbus_handle.c:105-129), see `Verif.Model.Registry`. Here is modelled when a process listens.

Handles and direct handles are numbers; new ones are neither in use nor referred to. `sDisConnHandler` (rbus.c:3077) is a `Nat`; that it
wraps at 2^32 open direct handles is left out. One thread at a time. A process has a connection as long as a
handle is open (rbuscore.c:628-634, rbus.c:3242-3261). Removing the other listeners when a handle is closed is left
to events of its own. The router is taken to do at once what it is asked.
-/

namespace Verif.DisconnectWatch

open Verif

/-- `struct _rtListener` in use (rtConnection.c:90-98): its number, and whether its callback is
`rtrouted_advisory_callback`. -/
structure Slot where
  id : Nat
  advisory : Bool
  deriving DecidableEq, Repr

/-- `con->listeners` (rtConnection.c:112). -/
abbrev Slots := List (Option Slot)

/-- The listeners of a new connection: `RTMSG_LISTENERS_MAX` free ones (rtConnection.c:63, 543-550). -/
def noSlots : Slots := List.replicate 128 none

/-- The first free place is taken; `none` when there is none (rtConnection.c:1251-1268). -/
def put (x : Slot) : Slots → Option Slots
  | [] => none
  | none :: r => some (some x :: r)
  | some y :: r => (put x r).map (some y :: ·)

/-- The first listener with a number is freed; `none` when there is none (rtConnection.c:1331-1348). -/
def drop (id : Nat) : Slots → Option Slots
  | [] => none
  | none :: r => (drop id r).map (none :: ·)
  | some y :: r => if y.id = id then some (none :: r) else (drop id r).map (some y :: ·)

/-- The listener a message with a number goes to: the first with it (rtConnection.c:1818-1829). -/
def who (id : Nat) : Slots → Option Slot
  | [] => none
  | none :: r => who id r
  | some y :: r => if y.id = id then some y else who id r

/-- `RBUS_ADVISORY_EXPRESSION_ID` (rbuscore.h:34). -/
def advisoryId : Nat := 2

/-- The open handles; the open direct handles, each with the handle it was made from
(`tmpHandle->eventSubs`, rbus.c:3103); the listeners of the connection; whether the router has been asked for
notices; `g_advisory_listener_installed` and whether `g_client_disconnect_callback` is set (rbuscore.c:334-335);
`sDisConnHandler` (rbus.c:3077). -/
structure State where
  mains : List Nat
  directs : List (Nat × Nat)
  slots : Slots
  routed : Bool
  installed : Bool
  callback : Bool
  count : Nat
  deriving DecidableEq, Repr

/-- A process that has just started. -/
def init : State := ⟨[], [], noSlots, false, false, false, 0⟩

/-- What `rtMessage_FromBytes` (rtMessage.c:102-134) makes of a notice: nothing, or an object, perhaps with
the number `event` and with `inbox`, which is a text or something else. -/
inductive Notice where
  | bad
  | json (event : Option Int) (inbox : Option (Option Bytes))
  deriving DecidableEq, Repr

/-- The notice the router sends when a client is gone (rtrouted.c:1239-1241, `rtAdviseClientDisconnect`,
rtAdvisory.h:30-34). -/
def Notice.gone (inbox : Bytes) : Notice := .json (some 1) (some (some inbox))

inductive Event where
  /-- `rbus_open` -/
  | openBus (handle : Nat)
  /-- `rbus_open` that fails after connecting (rbus.c:3046-3056) -/
  | openFails
  /-- `rbus_close` -/
  | closeBus (handle : Nat)
  /-- `rbus_regDataElements` -/
  | register (handle : Nat)
  /-- `rbus_openDirect`, and whether the private connection could be made -/
  | openDirect (direct handle : Nat) (made : Bool)
  /-- `rbus_closeDirect` -/
  | closeDirect (direct : Nat)
  /-- another listener is added to the connection; for raw data the number is the subscription's, which the
  provider chooses, counting from 1 (rbus_message.c:181, rbus.c:5324) -/
  | listen (id : Nat)
  /-- such a listener is removed -/
  | unlisten (id : Nat)
  /-- a message comes to the advisory topic -/
  | notice (n : Notice)
  deriving DecidableEq, Repr

inductive Out where
  | done
  | refused
  /-- `_client_disconnect_callback_handler` was called with this name, or not called to any effect -/
  | told (inbox : Option Bytes)
  /-- another listener's callback was called -/
  | misled
  deriving DecidableEq, Repr

/-- `rbus_registerClientDisconnectHandler` (rbuscore.c:1783-1804). -/
def registerHandler (s : State) : State :=
  if s.installed then s else
  match put ⟨advisoryId, true⟩ s.slots with
  | none => s
  | some l => { s with slots := l, routed := true, installed := true, callback := true }

/-- `rbus_unregisterClientDisconnectHandler` (rbuscore.c:1806-1816); the router is told only if a listener
was found (rtConnection.c:1347-1356). -/
def unregisterHandler (s : State) : State :=
  if s.installed then
    match drop advisoryId s.slots with
    | none => { s with installed := false }
    | some l => { s with slots := l, routed := false, installed := false }
  else s

/-- A connection with its first listener (rtConnection.c:613), unless there is one (rbuscore.c:628-634). -/
def connect (s : State) : State :=
  if s.mains = [] then { s with slots := (put ⟨1, false⟩ noSlots).getD [] } else s

/-- `rbus_closeBrokerConnection` (rbuscore.c:661-695): nothing is done about `g_advisory_listener_installed`. -/
def disconnect (s : State) : State := { s with slots := noSlots, routed := false }

/-- `rbus_close` (rbus.c:3163-3272); the call at 3247-3254 is not compiled. Closing a handle that is not open
is undefined. -/
def closeBus (s : State) (m : Nat) : Res (State × Out) :=
  if m ∈ s.mains then
    let s := { s with mains := s.mains.filter (· != m) }
    .ok (if s.mains = [] then disconnect s else s, .done)
  else .ub

/-- `rbus_openDirect` (rbus.c:3079-3128); what the registration returns is ignored. -/
def openDirect (s : State) (d m : Nat) (made : Bool) : Res (State × Out) :=
  if d ∈ s.directs.map (·.1) then .fail
  else if m ∉ s.mains then .ub
  else if made then
    let s := { s with directs := s.directs ++ [(d, m)] }
    let s := if s.count = 0 then registerHandler s else s
    .ok ({ s with count := s.count + 1 }, .done)
  else .ok (s, .refused)

/-- `rbus_closeDirect` (rbus.c:3130-3161). The list of subscriptions it reads (rbus.c:3149) was freed if the
handle it was made from has been closed (rbus.c:3202). -/
def closeDirect (s : State) (d : Nat) : Res (State × Out) :=
  match s.directs.find? (·.1 == d) with
  | none => .ub
  | some x =>
    if x.2 ∈ s.mains then
      let s := if s.count = 1 then unregisterHandler s else s
      .ok ({ s with count := s.count - 1, directs := s.directs.erase x }, .done)
    else .ub

/-- `rtrouted_advisory_callback` (rbuscore.c:1293-1328) and what it calls (rbus.c:1355-1360,
rbus_handle.c:105-109). A notice that is no JSON leaves `msg` NULL, and `msg->json` is read (rtMessage.c:371). That NULL
may be given to the logger at rbuscore.c:1311 is left out. -/
def advisoryCallback (s : State) : Notice → Res Out
  | .bad => if s.callback then .ub else .ok (.told none)
  | .json event inbox =>
    if s.callback ∧ event = some 1 then .ok (.told (inbox.getD none)) else .ok (.told none)

/-- A message to the advisory topic arrives, if the router has been asked for them (rtConnection.c:1818-1829). -/
def deliver (s : State) (n : Notice) : Res Out :=
  if s.routed then
    match who advisoryId s.slots with
    | none => .ok (.told none)
    | some x => if x.advisory then advisoryCallback s n else .ok .misled
  else .ok (.told none)

/-- One event. In `rbus_regDataElements` the registration is not compiled (rbus.c:3361-3372). -/
def step (s : State) : Event → Res (State × Out)
  | .openBus m => if m ∈ s.mains ∨ m ∈ s.directs.map (·.2) then .fail else
      .ok ({ connect s with mains := s.mains ++ [m] }, .done)
  | .openFails =>
      .ok (if s.mains = [] then disconnect (unregisterHandler (connect s)) else s, .refused)
  | .closeBus m => closeBus s m
  | .register m => if m ∈ s.mains then .ok (s, .done) else .ub
  | .openDirect d m made => openDirect s d m made
  | .closeDirect d => closeDirect s d
  | .listen id =>
      if s.mains = [] then .fail else
      match put ⟨id, false⟩ s.slots with
      | none => .ok (s, .refused)
      | some l => .ok ({ s with slots := l }, .done)
  | .unlisten id =>
      if some ⟨id, false⟩ ∈ s.slots then
        match drop id s.slots with
        | none => .fail
        | some l => .ok ({ s with slots := l }, .done)
      else .fail
  | .notice n => do
      let o ← deliver s n
      pure (s, o)

/-- Several events. -/
def run (s : State) : List Event → Res (State × List Out)
  | [] => .ok (s, [])
  | e :: es => do
    let (s1, o) ← step s e
    let (s2, os) ← run s1 es
    pure (s2, o :: os)

end Verif.DisconnectWatch
