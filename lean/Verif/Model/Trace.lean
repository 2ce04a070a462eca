import Verif.Model.Message

/-!
# Model of the trace context (OpenTelemetry) of threads and requests

rbuscore.c:48-62, 424-510, 1111-1137, 2354-2432, 2727-2757; rbus.c:6036-6118, 6142-6206, 6459-6524.

Threads of all processes have one numbering; messages are numbered in the order in which they are sent.
-/

namespace Verif.Trace

open Verif Verif.Message

/-- `RBUS_OPEN_TELEMETRY_DATA_MAX` (rbuscore.h:33). -/
def capacity : Nat := 512

/-- `rbusOpenTelemetryContext` (rbuscore.c:48-52): two arrays of `capacity` bytes. -/
structure Ctx where
  parent : Bytes
  state : Bytes
  deriving DecidableEq, Repr

/-- A context just allocated (rbuscore.c:2360-2369), both arrays cleared. Simplified: `malloc` succeeds. -/
def fresh : Ctx := ⟨List.replicate capacity 0, List.replicate capacity 0⟩

/-- What threads have stored under the key (rbuscore.c:54-61), and the messages sent so far. -/
structure State where
  ctx : Nat → Option Ctx
  sent : List Bytes

/-- Before any thread did anything (rbuscore.c:54-61). -/
def start : State := ⟨fun _ => none, []⟩

/-- `a[i] = b`. -/
def poke (a : Bytes) (i : Nat) (b : UInt8) : Res Bytes :=
  if i < a.length then .ok (a.set i b) else .ub

/-- What `strlen`, `strncpy` and the like see in an array. -/
def cstr (a : Bytes) : Res Bytes :=
  if a.contains 0 then .ok (a.takeWhile (· ≠ 0)) else .ub

/-- `memset(a, 0, sizeof a); strncpy(a, s, strlen(s))` (rbuscore.c:2408-2409, 2423-2424). -/
def copyIn (a s : Bytes) : Res Bytes :=
  if s.length ≤ a.length then .ok (s ++ List.replicate (a.length - s.length) 0) else .ub

/-- One half of `rbus_setOpenTelemetryContext` (rbuscore.c:2403-2416, 2418-2431). -/
def put (a : Bytes) : Option Bytes → Res Bytes
  | none => poke a 0 0
  | some s =>
    if 0 < s.length ∧ s.length < capacity - 1 then do
      let a ← copyIn a s
      poke a (s.length + 1) 0
    else poke a 0 0

/-- `rbus_getOpenTelemetryContextFromThreadLocal` (rbuscore.c:2354-2372). -/
def own (s : State) (t : Nat) : Ctx := (s.ctx t).getD fresh

/-- `pthread_setspecific`, or a write to the context that is stored there (rbuscore.c:2367, 2385-2386). -/
def State.keep (s : State) (t : Nat) (c : Option Ctx) : State :=
  ⟨fun u => if u = t then c else s.ctx u, s.sent⟩

/-- `rbus_setOpenTelemetryContext` (rbuscore.c:2399-2432). -/
def setContext (s : State) (t : Nat) (parent state : Option Bytes) : Res State := do
  let c := own s t
  let p ← put c.parent parent
  let q ← put c.state state
  pure (s.keep t (some ⟨p, q⟩))

/-- `rbus_clearOpenTelemetryContext` (rbuscore.c:2382-2387). -/
def clearContext (s : State) (t : Nat) : Res State := do
  let c := own s t
  let p ← poke c.parent 0 0
  let q ← poke c.state 0 0
  pure (s.keep t (some ⟨p, q⟩))

/-- `rbus_getOpenTelemetryContext` (rbuscore.c:2374-2380): pointers into the context; here what is there as strings. -/
def getContext (s : State) (t : Nat) : Res (Bytes × Bytes) := do
  let c := own s t
  let p ← cstr c.parent
  let q ← cstr c.state
  pure (p, q)

/-- One half of `rbusHandle_GetTraceContextAsString` (rbus.c:6499-6509, 6511-6521): the string the caller finds in its array
of `len` bytes. `len - 1 < 0` becomes a huge `size_t`, and `strncpy` fills that many bytes. The array is taken to be
as long as the caller says. -/
def copyOut (s : Bytes) (len : Int) : Res Bytes :=
  if len ≤ 0 then .ub else .ok (s.take (min s.length (len - 1).toNat))

/-- `copyOut`, when the caller gives an array (rbus.c:6499, 6511). -/
def copyOut? (s : Bytes) : Option Int → Res (Option Bytes)
  | none => .ok none
  | some len => do
    let x ← copyOut s len
    pure (some x)

/-- What happens. `handle` is whether the caller gives one (else RBUS_ERROR_INVALID_HANDLE, rbus.c:6462, 6475, 6490). -/
inductive Event where
  /-- `rbusHandle_SetTraceContextFromString` (rbus.c:6470-6481). -/
  | set (t : Nat) (handle : Bool) (parent state : Option Bytes)
  /-- `rbusHandle_ClearTraceContext` (rbus.c:6459-6468). -/
  | clear (t : Nat) (handle : Bool)
  /-- `rbusHandle_GetTraceContextAsString` (rbus.c:6483-6524) with the lengths of the arrays given. -/
  | get (t : Nat) (handle : Bool) (parent state : Option Int)
  /-- Any request of the API that waits for its answer: `rbus_invokeRemoteMethod2` (rbuscore.c:1111-1139). -/
  | request (t : Nat) (method body : Bytes)
  /-- `rbusMethod_InvokeAsync` (rbus.c:6167-6206) by `t`, and the request by the thread `u` it creates
  (`rbusMethod_InvokeAsyncThreadFunc`, rbus.c:6142-6164). -/
  | invokeAsync (t u : Nat) (method body : Bytes)
  /-- `dispatch_method_call` (rbuscore.c:475-486) by `t` with message `k`, up to the call of the handler. -/
  | deliver (t k : Nat)
  /-- The rest of `dispatch_method_call` (rbuscore.c:500-510): `later` if the handler returned RBUSCORE_SUCCESS_ASYNC. -/
  | answered (t : Nat) (later : Bool)
  /-- `_onDirectMessage` (rbuscore.c:2727-2757) by `t` with message `k`: a request through a private connection, up to the
  call of the handler. -/
  | direct (t k : Nat)
  /-- `rbus_closeBrokerConnection` (rbuscore.c:661-695) by `t`, the connection not being used by others:
  `rbus_releaseOpenTelemetryContext` (rbuscore.c:2389-2397). -/
  | close (t : Nat)
  /-- The thread ends: the key's destructor frees its context (rbuscore.c:60). -/
  | exit (t : Nat)
  deriving DecidableEq, Repr

/-- What the caller, or the other end, gets. -/
inductive Out where
  /-- Nothing but the end of the call. -/
  | silent
  /-- RBUS_ERROR_SUCCESS, with the strings found in the arrays given. -/
  | success (parent state : Option Bytes)
  /-- RBUS_ERROR_INVALID_HANDLE. -/
  | invalidHandle
  /-- The message sent. -/
  | message (m : Bytes)
  deriving DecidableEq, Repr

/-- `rbus_invokeRemoteMethod2` (rbuscore.c:1131-1139) up to the sending. -/
def send (s : State) (t : Nat) (method body : Bytes) : Res (State × Out) := do
  let (p, q) ← getContext s t
  let m := setMeta body method p q
  pure (⟨s.ctx, s.sent ++ [m]⟩, .message m)

/-- The three strings of a message that arrives (`_rbusMessage_GetMetaInfo`, rbuscore.c:485, 2741). `fail` if there is no such
message. -/
def arriving (s : State) (k : Nat) : Res (Bytes × Bytes) :=
  match s.sent[k]? with
  | none => .fail
  | some m => do
    let ((_, p, q), _) ← getMeta m 0
    pure (p, q)

/-- One event; see `Event` for the lines. -/
def step (s : State) : Event → Res (State × Out)
  | .set t handle p q =>
    if handle then do
      let s ← setContext s t p q
      pure (s, .success none none)
    else .ok (s, .invalidHandle)
  | .clear t handle =>
    if handle then do
      let s ← clearContext s t
      pure (s, .success none none)
    else .ok (s, .invalidHandle)
  | .get t handle lp lq =>
    if handle then do
      let (p, q) ← getContext s t
      let p ← copyOut? p lp
      let q ← copyOut? q lq
      pure (s, .success p q)
    else .ok (s, .invalidHandle)
  | .request t method body => send s t method body
  | .invokeAsync _ u method body => send (s.keep u none) u method body
  | .deliver t k => do
    let (p, q) ← arriving s k
    let s ← setContext s t (some p) (some q)
    pure (s, .silent)
  | .answered t later =>
    if later then .ok (s, .silent) else do
      let s ← clearContext s t
      pure (s, .silent)
  | .direct _ k => do
    let _ ← arriving s k
    pure (s, .silent)
  | .close t => .ok (s.keep t none, .silent)
  | .exit t => .ok (s.keep t none, .silent)

/-- Events in order. -/
def run (s : State) : List Event → Res (State × List Out)
  | [] => .ok (s, [])
  | e :: es => do
    let (s1, o) ← step s e
    let (s2, os) ← run s1 es
    pure (s2, o :: os)

end Verif.Trace
