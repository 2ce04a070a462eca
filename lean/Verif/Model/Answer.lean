import Verif.Model.Base

/-!
# Model of answering calls (src/core/rbuscore.c, src/rbus/rbus.c)

The callback thread of the connection calls `onMessage` for every message that arrived for a registered object; a
callback in which `onMessage` is called again would queue the inner call. (In the repository nothing calls it
again: reading from the connection only queues messages for the callback thread. The code for it is modelled all
the same.) The callback answers, or leaves the answer to a later `rbusMethod_SendAsyncResponse` from any thread.
What the messages contain is not modelled: a response is named by a number.
-/

namespace Verif.Answer

/-- A message for an object: which one it is, whether its sender waits for a response
(`rtMessageHeader_IsRequest`, rtMessageHeader.h), the object it is for, whether the object has an entry for its
method in its own table (rbuscore.c:490-494), and otherwise whether it is a method call for a registered handler
(rbus.c:2457-2494), for which an asynchronous handle is made. -/
structure Call where
  id : Nat
  request : Bool
  obj : Nat
  inTable : Bool
  rpc : Bool
  deriving DecidableEq, Repr

/-- How a callback ends: with a response, without one, or with the promise of one (`RBUSCORE_SUCCESS_ASYNC`,
rbuscore.c:503; `RBUS_ERROR_ASYNC_RESPONSE`, rbus.c:2500). -/
inductive Ret where
  | answer (r : Nat)
  | silent
  | later
  deriving DecidableEq, Repr

/-- What is seen outside: a callback is called, with an asynchronous handle if one was made; a response is sent. -/
inductive Effect where
  | invoked (c : Call) (handle : Option Nat)
  | sent (c : Call) (r : Nat)
  deriving DecidableEq, Repr

/-- The callback that is running with its handle, `g_queued_requests` (rbuscore.c:331), the objects destroyed by
`rbus_unregisterObj` (953-985), the asynchronous handles in memory with the header they contain
(rbus.c:2496-2497), and the number of handles made so far. -/
structure State where
  running : Option (Call × Option Nat)
  queue : List Call
  gone : List Nat
  handles : List (Nat × Call)
  made : Nat
  deriving DecidableEq, Repr

/-- Before the first message. -/
def State.init : State := { running := none, queue := [], gone := [], handles := [], made := 0 }

/-- The response made up for a callback that gave none, `RBUSCORE_ERROR_UNSUPPORTED_METHOD` (rbuscore.c:2336-2341). -/
def unsupported : Nat := 0

/-- `rbus_sendResponse` (rbuscore.c:2327-2352): only to one who waits. That sending may fail is not modelled. -/
def send (c : Call) (r : Option Nat) : List Effect := if c.request then [.sent c (r.getD unsupported)] else []

/-- The first part of `dispatch_method_call` (rbuscore.c:475-503), up to the call of the callback: the object is read,
and `_method_callback_handler` makes a handle (rbus.c:2496-2497). -/
def start (s : State) (c : Call) : Res (State × List Effect) :=
  if c.obj ∈ s.gone then .ub
  else if c.rpc ∧ ¬ c.inTable then
    .ok ({ s with running := some (c, some s.made), handles := s.handles ++ [(s.made, c)], made := s.made + 1 },
      [.invoked c (some s.made)])
  else .ok ({ s with running := some (c, none) }, [.invoked c none])

/-- The rest of it after the callback returned (rbus.c:2500-2518: the handle is freed unless the answer is to come
later; rbuscore.c:496-509: the answer of an entry of the table is sent in any case, as its return value is ignored). -/
def finish (s : State) (c : Call) (h : Option Nat) (r : Ret) : Res (State × List Effect) :=
  match h, r with
  | some h, .answer r =>
    if (s.handles.find? fun x => x.1 = h).isSome then
      .ok ({ s with running := none, handles := s.handles.filter fun x => x.1 ≠ h }, send c (some r))
    else .ub
  | some h, .silent =>
    if (s.handles.find? fun x => x.1 = h).isSome then
      .ok ({ s with running := none, handles := s.handles.filter fun x => x.1 ≠ h }, send c none)
    else .ub
  | some _, .later => .ok ({ s with running := none }, [])
  | none, .answer r => .ok ({ s with running := none }, send c (some r))
  | none, .silent => .ok ({ s with running := none }, send c none)
  | none, .later => .ok ({ s with running := none }, if c.inTable then send c none else [])

/-- What can happen: `onMessage` is called, the running callback returns, `rbusMethod_SendAsyncResponse`
(rbus.c:6207-6238) is called with a handle, an object is unregistered. -/
inductive Op where
  | enter (c : Call)
  | back (r : Ret)
  | respond (h : Nat) (r : Nat)
  | unregister (o : Nat)
  deriving DecidableEq, Repr

/-- `onMessage` (rbuscore.c:512-546): called within a callback it queues the call, and releases its message at the end
(544) although the queue has no reference of its own (260-266). When the outer callback has returned, the queued calls
are dispatched (532-541), which reads their messages (485): undefined. `fail`: this cannot happen now. -/
def step (s : State) : Op → Res (State × List Effect)
  | .enter c =>
    match s.running with
    | none => start s c
    | some _ => .ok ({ s with queue := s.queue ++ [c] }, [])
  | .back r =>
    match s.running with
    | none => .fail
    | some (c, h) => do
      let (s, out) ← finish s c h r
      match s.queue with
      | [] => .ok (s, out)
      | _ :: _ => .ub
  | .respond h r =>
    match s.handles.find? fun x => x.1 = h with
    | some x => .ok ({ s with handles := s.handles.filter fun y => y.1 ≠ h }, send x.2 (some r))
    | none => .ub
  | .unregister o => .ok ({ s with gone := s.gone ++ [o] }, [])

/-- Several. -/
def run (s : State) : List Op → Res (State × List (List Effect))
  | [] => .ok (s, [])
  | op :: ops => do
    let (s, o) ← step s op
    let (s, os) ← run s ops
    pure (s, o :: os)

/-- `_onDirectMessage` (rbuscore.c:2727-2775), for a message over a direct connection: `found` says whether the element
is in the list of direct connections. `response` is not initialised (2741) and is used whatever the callback
returned (2748-2757). -/
def direct (found : Bool) (r : Ret) : Res Nat :=
  if found then
    match r with
    | .answer r => .ok r
    | .silent => .ub
    | .later => .ub
  else .ok unsupported

end Verif.Answer
