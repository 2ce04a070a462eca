import Verif.Model.Core

/-!
# Model of subscriptions made with the core library (src/core/rbuscore.c)

The list of subscriptions of a program that uses rbuscore.h without a master event handler
(`g_master_event_callback` NULL), together with what the providers have noted of this program: which events of which
objects they send to its inbox. The connection is open. A call to subscribe is two steps, `begin` up to sending the
request and `finish` when the answer is there, for `g_mutex` is not held in between; messages and calls of other
threads come between them. `owner` tells which object takes the requests for a name: objects take those for their own
name and for their elements.
-/

namespace Verif.CoreClient

open Verif

/-- How a request ended: the provider did it and answered so; answered with an error; the request did not arrive, with
the destination unknown to the router or without an answer; the provider did it but the answer did not arrive. -/
inductive Reply where
  | accepted
  | refused
  | unknown
  | lost
  | late
  deriving DecidableEq, Repr

/-- Did the provider do what it was asked? -/
def Reply.done : Reply → Bool
  | .accepted | .late => true
  | _ => false

/-- Results (rbuscore_types.h:25-46). -/
inductive Code where
  | success
  | general
  | invalidParam
  | entryNotFound
  | noResponse
  deriving DecidableEq, Repr

/-- A subscription (rbuscore.c:271-282): the object and its events with their callbacks. -/
structure Sub where
  object : Bytes
  events : List (Bytes × Nat)
  deriving DecidableEq, Repr

/-- The subscriptions of the program, calls that wait for an answer, and what the providers noted. -/
structure State where
  subs : List Sub
  waiting : List (Bytes × Bytes)
  listed : List (Bytes × Bytes)
  deriving DecidableEq, Repr

/-- Nothing yet. -/
def init : State := ⟨[], [], []⟩

/-- What happens: a call to subscribe, its end, a call to unsubscribe, an object publishes an event, a provider forgets
who listens (it removes the event or the object, or starts again). NULL is `none`. -/
inductive Event where
  | begin (o e : Option Bytes) (k : Option Nat)
  | finish (o e : Bytes) (r : Reply)
  | unsubscribe (o e : Option Bytes) (r : Reply)
  | publish (x e : Bytes)
  | forget (x e : Bytes)
  deriving DecidableEq, Repr

/-- What is seen: the result of a call; a request sent; a callback called; a message for which there is no subscription;
nothing sent to this program; nothing. -/
inductive Out where
  | code (c : Code)
  | requested
  | called (k : Nat)
  | dropped
  | silent
  | nothing
  deriving DecidableEq, Repr

/-- `rtVector_Find(sub->events, event_name, client_event_compare)`. -/
def Sub.callback (s : Sub) (e : Bytes) : Option Nat := (s.events.find? (fun y => y.1 == e)).map (·.2)

/-- `rtVector_Find(g_event_subscriptions_for_client, object_name, client_subscription_compare)`. -/
def getSub (l : List Sub) (o : Bytes) : Option Sub := l.find? (fun y => y.object == o)

/-- `rbus_subscribeToEventInternal` (rbuscore.c:1563-1647): the subscription is put down. -/
def addSub (l : List Sub) (o e : Bytes) (k : Nat) : List Sub :=
  match getSub l o with
  | some s => Core.updateFirst (fun y => y.object == o) (fun _ => ⟨s.object, s.events ++ [(e, k)]⟩) l
  | none => l ++ [⟨o, [(e, k)]⟩]

/-- `remove_subscription_callback` (rbuscore.c:1531-1561). -/
def removeSub (l : List Sub) (o e : Bytes) : List Sub :=
  match getSub l o with
  | none => l
  | some s =>
    match s.callback e with
    | none => l
    | some _ =>
      let events := s.events.eraseP (fun y => y.1 == e)
      if events = [] then l.eraseP (fun y => y.object == o)
      else Core.updateFirst (fun y => y.object == o) (fun _ => ⟨s.object, events⟩) l

/-- `send_subscription_request` (rbuscore.c:702-778): the result. -/
def Reply.code : Reply → Code
  | .accepted => .success
  | .refused => .general
  | .unknown => .entryNotFound
  | .lost | .late => .noResponse

/-- `rbus_subscribeToEventInternal` (rbuscore.c:1563-1647) until the request is sent. An object not given is the event;
the length of the event is taken (1590) before a NULL is replaced (1599). -/
def begin (s : State) (o e : Option Bytes) (k : Option Nat) : Res (State × Out) :=
  match o.or e, k with
  | none, _ | some _, none => .ok (s, .code .invalidParam)
  | some o, some k =>
    if Core.maxName ≤ o.length then .ok (s, .code .invalidParam)
    else
      match e with
      | none => .ub
      | some e =>
        if Core.maxName ≤ e.length then .ok (s, .code .invalidParam)
        else
          match (getSub s.subs o).bind (·.callback e) with
          | some _ => .ok (s, .code .success)
          | none => .ok (⟨addSub s.subs o e k, (o, e) :: s.waiting, s.listed⟩, .requested)

/-- What the provider notes (`server_event_addListener` and `server_event_removeListener`, rbuscore.c:141-185). -/
def note (listed : List (Bytes × Bytes)) (x e : Bytes) (added : Bool) : List (Bytes × Bytes) :=
  if added then (if listed.contains (x, e) then listed else listed ++ [(x, e)]) else listed.filter (· ≠ (x, e))

/-- `rbus_subscribeToEventInternal` (rbuscore.c:1563-1647) after the request was answered. -/
def finish (owner : Bytes → Bytes) (s : State) (o e : Bytes) (r : Reply) : State × Out :=
  if s.waiting.contains (o, e) then
    (⟨if r.code = .success then s.subs else removeSub s.subs o e, s.waiting.erase (o, e),
      if r.done then note s.listed (owner o) e true else s.listed⟩, .code r.code)
  else (s, .nothing)

/-- `rbus_unsubscribeFromEvent` (rbuscore.c:1659-1684). -/
def unsubscribe (owner : Bytes → Bytes) (s : State) (o e : Option Bytes) (r : Reply) : State × Out :=
  match o.or e with
  | none => (s, .code .invalidParam)
  | some o =>
    if Core.maxName ≤ o.length then (s, .code .invalidParam)
    else
      (⟨removeSub s.subs o (e.getD []), s.waiting,
        if r.done then note s.listed (owner o) (e.getD []) false else s.listed⟩, .code r.code)

/-- `master_event_callback` (rbuscore.c:1452-1528) for an event that is not of rbus: the sender is the object. -/
def deliver (l : List Sub) (x e : Bytes) : Option Nat :=
  l.findSome? fun s => if s.object = x ∨ s.object = e then s.callback e else none

/-- One step. -/
def step (owner : Bytes → Bytes) (s : State) : Event → Res (State × Out)
  | .begin o e k => begin s o e k
  | .finish o e r => .ok (finish owner s o e r)
  | .unsubscribe o e r => .ok (unsubscribe owner s o e r)
  | .publish x e =>
    .ok (s, if s.listed.contains (x, e) then (match deliver s.subs x e with | some k => .called k | none => .dropped)
      else .silent)
  | .forget x e => .ok (⟨s.subs, s.waiting, note s.listed x e false⟩, .nothing)

/-- Several steps. -/
def run (owner : Bytes → Bytes) (s : State) : List Event → Res (State × List Out)
  | [] => .ok (s, [])
  | e :: es => do
    let (s1, o) ← step owner s e
    let (s2, os) ← run owner s1 es
    pure (s2, o :: os)

end Verif.CoreClient
