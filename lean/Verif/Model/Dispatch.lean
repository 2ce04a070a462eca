import Verif.Model.Base

/-!
# Model of listeners and message callbacks (src/rtmessage/rtConnection.c)

A connection has a fixed table of listeners, a queue of messages read from the socket, and a callback
thread that takes messages from the queue and calls the listener they are addressed to. Application
threads add and remove listeners, the reader thread adds messages to the queue. The sections guarded by
`con->mutex` and by `callback_message_mutex` are single steps of the model; between them the threads
interleave in any way.
-/

namespace Verif.Dispatch

/-- A listener (rtConnection.c:78-84): its subscription id, its expression, and the callback with its
closure, named by a number. A free entry (`in_use == 0`) is `none`. -/
structure Listener where
  id : Nat
  expr : Bytes
  callback : Nat
  deriving DecidableEq, Repr

/-- A message as it matters here: the field `control_data` of its header, and the rest. -/
structure Msg where
  control : Nat
  body : Nat
  deriving DecidableEq, Repr

/-- Where the callback thread is (rtConnection.c:1762-1861): waiting for messages, having a list item
in hand, having looked up the callback for its message, having returned from the callback, ended. -/
inductive Worker where
  | idle
  | fetched (item : Nat) (m : Msg)
  | found (item : Nat) (m : Msg) (cb : Option Nat)
  | returned (item : Nat) (m : Msg)
  | ended
  deriving DecidableEq, Repr

/-- The connection (rtConnection.c:103-149): `listeners`, the counter behind
`rtConnection_GetNextSubscriptionId` (248-254), `callback_message_list` with the addresses of its items,
the callback thread and `run_threads`. -/
structure State where
  slots : List (Option Listener)
  nextId : Nat
  queue : List (Nat × Msg)
  made : Nat
  worker : Worker
  running : Bool
  deriving DecidableEq, Repr

/-- `RTMSG_LISTENERS_MAX` (rtConnection.c:63). -/
def maxListeners : Nat := 128

/-- `MAX_ALLOWED_MESSAGES` (rtConnection.c:64). -/
def maxMessages : Nat := 25

/-- A connection before its first listener (rtConnection.c:543-549; the counter 252). The listener of
the inbox, added with id 1 when the connection is made (613), is an ordinary step. -/
def init : State :=
  { slots := List.replicate maxListeners none, nextId := 10000, queue := [], made := 0,
    worker := .idle, running := true }

/-- What the threads do. -/
inductive Event where
  /-- `rtConnection_AddListenerWithId` -/
  | addWithId (id : Nat) (expr : Bytes) (cb : Nat)
  /-- `rtConnection_AddListener` -/
  | add (expr : Bytes) (cb : Nat)
  /-- `rtConnection_RemoveListener` -/
  | remove (expr : Bytes)
  /-- `rtConnection_RemoveListenerWithId` -/
  | removeWithId (id : Nat)
  /-- the reader thread has read a message that is no response -/
  | receive (m : Msg)
  /-- the callback thread looks for the front of the queue -/
  | fetch
  /-- the callback thread looks up the listener -/
  | look
  /-- the callback thread calls the callback, which returns -/
  | call
  /-- the callback thread removes the message from the queue and looks for the next -/
  | next
  /-- `rtConnection_StopThreads` clears `run_threads` -/
  | stop
  deriving DecidableEq, Repr

/-- What is seen of it. -/
inductive Obs where
  /-- the listener is in the table, and the router is told to route to the id -/
  | added (id : Nat)
  /-- the table is full: ENOMEM -/
  | full
  /-- the listener is out of the table, and the router is told so with its id -/
  | removed (id : Nat)
  /-- no such listener: RT_ERROR_INVALID_ARG -/
  | notFound
  | queued
  | dropped
  /-- the message and the callback found for it -/
  | looked (m : Msg) (cb : Option Nat)
  /-- the callback is called with the message -/
  | called (m : Msg) (cb : Nat)
  /-- the message is released -/
  | released (m : Msg)
  | nothing
  deriving DecidableEq, Repr

/-- The search for an open entry and its filling (rtConnection.c:1251-1269). `none` when all are in
use. -/
def fill (l : Listener) : List (Option Listener) → Option (List (Option Listener))
  | [] => none
  | none :: r => some (some l :: r)
  | some x :: r => (fill l r).map (some x :: ·)

/-- The search for an entry in use satisfying a test, and its clearing (rtConnection.c:1291-1304,
1330-1343). Gives the table and the `subscription_id` read. -/
def clear (p : Listener → Bool) : List (Option Listener) → Option (List (Option Listener) × Nat)
  | [] => none
  | none :: r => (clear p r).map (fun x => (none :: x.1, x.2))
  | some l :: r =>
    if p l then some (none :: r, l.id) else (clear p r).map (fun x => (some l :: x.1, x.2))

/-- The search for the listener of a message (rtConnection.c:1819-1827). -/
def lookup (id : Nat) : List (Option Listener) → Option Nat
  | [] => none
  | none :: r => lookup id r
  | some l :: r => if l.id = id then some l.callback else lookup id r

/-- `rtConnection_AddListenerWithId` (rtConnection.c:1241-1280). The id sent to the router is read from
the entry after the mutex is given back (1274); a removal in between is not modelled. -/
def addListener (s : State) (id : Nat) (expr : Bytes) (cb : Nat) : State × Obs :=
  match fill { id := id, expr := expr, callback := cb } s.slots with
  | some t => ({ s with slots := t }, .added id)
  | none => (s, .full)

/-- `rtConnection_RemoveListener` (rtConnection.c:1282-1319) and `rtConnection_RemoveListenerWithId`
(1321-1360). -/
def removeListener (s : State) (p : Listener → Bool) : State × Obs :=
  match clear p s.slots with
  | some (t, id) => ({ s with slots := t }, .removed id)
  | none => (s, .notFound)

/-- What the callback thread has in hand after `rtList_GetFront` (rtConnection.c:1791, 1849). -/
def front (q : List (Nat × Msg)) : Worker :=
  match q with
  | [] => .idle
  | (a, m) :: _ => .fetched a m

/-- One step. `fail`: the thread is not at that place. The counter of ids is read and increased
without a lock (rtConnection.c:248-254); a step of the model does it in one piece. -/
def step (s : State) : Event → Res (State × Obs)
  | .addWithId id e cb => .ok (addListener s id e cb)
  | .add e cb => .ok (addListener { s with nextId := (s.nextId + 1) % 4294967296 } s.nextId e cb)
  | .remove e => .ok (removeListener s (fun l => l.expr = e))
  | .removeWithId id => .ok (removeListener s (fun l => l.id = id))
  | .receive m =>
    -- rtConnection.c:1647-1690, 1694-1698
    if s.queue.length > maxMessages then .ok (s, .dropped)
    else .ok ({ s with queue := s.queue ++ [(s.made, m)], made := s.made + 1 }, .queued)
  | .fetch =>
    -- rtConnection.c:1767-1799
    match s.worker with
    | .idle => .ok ({ s with worker := if s.running then front s.queue else .ended }, .nothing)
    | _ => .fail
  | .look =>
    -- rtConnection.c:1809-1829
    match s.worker with
    | .fetched a m =>
      if s.running then
        .ok ({ s with worker := .found a m (lookup m.control s.slots) },
          .looked m (lookup m.control s.slots))
      else .ok ({ s with worker := .ended }, .nothing)
    | _ => .fail
  | .call =>
    -- rtConnection.c:1831-1841
    match s.worker with
    | .found a m (some cb) => .ok ({ s with worker := .returned a m }, .called m cb)
    | .found a m none => .ok ({ s with worker := .returned a m }, .nothing)
    | _ => .fail
  | .next =>
    -- rtConnection.c:1843-1855
    match s.worker with
    | .returned a m =>
      let q := s.queue.eraseP (fun x => x.1 = a)
      .ok ({ s with queue := q, worker := front q }, .released m)
    | _ => .fail
  | .stop => .ok ({ s with running := false }, .nothing)

/-- An execution: what each step shows. -/
def run (s : State) : List Event → Res (State × List Obs)
  | [] => .ok (s, [])
  | e :: es => do
    let (s1, o) ← step s e
    let (s2, os) ← run s1 es
    pure (s2, o :: os)

end Verif.Dispatch
