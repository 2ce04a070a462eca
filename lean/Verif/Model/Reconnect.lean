import Verif.Model.Dispatch

/-!
# Model of losing and remaking the connection to the router (src/rtmessage/rtConnection.c)

Threads of an application add and remove listeners; the thread numbered 0 is the reader. Each is at a
place between two sections guarded by `con->mutex` or `con->reconnect_mutex`, or between two system
calls, and they interleave there in any way. The link to the router goes down at any time; whoever
notices tries to make it again, and the one that does tells the router about all listeners.

Time is the number of steps so far, so that two readings of the clock differ; a thread remembers the
time itself, where the code has one field for all senders (`sender_reconnect_time`) and one for the
reader. The messages sent are those that tell the router about listeners; others (`other`) have no
effect here. The router is reduced to the routes of this client, as in `Verif.Messages`; it forgets them
when the link goes down (rtrouted.c:434-448, 1962-1969). The very first
connection and stopping the threads are left out, and so is encryption. A thread that sends or reads
without a socket gets an error other than `RT_NO_CONNECTION`: the sender gives up, the reader tries again.
-/

namespace Verif.Reconnect

open Verif.Dispatch (Listener fill clear maxListeners)

/-- What a thread wants to send: that a listener was added or removed, another name for a route
(`rtConnection_AddAlias`, rtConnection.c:1361-1403, whose waiting for the answer is left out), or anything
else. -/
inductive Job where
  | add (topic : Bytes) (id : Nat)
  | remove (topic : Bytes) (id : Nat)
  | alias (topic : Bytes) (id : Nat)
  | other
  deriving DecidableEq, Repr

/-- Where a thread is. The time is when its call began; the job of the reader is `none`. -/
inductive Place where
  /-- not in the library -/
  | idle
  /-- in `rtConnection_SendMessageDirect`, about to send (rtConnection.c:781-797) -/
  | sending (j : Job) (t : Nat)
  /-- the reader, in `rtConnection_Read` (rtConnection.c:1871) -/
  | listening (t : Nat)
  /-- sending or reading gave `RT_NO_CONNECTION` (rtConnection.c:800, 1895) -/
  | failed (j : Option Job) (t : Nat)
  /-- waiting for `reconnect_in_progress` to be cleared (rtConnection.c:345-346) -/
  | waiting (j : Option Job) (t : Nat)
  /-- it is the one to connect (rtConnection.c:357-415); `first`: it takes this for the first connection
  (rtConnection.c:304-305) -/
  | opening (j : Option Job) (t : Nat) (first : Bool)
  /-- in the loop that adds the listeners again, before looking at an entry (rtConnection.c:433-435) -/
  | telling (j : Option Job) (t i : Nat)
  /-- reading the entry to make a message of it (rtConnection.c:437-443) -/
  | reading (j : Option Job) (t i : Nat)
  /-- sending that message failed, and `rtConnection_ConnectAndRegister` called from there waits for
  `reconnect_in_progress` to be cleared (rtConnection.c:443, 800-802, 345-346) -/
  | nested (j : Option Job) (t i : Nat)
  deriving DecidableEq, Repr

/-- The connection: the table of listeners, `reconnect_in_progress`, `reconnect_time`, the clock,
whether there is no socket (`con->fd == -1`), whether the link is up, and the threads; and at the router, the client's routes by topic and id, and
further topics that lead to the route with an id. -/
structure State where
  slots : List (Option Listener)
  inProgress : Bool
  reconnectTime : Nat
  clock : Nat
  closed : Bool
  link : Bool
  routes : List (Bytes × Nat)
  aliases : List (Bytes × Nat)
  place : Nat → Place

/-- A connection just made: no listeners, the reader reading. -/
def init : State :=
  { slots := List.replicate maxListeners none, inProgress := false, reconnectTime := 0, clock := 1,
    closed := false, link := true, routes := [], aliases := [], place := fun n => if n = 0 then .listening 1 else .idle }

/-- How connecting ends (rtConnection.c:357-421): the link is made, it is given up after the retries, no
socket can be made (363-365), or its flags cannot be set (368-374). -/
inductive Attempt where
  | made
  | refused
  | noSocket
  | noFlags
  deriving DecidableEq, Repr

/-- What happens; the number is that of the thread. -/
inductive Event where
  /-- `rtConnection_AddListenerWithId`, up to sending -/
  | add (n : Nat) (topic : Bytes) (id : Nat)
  /-- `rtConnection_RemoveListenerWithId`, up to sending -/
  | remove (n : Nat) (topic : Bytes) (id : Nat)
  /-- `rtConnection_AddAlias`, up to sending -/
  | alias (n : Nat) (topic : Bytes) (id : Nat)
  /-- another message is to be sent -/
  | other (n : Nat)
  /-- the thread sends -/
  | send (n : Nat)
  /-- the link goes down -/
  | drop
  /-- the reader notices that the link is down -/
  | lost
  /-- the thread enters `rtConnection_ConnectAndRegister` -/
  | claim (n : Nat)
  /-- a waiting thread finds `reconnect_in_progress` cleared -/
  | wake (n : Nat)
  /-- the attempt to connect ends -/
  | connect (n : Nat) (a : Attempt)
  /-- the thread looks at the next entry of the table -/
  | look (n : Nat)
  /-- the thread sends the message about the entry -/
  | tell (n : Nat)
  deriving DecidableEq, Repr

/-- What is seen of it. -/
inductive Out where
  | silent
  /-- the table is full: ENOMEM -/
  | full
  /-- no such listener: RT_ERROR_INVALID_ARG -/
  | notFound
  /-- the message was sent -/
  | sent
  /-- the call gives up with an error, which those who add and remove listeners ignore -/
  | error
  deriving DecidableEq, Repr

/-- The thread is at another place; time passes. -/
def move (s : State) (n : Nat) (p : Place) : State :=
  { s with place := fun m => if m = n then p else s.place m, clock := s.clock + 1 }

/-- Going on after `rtConnection_ConnectAndRegister` returned `RT_OK`: the sender tries again with the
time it had (rtConnection.c:805), the reader reads with a new one (1869-1871). -/
def resume (s : State) (j : Option Job) (t : Nat) : Place :=
  match j with
  | some j => .sending j t
  | none => .listening s.clock

/-- Going on after it returned an error: the sender gives up (rtConnection.c:803-804), the reader tries
again with a new time (1906-1909). -/
def giveUp (s : State) (j : Option Job) : Place :=
  match j with
  | some _ => .idle
  | none => .failed none s.clock

/-- The router is told of a topic (rtrouted.c:761-786), see `Verif.Messages.routeAdd`. -/
def routeAdd (s : State) (topic : Bytes) (id : Nat) : State :=
  if s.routes.any (fun r => r.2 = id) then
    if s.routes.any (fun r => r.1 = topic) || s.aliases.any (fun r => r.1 = topic) then s
    else { s with aliases := s.aliases ++ [(topic, id)] }
  else { s with routes := s.routes ++ [(topic, id)] }

/-- The router is told that a topic goes (rtrouted.c:790-812), see `Verif.Messages.routeRemove`. -/
def routeRemove (s : State) (topic : Bytes) : State :=
  match s.routes.find? (fun r => r.1 = topic) with
  | some r =>
    { s with routes := s.routes.filter (fun x => x.2 ≠ r.2), aliases := s.aliases.filter (fun x => x.2 ≠ r.2) }
  | none => { s with aliases := s.aliases.filter (fun x => x.1 ≠ topic) }

/-- A message arrives at the router. -/
def deliver (s : State) : Job → State
  | .add t i => routeAdd s t i
  | .remove t _ => routeRemove s t
  | .alias t i => routeAdd s t i
  | .other => s

/-- The link is down: the router forgets the client. -/
def cut (s : State) : State := { s with link := false, routes := [], aliases := [] }

/-- One step. `fail`: the thread is not at that place. The table is read without the mutex while the
router is told about it again; what is checked of this race is that an entry is not taken away between
looking at it and making a message of it (its text is freed then). -/
def step (s : State) : Event → Res (State × Out)
  | .add n topic id =>
    -- rtConnection.c:1249-1278
    match s.place n with
    | .idle =>
      match fill ⟨id, topic, 0⟩ s.slots with
      | some t => .ok (move { s with slots := t } n (.sending (.add topic id) s.clock), .silent)
      | none => .ok (move s n .idle, .full)
    | _ => .fail
  | .remove n topic id =>
    -- rtConnection.c:1328-1356
    match s.place n with
    | .idle =>
      match clear (fun l => l.id = id) s.slots with
      | some (t, _) => .ok (move { s with slots := t } n (.sending (.remove topic id) s.clock), .silent)
      | none => .ok (move s n .idle, .notFound)
    | _ => .fail
  | .alias n topic id =>
    match s.place n with
    | .idle => .ok (move s n (.sending (.alias topic id) s.clock), .silent)
    | _ => .fail
  | .other n =>
    match s.place n with
    | .idle => .ok (move s n (.sending .other s.clock), .silent)
    | _ => .fail
  | .send n =>
    -- rtConnection.c:789-807, 1212-1230
    match s.place n with
    | .sending j t =>
      if s.link then .ok (move (deliver s j) n .idle, .sent)
      else if s.closed then .ok (move s n .idle, .error)
      else .ok (move s n (.failed (some j) t), .silent)
    | _ => .fail
  | .drop => .ok ({ cut s with clock := s.clock + 1 }, .silent)
  | .lost =>
    -- rtConnection.c:1871-1895
    match s.place 0 with
    | .listening t => if s.link || s.closed then .fail else .ok (move s 0 (.failed none t), .silent)
    | _ => .fail
  | .claim n =>
    -- rtConnection.c:314-356; whoever connects closes the old socket (360-361)
    match s.place n with
    | .failed j t =>
      if s.closed then .ok (move { s with reconnectTime := s.clock } n (.opening j t true), .silent)
      else if s.inProgress then .ok (move s n (.waiting j t), .silent)
      else if t > s.reconnectTime then
        .ok (move { cut s with inProgress := true, reconnectTime := s.clock } n (.opening j t false), .silent)
      else .ok (move s n (resume s j t), .silent)
    | _ => .fail
  | .wake n =>
    match s.place n with
    | .waiting j t => if s.inProgress then .fail else .ok (move s n (resume s j t), .silent)
    | .nested j t i => if s.inProgress then .fail else .ok (move s n (.reading j t i), .silent)
    | _ => .fail
  | .connect n a =>
    match s.place n with
    | .opening j t first =>
      match a with
      | .made =>
        if first then
          .ok (move { cut s with link := true, closed := false, inProgress := false } n (resume s j t), .silent)
        else .ok (move { cut s with link := true, closed := false } n (.telling j t 0), .silent)
      | .refused => .ok (move { cut s with closed := false, inProgress := false } n (giveUp s j), .error)
      | .noSocket => .ok (move { cut s with closed := true } n (giveUp s j), .error)
      | .noFlags => .ok (move { cut s with closed := false } n (giveUp s j), .error)
    | _ => .fail
  | .look n =>
    -- rtConnection.c:433-435, 466-467
    match s.place n with
    | .telling j t i =>
      match s.slots[i]? with
      | none => .ok (move { s with inProgress := false } n (resume s j t), .silent)
      | some none => .ok (move s n (.telling j t (i + 1)), .silent)
      | some (some _) => .ok (move s n (.reading j t i), .silent)
    | _ => .fail
  | .tell n =>
    -- rtConnection.c:437-446; the entry must not have been taken away since it was looked at
    match s.place n with
    | .reading j t i =>
      match s.slots[i]? with
      | some (some l) =>
        if s.link then .ok (move (routeAdd s l.expr l.id) n (.telling j t (i + 1)), .sent)
        else .ok (move s n (.nested j t i), .silent)
      | _ => .ub
    | _ => .fail

/-- An execution: what each step shows. -/
def run (s : State) : List Event → Res (State × List Out)
  | [] => .ok (s, [])
  | e :: es => do
    let (s1, o) ← step s e
    let (s2, os) ← run s1 es
    pure (s2, o :: os)

end Verif.Reconnect
