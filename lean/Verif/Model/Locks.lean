import Verif.Model.Base

/-!
# Which locks the functions of the library take, and for which threads they wait

Of each function only this is kept: the mutexes it locks and unlocks, the threads it joins, and where it calls the
program's own functions. What it does meanwhile is left out; each `if` on the way is a parameter of the call. Waiting
for a response or on a condition always ends by itself, for it has a time-out; a wait on a condition is written as
the mutex being unlocked and locked again. A thread that is told to end does so by itself. Retrying after the loss of
the router (`reconnect_mutex`), the reader thread and the queue of the callback thread are left out, and so are the
threads of private servers.
-/

namespace Verif.Locks

open Verif

/-- The mutexes of a process. Handles, elements and records of intervals are numbered. -/
inductive Mutex where
  /-- `gMutex` of rbus.c:124. -/
  | handles
  /-- `handle_eventSubsMutex` (rbus_handle.h:122). -/
  | events (h : Nat)
  /-- `handle_subsMutex` (rbus_handle.h:123). -/
  | subs (h : Nat)
  /-- `elmMutex` of an element (rbus_element.h:74). -/
  | element (e : Nat)
  /-- `element_mutex` (rbus_element.c:44). -/
  | tree
  /-- `gVC->mutex` (rbus_valuechange.c:65). -/
  | changes
  /-- `gMutex` of rbus_intervalsubscription.c:46. -/
  | intervals
  /-- `mutex` of a record of a subscription with an interval (rbus_intervalsubscription.c:50). -/
  | record (r : Nat)
  /-- `gRetrier->mutexQueue` (rbus_asyncsubscribe.c:53). -/
  | retries
  /-- `gMutex` of rbus_message.c:46. -/
  | listeners
  /-- `g_mutex` of rbuscore.c:325. -/
  | core
  /-- `g_directServMutex` (rbuscore.c:327). -/
  | directServer
  /-- `g_directCliMutex` (rbuscore.c:326). -/
  | directClient
  /-- `mutex` of the connection to the router (rtConnection.c:113). -/
  | connection
  deriving DecidableEq, Repr

/-- Types of mutexes in POSIX. -/
inductive Kind where
  | normal | errorcheck | recursive
  deriving DecidableEq, Repr

/-- How they are made (rbus.c:124, 3022-3025; rbus_element.c:71-72, 239-240; rbus_valuechange.c:97-98;
rbus_intervalsubscription.c:46, 69-70; rbus_asyncsubscribe.c:328-329; rbus_message.c:46; rbuscore.c:619-622;
rtConnection.c:533-534). -/
def Mutex.kind : Mutex → Kind
  | .handles | .intervals | .listeners => .normal
  | .tree => .recursive
  | _ => .errorcheck

/-- What is kept of the code. -/
inductive Instr where
  | lock (m : Mutex)
  | unlock (m : Mutex)
  | join (t : Nat)
  deriving DecidableEq, Repr

/-- A thread: what it has done and what it is going to do. -/
structure Thread where
  past : List Instr
  todo : List Instr
  deriving DecidableEq, Repr

/-- The threads, numbered; those with nothing to do have ended. Who has locked a mutex, and how often. -/
structure State where
  thread : Nat → Thread
  owner : Mutex → Option (Nat × Nat)

/-- Changes one owner. -/
def setOwner (f : Mutex → Option (Nat × Nat)) (m : Mutex) (o : Option (Nat × Nat)) : Mutex → Option (Nat × Nat) :=
  fun x => if x = m then o else f x

/-- What happens to the mutexes; `fail`: the thread has to wait. `pthread_mutex_lock` on a mutex the thread has
already is an error that is logged or ignored (`errorcheck`), is counted (`recursive`), or waits for ever (`normal`);
`pthread_mutex_unlock` on a mutex the thread does not have is an error that is logged or ignored, or undefined
(`normal`). `pthread_join` waits until the thread has ended. -/
def exec (s : State) (t : Nat) : Instr → Res (Mutex → Option (Nat × Nat))
  | .lock m =>
    match s.owner m with
    | none => .ok (setOwner s.owner m (some (t, 1)))
    | some (u, n) =>
      if u = t then
        match m.kind with
        | .errorcheck => .ok s.owner
        | .recursive => .ok (setOwner s.owner m (some (t, n + 1)))
        | .normal => .fail
      else .fail
  | .unlock m =>
    match s.owner m with
    | none => if m.kind = .normal then .ub else .ok s.owner
    | some (u, n) =>
      if u = t then .ok (setOwner s.owner m (if n ≤ 1 then none else some (t, n - 1)))
      else if m.kind = .normal then .ub
      else .ok s.owner
  | .join u => if (s.thread u).todo = [] then .ok s.owner else .fail

/-- One step of a thread; `fail`: it has ended or has to wait. -/
def step (s : State) (t : Nat) : Res State :=
  match (s.thread t).todo with
  | [] => .fail
  | i :: k => do
    let owner ← exec s t i
    pure ⟨fun u => if u = t then ⟨(s.thread t).past ++ [i], k⟩ else s.thread u, owner⟩

/-- Steps of the threads in some order. -/
def run (s : State) : List Nat → Res State
  | [] => .ok s
  | t :: ts => do
    let s ← step s t
    run s ts

/-! ## The functions -/

/-- From locking to unlocking. -/
def sec (m : Mutex) (body : List Instr) : List Instr := .lock m :: body ++ [.unlock m]

/-- A message is sent, or a listener noted (rtConnection.c:893-901, 1249-1269). -/
def send : List Instr := sec .connection []

/-- A request to another process: a private connection is looked for (`rbuscore_FindClientPrivateConnection`,
rbuscore.c:2892-2909), the request sent, and after the wait the response taken (rtConnection.c:973-1109). -/
def request : List Instr := sec .directClient [] ++ send ++ send

/-- `rbus_publishSubscriberEvent` (rbuscore.c:1832-1878); `priv`: there is a private connection. -/
def sendEvent (priv : Bool) : List Instr := sec .directServer [] ++ if priv then [] else sec .core send

/-- `rbusEvent_Publish` (rbus.c:5907-6034) and `rbusEvent_PublishRawData` (rbus.c:5849-5905) to the subscribers `to`;
the element is looked up first (`retrieveInstanceElement`, rbus_element.c:501-590). -/
def publish (h : Nat) (to : List Bool) : List Instr := sec .tree [] ++ sec (.subs h) (to.flatMap sendEvent)

/-- `rbusMessage_AddListener`, `rbusMessage_RemoveListener` (rbus_message.c:160-189, 221-241). -/
def listener : List Instr := sec .listeners send

/-- `rbus_subscribeToEventInternal` (rbuscore.c:1562-1648) under the master event callback. -/
def askSubscribe : List Instr := sec .core send ++ request

/-- `_master_event_callback_handler` (rbus.c:1426-1494): the program's handler is called under the mutex. -/
def handleEvent (h : Nat) (handler : List Instr) : List Instr := sec .handles [] ++ sec (.events h) handler

/-- `rbusValueChange_AddPropertyNode` (rbus_valuechange.c:247-328) for a property that is new: the program's get
handler is called. -/
def watch (e : Nat) (get : List Instr) : List Instr := sec .changes [] ++ sec (.element e) get ++ sec .changes []

/-- `rbusValueChange_RemovePropertyNode` (rbus_valuechange.c:330-370); `last`: it was the last one, and this is the
polling thread. -/
def unwatch (last : Option Nat) : List Instr :=
  sec .changes [] ++ match last with
    | some t => [.join t]
    | none => []

/-- What `subscribeHandlerImpl` does about the property (rbus.c:1184-1228): nothing, for events and for properties
others watch; the property becomes watched, or no longer (`last` as above); an interval begins
(rbus_intervalsubscription.c:218-263), or ends (266-304) with its thread. -/
inductive Effect where
  | nothing
  | watch
  | unwatch (last : Option Nat)
  | begin
  | finish (t : Option Nat)
  deriving DecidableEq, Repr

/-- The code of it. -/
def Effect.script (e : Nat) (get : List Instr) : Effect → List Instr
  | .nothing => []
  | .watch => Locks.watch e get
  | .unwatch last => Locks.unwatch last
  | .begin => sec .intervals []
  | .finish none => sec .intervals []
  | .finish (some t) => sec .intervals [] ++ [.join t] ++ sec .intervals []

/-- `subscribeHandlerImpl` (rbus.c:1070-1237): the program's subscribe handler is called first. -/
def subscribed (h e : Nat) (x : Effect) (handler get : List Instr) : List Instr :=
  sec (.element e) handler ++ sec (.subs h) (x.script e get)

/-- A subscription that is made again for a row from the cache, or dropped because its client has gone: the element is
looked up first (`rbusSubscriptions_resubscribeRowElementCache`, `rbusSubscriptions_handleClientDisconnect`,
rbus_subscriptions.c:783-862). -/
def resubscribed (h : Nat) (x : Nat × Effect) (handler get : List Instr) : List Instr :=
  sec .tree [] ++ subscribed h x.1 x.2 handler get

/-- `retrieveInstanceElementEx` (rbus_element.c:485-604), which calls the sync handler of a table on the way. -/
def find (table : Option Nat) (sync : List Instr) : List Instr :=
  sec .tree <| match table with
    | some e => sec (.element e) sync
    | none => []

/-- `pthread_join` of threads that are there. -/
def joins (ts : List Nat) : List Instr := ts.map .join

/-- `rbus_closeBrokerConnection` (rbuscore.c:661-695) with `perform_cleanup` (385-421), which locks the mutex again,
and `rtConnection_Destroy` (rtConnection.c:697-765), which joins the callback thread in `rtConnection_StopThreads`
(1943-1956). -/
def closeBroker (callback : Nat) : List Instr :=
  sec .core (sec .core (sec .directClient []) ++ [.join callback] ++ send)

/-- Functions a program calls, and what the library's own threads do. -/
inductive Call where
  /-- `rbus_get`, `rbus_set`, `rbusMethod_Invoke` and the like. -/
  | request
  | publish (h : Nat) (to : List Bool)
  /-- `rbusMessage_AddListener`, `rbusMessage_RemoveListener`. -/
  | listener
  /-- `rbusEvent_IsSubscriptionExist`. -/
  | isSubscribed (h : Nat)
  /-- `rbusEvent_Subscribe` etc.; `initial`: an initial value comes and is given to the handler. -/
  | subscribe (h : Nat) (initial : Bool)
  /-- `rbusEvent_SubscribeAsync`. -/
  | subscribeAsync (h : Nat)
  /-- `rbusEvent_Unsubscribe` etc. -/
  | unsubscribe (h : Nat)
  /-- `rbusTable_registerRow`, with the row's properties that are watched from now on, the subscribers of the table,
  and the subscriptions from the cache. -/
  | registerRow (h : Nat) (watched : List Nat) (to : List Bool) (cached : List (Nat × Effect))
  /-- `rbusTable_unregisterRow`; `last` as in `unwatch`, for each property. -/
  | unregisterRow (h : Nat) (watched : List (Option Nat)) (to : List Bool)
  /-- `rbus_regDataElements` of one element, with the subscriptions from the cache. -/
  | registerElement (h : Nat) (cached : List (Nat × Effect))
  /-- `rbus_open` of a name that is not open. -/
  | open
  /-- `rbus_close` with `subs` subscriptions and the helping threads that end with it. -/
  | close (h subs : Nat) (ending : List Nat)
  /-- `rbus_close` of the last handle; `callback` is the callback thread. -/
  | closeLast (h subs : Nat) (ending : List Nat) (callback : Nat)
  /-- `rbus_closeDirect` of the last parameter of a private connection; `callback` is that connection's callback
  thread. -/
  | closeDirect (callback : Nat)
  /-- An event comes in. -/
  | event (h : Nat)
  /-- A get, set or call of a method of element `e` comes in; `table`: a table with a sync handler on the way. -/
  | serve (e : Nat) (table : Option Nat)
  /-- A subscribe or unsubscribe request comes in. -/
  | serveSubscribe (h e : Nat) (x : Effect) (table : Option Nat)
  /-- The message comes in that a client has gone: its subscriptions, for each handle, and the callback thread of the
  private connection to it. -/
  | clientGone (hs : List (Nat × List (Nat × Effect))) (priv : Option Nat)
  /-- One round of the polling thread: properties of a handle, with the subscribers if the value has changed. -/
  | poll (ps : List (Nat × Nat × Option (List Bool)))
  /-- One round of the thread of an interval. -/
  | interval (r e : Nat) (priv : Bool)
  /-- The end of that thread, when the time is over. -/
  | intervalOver (h : Nat)
  /-- One request of the thread that subscribes, which succeeds: the program's function is told. -/
  | retry (h : Nat)
  deriving DecidableEq, Repr

/-- Their code, given that of the program's functions they call: `a` is an event handler, the handler of the element,
a subscribe handler or an asynchronous response; `b` a get handler called for the watching, or a sync handler. -/
def Call.script (a b : List Instr) : Call → List Instr
  | .request => Locks.request
  | .publish h to => Locks.publish h to
  | .listener => Locks.listener
  -- rbus.c:5809-5847
  | .isSubscribed h => sec (.events h) []
  -- rbus.c:5043-5063, 5080-5125, 5141-5163
  | .subscribe h initial =>
    sec (.events h) (sec .retries []) ++ askSubscribe ++ sec (.events h) [] ++ if initial then handleEvent h a else []
  -- rbus.c:5043-5063, 5068-5078, rbus_asyncsubscribe.c:366-401
  | .subscribeAsync h => sec (.events h) (sec .retries []) ++ sec .retries []
  -- rbus.c:5386-5451, 5453-5493, 5750-5807
  | .unsubscribe h => sec (.events h) (Locks.listener ++ Locks.request ++ sec .retries [])
  -- rbus.c:1239-1300, rbus_element.c:983-1050
  | .registerRow h watched to cached =>
    sec .tree [] ++ sec (.subs h) [] ++ watched.flatMap (fun e => Locks.watch e b) ++ Locks.publish h to ++
      sec (.subs h) (cached.flatMap fun x => resubscribed h x a b)
  -- rbus.c:1302-1354, rbus_element.c:1053-1089
  | .unregisterRow h watched to =>
    watched.flatMap Locks.unwatch ++ sec (.subs h) [] ++ sec .tree [] ++ Locks.publish h to
  -- rbus.c:3320-3348, rbus_element.c:248-374, rbus_subscriptions.c:746-781
  | .registerElement h cached =>
    send ++ sec .tree [] ++ sec (.subs h) (cached.flatMap fun x => subscribed h x.1 x.2 a b)
  -- rbus.c:2941-3060
  | .open => sec .handles (sec .core send ++ send ++ sec .core [])
  -- rbus.c:3164-3271, rbus_valuechange.c:372-424, rbus_asyncsubscribe.c:435-475, rbuscore.c:954-986
  | .close h subs ending =>
    sec .handles (sec (.events h) (List.replicate subs Locks.request).flatten ++ Locks.listener ++ sec (.subs h) [] ++
      sec .changes [] ++ sec .retries [] ++ joins ending ++ send ++ sec .core [])
  | .closeLast h subs ending callback =>
    sec .handles (sec (.events h) (List.replicate subs Locks.request).flatten ++ Locks.listener ++ sec (.subs h) [] ++
      sec .changes [] ++ sec .retries [] ++ joins ending ++ send ++ sec .core [] ++ closeBroker callback)
  -- rbuscore.c:3041-3098
  | .closeDirect callback => sec .directClient (send ++ send ++ [.join callback])
  | .event h => handleEvent h a
  -- rbuscore.c:475-520, rbus.c:1496-2117, 2457-2563
  | .serve e table => sec .core [] ++ find table b ++ sec (.element e) a ++ send
  -- rbus.c:2565-2738
  | .serveSubscribe h e x table => sec .core [] ++ find table b ++ subscribed h e x a b ++ send
  -- rbus.c:1355-1360, rbus_handle.c:104-129, rbuscore.c:3100-3121
  | .clientGone hs priv =>
    sec .handles (hs.flatMap (fun h => sec (.subs h.1) (h.2.flatMap fun x => resubscribed h.1 x a b)) ++
      sec .directClient (match priv with
        | some t => [.join t]
        | none => []))
  -- rbus_valuechange.c:127-242
  | .poll ps =>
    sec .changes (ps.flatMap fun p => sec (.element p.2.1) a ++ match p.2.2 with
      | some to => Locks.publish p.1 to
      | none => [])
  -- rbus_intervalsubscription.c:115-202
  | .interval r e priv => sec (.record r) (sec .tree [] ++ sec (.element e) a ++ sendEvent priv)
  -- rbus_intervalsubscription.c:204-211
  | .intervalOver h => sec .intervals (sec (.subs h) [])
  -- rbus_asyncsubscribe.c:160-270, rbus.c:1362-1391
  | .retry h => sec .retries [] ++ askSubscribe ++ a ++ sec (.events h) [] ++ sec .retries []

/-- What a thread does: calls in turn, each with what the program's functions do that it calls. -/
inductive Prog where
  | done
  | call (c : Call) (a b next : Prog)
  deriving Repr

/-- Its code. -/
def Prog.script : Prog → List Instr
  | .done => []
  | .call c a b next => c.script a.script b.script ++ next.script

/-- Threads at their beginning. -/
def start (p : Nat → Prog) : State := ⟨fun t => ⟨[], (p t).script⟩, fun _ => none⟩

end Verif.Locks
