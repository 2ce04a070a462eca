import Verif.Model.Base

/-!
# Model of objects, methods and events of the core library (src/core/rbuscore.c)

What programs that use rbuscore.h directly register: objects, methods of objects, events of objects; and what is done
with requests and events. The connection is open throughout (`g_connection` not NULL), names are not NULL except where
the API has a default for it. Every call is a single step here, and so is every request; requests come one after the
other from the callback thread. What two threads can do to each other is in `Loop` and `Two` below.

`strncmp` with the maximal length is equality, for the names registered are shorter: `registerObj`, `registerMethod` and
`registerEvent` see to it. Callbacks are numbers.
-/

namespace Verif.Core

open Verif

/-- `MAX_OBJECT_NAME_LENGTH`, `MAX_EVENT_NAME_LENGTH`, `MAX_SUBSCRIBER_NAME_LENGTH` (rbuscore.h:28-30, rbuscore.c:43;
rtMessageHeader.h:31). -/
def maxName : Nat := 256

/-- `MAX_METHOD_NAME_LENGTH` (rbuscore.h:29). -/
def maxMethod : Nat := 64

/-- `MAX_SUPPORTED_METHODS` (rbuscore.h:31). -/
def maxMethods : Nat := 32

/-- `METHOD_SUBSCRIBE` (rbuscore_types.h:75). -/
def subscribeName : Bytes := "METHOD_SUBSCRIBE".toUTF8.data.toList

/-- `METHOD_UNSUBSCRIBE` (rbuscore_types.h:76). -/
def unsubscribeName : Bytes := "METHOD_UNSUBSCRIBE".toUTF8.data.toList

/-- The results used here (rbuscore_types.h:25-46). -/
inductive Code where
  | success
  | general
  | invalidParam
  | outOfResources
  | unsupportedEvent
  | notHandled
  | other (n : Nat)
  deriving DecidableEq, Repr

/-- What a method calls: a callback of the program or `subscription_handler`, whose data is the object. -/
inductive Callback where
  | user (k : Nat)
  | subscription
  deriving DecidableEq, Repr

/-- `struct _server_event` (rbuscore.c:77-84). -/
structure Ev where
  name : Bytes
  listeners : List Bytes
  told : Option Nat
  deriving DecidableEq, Repr

/-- `struct _server_object` (rbuscore.c:86-96): name, `callback`, `process_event_subscriptions`, methods
(rbuscore.c:69-74), events, `subscribe_handler_override`. -/
structure Obj where
  name : Bytes
  handler : Nat
  flag : Bool
  methods : List (Bytes × Callback)
  events : List Ev
  decider : Option Nat
  deriving DecidableEq, Repr

/-- What happens. `registerObj` and `unregisterObj` come with whether rtConnection_AddListener or RemoveListener
succeeded. A request comes with the two texts a subscription has, where the message has them, and with the answer the
subscribe handler of the object gives should it be asked. -/
inductive Event where
  | registerObj (o : Bytes) (k : Nat) (ok : Bool)
  | unregisterObj (o : Bytes) (ok : Bool)
  | registerMethod (o m : Bytes) (k : Nat)
  | unregisterMethod (o m : Bytes)
  | registerMethodTable (o : Bytes) (table : List (Bytes × Nat))
  | unregisterMethodTable (o : Bytes) (table : List Bytes)
  | registerEvent (o : Bytes) (e : Option Bytes) (told : Option Nat)
  | unregisterEvent (o : Bytes) (e : Option Bytes)
  | registerSubscribeHandler (o : Bytes) (k : Nat)
  | request (o m : Bytes) (texts : Option (Bytes × Bytes)) (answer : Code)
  | publish (o : Bytes) (e : Option Bytes)
  deriving DecidableEq, Repr

/-- What is seen of it: a result; the callback of a method or the handler of an object called; a subscription answered,
by the code in the response, if any, with the subscribe handler asked and the callback of the event told of one more
(`true`) or less; an event sent to listeners, in this order; no object there to take a request. -/
inductive Out where
  | code (c : Code)
  | method (k : Nat)
  | object (k : Nat)
  | answered (c : Option Code) (asked : Option Nat) (told : Option (Nat × Bool))
  | sent (to : List Bytes)
  | nobody
  deriving DecidableEq, Repr

/-- Change the first one there is. -/
def updateFirst {α : Type} (p : α → Bool) (g : α → α) : List α → List α
  | [] => []
  | x :: l => if p x then g x :: l else x :: updateFirst p g l

/-- `get_object` (rbuscore.c:462-465). -/
def getObj (s : List Obj) (o : Bytes) : Option Obj := s.find? (fun x => x.name == o)

/-- The object of this name changed. -/
def setObj (s : List Obj) (o : Bytes) (g : Obj → Obj) : List Obj := updateFirst (fun x => x.name == o) g s

/-- `rtVector_Find(obj->methods, name, server_method_compare)`. -/
def Obj.method (x : Obj) (m : Bytes) : Option Callback := (x.methods.find? (fun y => y.1 == m)).map (·.2)

/-- `rtVector_Find(obj->subscriptions, name, server_event_compare)`. -/
def Obj.event (x : Obj) (e : Bytes) : Option Ev := x.events.find? (fun y => y.name == e)

/-- `rbus_registerObj` (rbuscore.c:780-842), `server_object_create` (192-203). -/
def registerObj (s : List Obj) (o : Bytes) (k : Nat) (ok : Bool) : List Obj × Code :=
  if maxName ≤ o.length ∨ o.length = 0 then (s, .invalidParam)
  else
    match getObj s o with
    | some _ => (s, .invalidParam)
    | none =>
      if ok then (s ++ [⟨o, k, false, [], [], none⟩], .success)
      else (s, .general)

/-- `rbus_unregisterObj` (rbuscore.c:954-985). -/
def unregisterObj (s : List Obj) (o : Bytes) (ok : Bool) : List Obj × Code :=
  if o = [] ∨ maxName ≤ o.length then (s, .invalidParam)
  else if !ok then (s, .general)
  else
    match getObj s o with
    | some _ => (s.eraseP (fun x => x.name == o), .success)
    | none => (s, .general)

/-- `rbus_registerMethod` (rbuscore.c:844-886), on the object found. -/
def addMethod (x : Obj) (m : Bytes) (c : Callback) : Obj × Code :=
  if maxMethods ≤ x.methods.length then (x, .outOfResources)
  else
    match x.method m with
    | some _ => (x, .invalidParam)
    | none => ({ x with methods := x.methods ++ [(m, c)] }, .success)

/-- `rbus_registerMethod` (rbuscore.c:844-886). -/
def registerMethod (s : List Obj) (o m : Bytes) (k : Nat) : List Obj × Code :=
  if maxMethod ≤ m.length then (s, .invalidParam)
  else
    match getObj s o with
    | some x => let r := addMethod x m (.user k); (setObj s o (fun _ => r.1), r.2)
    | none => (s, .invalidParam)

/-- `rbus_unregisterMethod` (rbuscore.c:889-917). -/
def unregisterMethod (s : List Obj) (o m : Bytes) : List Obj × Code :=
  match getObj s o with
  | some x =>
    match x.method m with
    | some _ => (setObj s o (fun _ => { x with methods := x.methods.eraseP (fun y => y.1 == m) }), .success)
    | none => (s, .general)
  | none => (s, .invalidParam)

/-- `rbus_registerMethodTable` (rbuscore.c:924-937): it ends with the first that fails. -/
def registerTable (s : List Obj) (o : Bytes) : List (Bytes × Nat) → List Obj × Code
  | [] => (s, .success)
  | (m, k) :: rest =>
    let r := registerMethod s o m k
    if r.2 = .success then registerTable r.1 o rest else r

/-- `rbus_unregisterMethodTable` (rbuscore.c:939-952). -/
def unregisterTable (s : List Obj) (o : Bytes) : List Bytes → List Obj × Code
  | [] => (s, .success)
  | m :: rest =>
    let r := unregisterMethod s o m
    if r.2 = .success then unregisterTable r.1 o rest else r

/-- `install_subscription_handlers` (rbuscore.c:1330-1361). -/
def install (x : Obj) : Obj × Code :=
  match x.method subscribeName with
  | some _ => (x, .success)
  | none =>
    let r := addMethod x subscribeName .subscription
    if r.2 ≠ .success then r
    else
      let r := addMethod r.1 unsubscribeName .subscription
      if r.2 ≠ .success then r else ({ r.1 with flag := true }, .success)

/-- The end of `rbus_registerEvent` (rbuscore.c:1404-1405) and of `rbus_registerSubscribeHandler` (1765-1766). -/
def enable (x : Obj) : Obj × Code := if x.flag then (x, .success) else install x

/-- `rbus_registerEvent` (rbuscore.c:1363-1414): the object found, with the event added unless it has one of this name. -/
def withEvent (x : Obj) (e : Bytes) (told : Option Nat) : Obj :=
  match x.event e with
  | some _ => x
  | none => { x with events := x.events ++ [⟨e, [], told⟩] }

/-- `rbus_registerEvent` (rbuscore.c:1363-1414). A NULL name is the default event, the empty name. -/
def registerEvent (s : List Obj) (o e : Bytes) (told : Option Nat) : List Obj × Code :=
  if maxName ≤ e.length then (s, .invalidParam)
  else
    match getObj s o with
    | some x =>
      let r := enable (withEvent x e told)
      (setObj s o (fun _ => r.1), r.2)
    | none => (s, .invalidParam)

/-- `rbus_unregisterEvent` (rbuscore.c:1416-1450). -/
def unregisterEvent (s : List Obj) (o e : Bytes) : List Obj × Code :=
  match getObj s o with
  | some x =>
    match x.event e with
    | some _ => (setObj s o (fun _ => { x with events := x.events.eraseP (fun y => y.name == e) }), .success)
    | none => (s, .invalidParam)
  | none => (s, .invalidParam)

/-- `rbus_registerSubscribeHandler` (rbuscore.c:1748-1775). -/
def registerSubscribeHandler (s : List Obj) (o : Bytes) (k : Nat) : List Obj × Code :=
  match getObj s o with
  | some x => let r := enable { x with decider := some k }; (setObj s o (fun _ => r.1), r.2)
  | none => (s, .invalidParam)

/-- `server_event_addListener` (rbuscore.c:141-162): the event and what its callback is told. -/
def addListener (v : Ev) (l : Bytes) : Ev × Option (Nat × Bool) :=
  if v.listeners.contains l then (v, none)
  else ({ v with listeners := v.listeners ++ [l] }, v.told.map (·, true))

/-- `server_event_removeListener` (rbuscore.c:164-185). -/
def removeListener (v : Ev) (l : Bytes) : Ev × Option (Nat × Bool) :=
  if v.listeners.contains l then ({ v with listeners := v.listeners.erase l }, v.told.map (·, false))
  else (v, none)

/-- `server_object_subscription_handler` (rbuscore.c:213-252), after the subscribe handler of the object declined. -/
def subscribeEvent (x : Obj) (e l : Bytes) (added : Bool) : Obj × Code × Option (Nat × Bool) :=
  match x.event e with
  | some v =>
    let r := if added then addListener v l else removeListener v l
    ({ x with events := updateFirst (fun y => y.name == e) (fun _ => r.1) x.events }, .success, r.2)
  | none => (x, .unsupportedEvent, none)

/-- `server_object_subscription_handler` (rbuscore.c:213-252) as called by `subscription_handler` (1255-1291). Without
the two texts the response stays empty. -/
def subscription (x : Obj) (m : Bytes) (texts : Option (Bytes × Bytes)) (answer : Code) : Obj × Out :=
  match texts with
  | none => (x, .answered none none none)
  | some (e, l) =>
    if maxName ≤ l.length ∨ maxName ≤ e.length then (x, .answered (some .invalidParam) none none)
    else if x.decider.isSome ∧ answer ≠ .notHandled then (x, .answered (some answer) x.decider none)
    else
      let r := subscribeEvent x e l (m == subscribeName)
      (r.1, .answered (some r.2.1) x.decider r.2.2)

/-- `dispatch_method_call` (rbuscore.c:475-509). -/
def request (s : List Obj) (o m : Bytes) (texts : Option (Bytes × Bytes)) (answer : Code) : List Obj × Out :=
  match getObj s o with
  | none => (s, .nobody)
  | some x =>
    match x.method m with
    | some (.user k) => (s, .method k)
    | some .subscription => let r := subscription x m texts answer; (setObj s o (fun _ => r.1), r.2)
    | none => (s, .object x.handler)

/-- `rbus_publishEvent` (rbuscore.c:1686-1746): the listeners the message is sent to. -/
def publish (s : List Obj) (o e : Bytes) : Out :=
  if maxName ≤ o.length then .code .invalidParam
  else
    match getObj s o with
    | some x =>
      match x.event e with
      | some v => .sent v.listeners
      | none => .code .invalidParam
    | none => .code .invalidParam

/-- One step. -/
def step (s : List Obj) : Event → List Obj × Out
  | .registerObj o k ok => let r := registerObj s o k ok; (r.1, .code r.2)
  | .unregisterObj o ok => let r := unregisterObj s o ok; (r.1, .code r.2)
  | .registerMethod o m k => let r := registerMethod s o m k; (r.1, .code r.2)
  | .unregisterMethod o m => let r := unregisterMethod s o m; (r.1, .code r.2)
  | .registerMethodTable o t => let r := registerTable s o t; (r.1, .code r.2)
  | .unregisterMethodTable o t => let r := unregisterTable s o t; (r.1, .code r.2)
  | .registerEvent o e told => let r := registerEvent s o (e.getD []) told; (r.1, .code r.2)
  | .unregisterEvent o e => let r := unregisterEvent s o (e.getD []); (r.1, .code r.2)
  | .registerSubscribeHandler o k => let r := registerSubscribeHandler s o k; (r.1, .code r.2)
  | .request o m texts answer => request s o m texts answer
  | .publish o e => (s, publish s o (e.getD []))

/-- A history from the opening of the connection (`perform_init`, rbuscore.c:375-383): the state and what was seen. -/
def run (s : List Obj) : List Event → List Obj × List Out
  | [] => (s, [])
  | e :: es => let r := step s e; let q := run r.1 es; (q.1, r.2 :: q.2)

/-! ## Publishing while listeners come and go -/

/-- The listeners of an event while a thread publishes (rbuscore.c:1718-1729): position and number of listeners as
counted at the beginning. The callback thread changes the listeners (141-185) without `g_mutex`, which
`dispatch_method_call` gave back before (rbuscore.c:495). -/
structure Loop where
  listeners : List Bytes
  pos : Nat
  count : Nat
  deriving DecidableEq, Repr

/-- The publishing thread goes on by one listener, or a listener comes or goes. -/
inductive Turn where
  | next
  | join (l : Bytes)
  | leave (l : Bytes)
  deriving DecidableEq, Repr

/-- The loop begins (rbuscore.c:1720). -/
def Loop.start (ls : List Bytes) : Loop := ⟨ls, 0, ls.length⟩

/-- One turn, with the listener sent to. `rtVector_At` gives NULL beyond the end (rtVector.c:160-166), and the address
is copied from there. -/
def Loop.turn (s : Loop) : Turn → Res (Loop × Option Bytes)
  | .next =>
    if s.pos < s.count then
      match s.listeners[s.pos]? with
      | some l => .ok ({ s with pos := s.pos + 1 }, some l)
      | none => .ub
    else .ok (s, none)
  | .join l => .ok ({ s with listeners := if s.listeners.contains l then s.listeners else s.listeners ++ [l] }, none)
  | .leave l => .ok ({ s with listeners := s.listeners.erase l }, none)

/-- Turns one after the other, with the listeners sent to. -/
def Loop.run (s : Loop) : List Turn → Res (Loop × List Bytes)
  | [] => .ok (s, [])
  | t :: ts => do
    let r ← s.turn t
    let q ← Loop.run r.1 ts
    pure (q.1, r.2.toList ++ q.2)

/-! ## Two threads, one object and the mutex -/

/-- What a thread does with the mutex and with one object: `find` is `get_object`, on whose failure the function only
gives the mutex back; `touch` reads or writes the memory of the object; `free` is `server_object_destroy`. -/
inductive Act where
  | lock
  | unlock
  | find
  | touch
  | free
  deriving DecidableEq, Repr

/-- What two threads have left to do, who holds `g_mutex` (`true` the first) and whether the object is freed. -/
structure Two where
  first : List Act
  second : List Act
  owner : Option Bool
  freed : Bool
  deriving DecidableEq, Repr

/-- `rbus_registerMethod` (rbuscore.c:844-886) for an object that is there. -/
def registerMethodActs : List Act := [.lock, .find, .touch, .touch, .unlock]

/-- `rbus_registerEvent` (rbuscore.c:1363-1414) for the first event of an object, with
`install_subscription_handlers` (1330-1361), which calls `rbus_registerMethod` twice, with the name in the object itself
(1344, 1350). Both take and give back the mutex that is held already. Then `process_event_subscriptions` is set (1357). -/
def registerEventActs : List Act :=
  [.lock, .find, .touch, .touch] ++ [.lock, .touch, .find, .touch, .touch, .unlock] ++
    [.lock, .touch, .find, .touch, .touch, .unlock] ++ [.touch, .unlock]

/-- `rbus_unregisterObj` (rbuscore.c:954-985). -/
def unregisterObjActs : List Act := [.lock, .find, .free, .unlock]

/-- `dispatch_method_call` (rbuscore.c:475-509) with the object `onMessage` (511-545) was given when it was registered:
methods are looked for under the mutex, the callback and its data are read after it. -/
def dispatchActs : List Act := [.lock, .touch, .unlock, .touch]

/-- One of the threads goes on. `g_mutex` is of type PTHREAD_MUTEX_ERRORCHECK (rbuscore.c:615-623): locking what one
holds, and unlocking what one does not hold, are errors that `lock` and `unlock` (363-371) pass on to nobody. A thread
that waits for the mutex stays where it is. -/
def Two.turn (s : Two) (who : Bool) : Res Two :=
  let put (rest : List Act) (owner : Option Bool) (freed : Bool) : Two :=
    if who then ⟨rest, s.second, owner, freed⟩ else ⟨s.first, rest, owner, freed⟩
  match (if who then s.first else s.second) with
  | [] => .ok s
  | .lock :: rest =>
    if s.owner = some (!who) then .ok s else .ok (put rest (some who) s.freed)
  | .unlock :: rest => .ok (put rest (if s.owner = some who then none else s.owner) s.freed)
  | .find :: rest => .ok (put (if s.freed then [.unlock] else rest) s.owner s.freed)
  | .touch :: rest => if s.freed then .ub else .ok (put rest s.owner s.freed)
  | .free :: rest => .ok (put rest s.owner true)

/-- Turns in any order. -/
def Two.run (s : Two) : List Bool → Res Two
  | [] => .ok s
  | w :: ws => do
    let q ← s.turn w
    q.run ws

end Verif.Core
