import Verif.Model.Base

/-!
# Model of opening and closing the connection with the core library (src/core/rbuscore.c)

A process has at most one connection, shared by all who open it. It comes with lists of what is registered and with a
mutex, all of them global variables that opening makes and closing destroys. Calls are made by threads, which are
numbers. Opening is two steps, since `g_mutex_init` is read without a lock; closing is two steps, since
`perform_cleanup` unlocks the mutex, which is of the kind that notes its owner: locking it again by the owner and
unlocking it by another fail, which nobody looks at (rbuscore.c:363-371). Other calls are one step. What is registered
is counted only (see `Verif.Core`); a mutex that another thread has is waited for, which is `blocked`.
-/

namespace Verif.Broker

open Verif

/-- `g_mutex` (rbuscore.c:325): not initialised or destroyed, not locked, or locked by a thread. -/
inductive Mutex where
  | dead
  | free
  | held (t : Nat)
  deriving DecidableEq, Repr

/-- The lists (rbuscore.c:324-330): those made by `perform_init` and not destroyed since, or not. -/
inductive Lists where
  | absent
  | live (objects : Nat)
  deriving DecidableEq, Repr

/-- `g_mutex_init`, `g_mutex`, `g_connection`, the lists; threads that are opening, with what they read of
`g_mutex_init`, and threads that are closing. -/
structure State where
  ready : Bool
  mutex : Mutex
  conn : Bool
  lists : Lists
  opening : List (Nat × Bool)
  closing : List Nat
  deriving DecidableEq, Repr

/-- Nothing yet. -/
def init : State := ⟨false, .dead, false, .absent, [], []⟩

/-- What happens: a thread begins to open, goes on with it (`reach` is whether the router can be reached), begins to
close, goes on with it, registers an object under a new name, unregisters one, looks something up in the lists. -/
inductive Event where
  | «open» (t : Nat)
  | opened (t : Nat) (reach : Bool)
  | close (t : Nat)
  | closed (t : Nat)
  | register (t : Nat)
  | unregister (t : Nat)
  | look (t : Nat)
  deriving DecidableEq, Repr

/-- The thread of an event. -/
def Event.thread : Event → Nat
  | .open t | .opened t _ | .close t | .closed t | .register t | .unregister t | .look t => t

/-- What is seen: a call not back yet; one that waits for the mutex; one answered with success and a new connection, or
with the connection there was; one answered with success after the connection was destroyed; success; errors. -/
inductive Out where
  | pending
  | blocked
  | connected
  | shared
  | destroyed
  | success
  | general
  | invalidState
  deriving DecidableEq, Repr

/-- `lock` (rbuscore.c:363-366): `none` when another thread has the mutex; undefined for a mutex that is none. -/
def State.lock (s : State) (t : Nat) : Res (Option State) :=
  match s.mutex with
  | .dead => .ub
  | .free => .ok (some { s with mutex := .held t })
  | .held u => .ok (if u = t then some s else none)

/-- `unlock` (rbuscore.c:368-371): undefined for a mutex that is none. -/
def State.unlock (s : State) (t : Nat) : Res State :=
  match s.mutex with
  | .dead => .ub
  | .free => .ok s
  | .held u => .ok (if u = t then { s with mutex := .free } else s)

/-- `pthread_mutex_init` for a thread that read `g_mutex_init` as 0 (rbuscore.c:615-624): undefined for a mutex that is
one already. -/
def State.prepare (s : State) (first : Bool) : Res State :=
  if first then (if s.mutex = .dead then .ok { s with mutex := .free, ready := true } else .ub) else .ok s

/-- `perform_init` (rbuscore.c:375-383). -/
def State.setUp (s : State) : State := { s with lists := .live 0 }

/-- `perform_cleanup` (rbuscore.c:385-421): called with the mutex locked, which it locks in vain and then unlocks; the
pointers to the lists stay, so that doing it twice is undefined. The requests sent to unsubscribe are left out. -/
def State.cleanUp (s : State) (t : Nat) : Res State :=
  match s.lists with
  | .absent => .ub
  | .live _ => ({ s with lists := .absent } : State).unlock t

/-- `rbus_openBrokerConnection2` with the mutex locked (rbuscore.c:628-658). -/
def State.connect (s : State) (t : Nat) (reach : Bool) : Res (State × Out) :=
  if s.conn then do
    let s ← s.unlock t
    pure (s, .shared)
  else if reach then do
    let s ← ({ s.setUp with conn := true } : State).unlock t
    pure (s, .connected)
  else do
    let s ← s.setUp.cleanUp t
    let s ← s.unlock t
    pure (s, .general)

/-- `rbus_openBrokerConnection2` once the mutex was asked for (rbuscore.c:626-658): a thread that waits for it does not
read `g_mutex_init` again. -/
def State.afterLock (s : State) (t : Nat) (reach : Bool) : Option State → Res (State × Out)
  | none => .ok ({ s with opening := s.opening.filter (fun x => x.1 != t) ++ [(t, false)] }, .blocked)
  | some s => ({ s with opening := s.opening.filter (fun x => x.1 != t) } : State).connect t reach

/-- `rbus_openBrokerConnection2` after reading `g_mutex_init` (rbuscore.c:615-658). -/
def State.finishOpen (s : State) (t : Nat) (first reach : Bool) : Res (State × Out) := do
  let s ← s.prepare first
  let r ← s.lock t
  s.afterLock t reach r

/-- `rbus_closeBrokerConnection` with the mutex locked, up to destroying the connection (rbuscore.c:665-677): without a
connection it returns with the mutex locked. -/
def State.leave (s : State) (t : Nat) : Res (State × Out) :=
  if s.conn then
    match s.lists with
    | .absent => .ub
    | .live n =>
      if 1 < n then do
        let s ← s.unlock t
        pure (s, .success)
      else do
        let s ← s.cleanUp t
        pure ({ s with closing := s.closing ++ [t] }, .pending)
  else .ok (s, .invalidState)

/-- `rbus_closeBrokerConnection` from destroying the connection on (rbuscore.c:678-694). `rtConnection_Destroy` always
returns RT_OK (rtConnection.c:697-764). Destroying a mutex that is locked is undefined. -/
def State.finishClose (s : State) (t : Nat) : Res (State × Out) := do
  let s ← ({ s with conn := false, closing := s.closing.filter (· != t) } : State).unlock t
  if s.mutex = .free then pure ({ s with mutex := .dead, ready := false }, .destroyed) else .ub

/-- A call that needs the mutex: it waits for another that has it. -/
def State.locked (s : State) (t : Nat) (f : State → Res (State × Out)) : Res (State × Out) := do
  match ← s.lock t with
  | none => pure (s, .blocked)
  | some s => f s

/-- Adding and removing an object, or neither; undefined when the lists are destroyed. -/
def State.change (s : State) (t : Nat) (f : Nat → Nat) : Res (State × Out) :=
  match s.lists with
  | .absent => .ub
  | .live n => do
    let s ← ({ s with lists := .live (f n) } : State).unlock t
    pure (s, .success)

/-- One step. `rbus_registerObj` looks whether there is a connection before it locks the mutex (rbuscore.c:780-842; two
sections, taken as one), `rbus_unregisterObj` does by what rtConnection_RemoveListener says (954-986), functions like
`rbus_registerMethod` (844-886) do not. An object that is unregistered has been registered. -/
def step (s : State) (e : Event) : Res (State × Out) :=
  match e with
  | .open t =>
    if s.opening.any (fun x => x.1 == t) then .fail else
    .ok ({ s with opening := s.opening ++ [(t, !s.ready)] }, .pending)
  | .opened t reach => match s.opening.find? (fun x => x.1 == t) with
    | some x => s.finishOpen t x.2 reach
    | none => .fail
  | .close t => s.locked t (fun s => s.leave t)
  | .closed t => if s.closing.contains t then s.finishClose t else .fail
  | .register t => if s.conn then s.locked t (fun s => s.change t (· + 1)) else .ok (s, .invalidState)
  | .unregister t => if s.conn then s.locked t (fun s => s.change t (· - 1)) else .ok (s, .general)
  | .look t => s.locked t (fun s => s.change t id)

/-- Steps in order. -/
def run (s : State) : List Event → Res (State × List Out)
  | [] => .ok (s, [])
  | e :: es => do
    let (s, o) ← step s e
    let (s, os) ← run s es
    pure (s, o :: os)

end Verif.Broker
