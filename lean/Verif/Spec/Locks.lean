import Verif.Model.Locks

/-!
# What it means that threads wait for each other for ever, and which programs do not
-/

namespace Verif.Spec.Locks

open Verif Verif.Locks

/-- Thread `t` waits for thread `u`: for a mutex that `u` has (it may be `t` itself), or for the end of `u`. -/
def Waits (s : State) (t u : Nat) : Prop :=
  match (s.thread t).todo with
  | .lock m :: _ => ∃ n, s.owner m = some (u, n) ∧ (u ≠ t ∨ m.kind = .normal)
  | .join v :: _ => v = u ∧ (s.thread u).todo ≠ []
  | _ => False

/-- Some threads wait, each for one of them. -/
def Deadlock (s : State) (D : Nat → Prop) : Prop := (∃ t, D t) ∧ ∀ t, D t → ∃ u, D u ∧ Waits s t u

/-- Thread `t` is between locking and unlocking `m`: it has passed more locks than unlocks. -/
def Inside (s : State) (t : Nat) (m : Mutex) : Prop :=
  (s.thread t).past.count (.unlock m) < (s.thread t).past.count (.lock m)

/-- A thread has ended. -/
def Ended (s : State) (t : Nat) : Prop := (s.thread t).todo = []

instance (s : State) (t : Nat) (m : Mutex) : Decidable (Inside s t m) := inferInstanceAs (Decidable (_ < _))

instance (s : State) (t : Nat) : Decidable (Ended s t) := inferInstanceAs (Decidable (_ = _))

/-- Two kinds of time. `changing`: values change and programs publish, also in the handlers of elements, but nobody
begins or ends watching a property by subscribing, nor begins or ends a subscription with an interval.
`subscribing`: subscriptions begin and end, but no watched value changes and no handler of an element publishes or
registers; nor is the time of a subscription with an interval over. -/
inductive Mode where
  | changing | subscribing
  deriving DecidableEq, Repr

/-- From where a function of the library is called: from a thread of its own (the program's threads and the callback
thread), from the function that is told about an asynchronous subscription, from an event handler, from the polling
thread or the thread of an interval, from the handler of an element. -/
inductive Place where
  | thread | told | event | helper | handler
  deriving DecidableEq, Repr

/-- A thread, an asynchronous response or an event handler. -/
def Place.outer : Place → Bool
  | .thread | .told | .event => true
  | .helper | .handler => false

/-- What may be called from where. No subscriptions from the cache, no sync handlers of tables, no subscriptions of a
client that has gone; the last handle and private connections stay open. -/
def may (w : Mode) (p : Place) : Call → Bool
  | .request | .listener => true
  | .publish _ _ => p.outer || w = .changing
  | .isSubscribed _ | .subscribeAsync _ | .unsubscribe _ | .retry _ => p = .thread || p = .told
  | .subscribe _ initial => p = .thread || (p = .told && !initial)
  | .registerRow _ watched _ cached => cached = [] && (p.outer || (w = .changing && watched = []))
  | .unregisterRow _ watched _ => p.outer || (w = .changing && watched = [])
  | .registerElement _ cached => cached = [] && (p.outer || w = .changing)
  | .open | .close _ _ _ | .event _ => p = .thread
  | .closeLast _ _ _ _ | .closeDirect _ => false
  | .serve _ table => p = .thread && table = none
  | .serveSubscribe _ _ x table => p = .thread && table = none && (x = .nothing || w = .subscribing)
  | .clientGone hs priv => p = .thread && hs.all (·.2 = []) && priv = none
  | .poll ps => (p = .thread || p = .helper) && (w = .changing || ps.all (·.2.2 = none))
  | .interval _ _ _ => p = .thread || p = .helper
  | .intervalOver _ => (p = .thread || p = .helper) && w = .changing

/-- Where the program's function runs that the call calls. -/
def inner : Call → Place
  | .event _ | .subscribe _ _ => .event
  | .retry _ => .told
  | _ => .handler

/-- The polling thread and the threads of intervals it may wait for to end. -/
def helpers : Call → List Nat
  | .unregisterRow _ watched _ => watched.filterMap id
  | .serveSubscribe _ _ (.unwatch (some t)) _ => [t]
  | .serveSubscribe _ _ (.finish (some t)) _ => [t]
  | _ => []

/-- The threads `rbus_close` waits for, among them the one that subscribes. -/
def ending : Call → List Nat
  | .close _ _ ts => ts
  | _ => []

/-- A program that calls what it may; `role` tells what each thread is. -/
def Fine (w : Mode) (role : Nat → Place) : Place → Prog → Prop
  | _, .done => True
  | p, .call c a b next =>
    may w p c = true ∧ (∀ t ∈ helpers c, role t = .helper) ∧ (∀ t ∈ ending c, role t = .helper ∨ role t = .told) ∧
      Fine w role (inner c) a ∧ Fine w role .handler b ∧ Fine w role p next

/-- All threads do. -/
def AllFine (w : Mode) (role : Nat → Place) (p : Nat → Prog) : Prop := ∀ t, Fine w role (role t) (p t)

/-- `t` waits for `u`, or for one that waits for `u`, and so on. -/
inductive Behind (s : State) : Nat → Nat → Prop where
  | here {t} : Behind s t t
  | next {t u v} : Waits s t u → Behind s u v → Behind s t v

/-- A program of one call, with the program's functions `a` and `b`. -/
def once (c : Call) (a b : Prog := .done) : Prog := .call c a b .done

/-- Two threads. -/
def duo (p q : Prog) : Nat → Prog
  | 0 => p
  | 1 => q
  | _ => .done

/-- These two. -/
def both (t : Nat) : Prop := t = 0 ∨ t = 1

end Verif.Spec.Locks
