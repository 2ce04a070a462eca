import Verif.Model.Trace

/-!
# What is expected of the trace context

Each thread has one trace, made of two strings. A request takes it along, and the thread that handles the request has it
until the request is answered.
-/

namespace Verif.Spec.Trace

open Verif Verif.Message Verif.Trace

/-- A trace. -/
structure Trace where
  parent : Bytes
  state : Bytes
  deriving DecidableEq, Repr

/-- No trace. -/
def blank : Trace := ⟨[], []⟩

/-- What is kept of a string: nothing if it is longer than 510 bytes. -/
def kept : Option Bytes → Bytes
  | none => []
  | some s => if s.length ≤ 510 then s else []

/-- The trace each thread has, and the trace each request took along. -/
structure Sheet where
  has : Nat → Trace
  sent : List Trace

/-- In the beginning. -/
def empty : Sheet := ⟨fun _ => blank, []⟩

/-- Thread `t` has trace `x` from now on. -/
def Sheet.give (w : Sheet) (t : Nat) (x : Trace) : Sheet :=
  ⟨fun u => if u = t then x else w.has u, w.sent⟩

/-- What an event does to the traces. -/
def after (w : Sheet) : Event → Sheet
  | .set t true p q => w.give t ⟨kept p, kept q⟩
  | .clear t true => w.give t blank
  | .request t _ _ => ⟨w.has, w.sent ++ [w.has t]⟩
  | .invokeAsync _ u _ _ => ⟨(w.give u blank).has, w.sent ++ [blank]⟩
  | .deliver t k => w.give t (w.sent[k]?.getD blank)
  | .answered t false => w.give t blank
  | .close t => w.give t blank
  | .exit t => w.give t blank
  | _ => w

/-- What the events do to the traces. -/
def afterAll (w : Sheet) (h : List Event) : Sheet := h.foldl after w

/-- A C string as long as a message can hold one. -/
def CString (s : Bytes) : Prop := (0 : UInt8) ∉ s ∧ s.length + 1 < 2 ^ 32

/-- Arguments as the API asks for them, arrays of at least one byte, and messages that have been sent (`n` of them). -/
def Sane (n : Nat) : Event → Prop
  | .set _ _ p q => (∀ s, p = some s → (0 : UInt8) ∉ s) ∧ ∀ s, q = some s → (0 : UInt8) ∉ s
  | .get _ _ lp lq => (∀ x, lp = some x → 0 < x) ∧ ∀ x, lq = some x → 0 < x
  | .request _ m b => CString m ∧ b.length < 2 ^ 31 - 32768
  | .invokeAsync _ _ m b => CString m ∧ b.length < 2 ^ 31 - 32768
  | .deliver _ k => k < n
  | .direct _ k => k < n
  | _ => True

/-- An event that sends a request. -/
def sends : Event → Bool
  | .request .. => true
  | .invokeAsync .. => true
  | _ => false

/-- How many requests the events send. -/
def requests (h : List Event) : Nat := h.countP sends

/-- Each event of a history is sane. -/
def AllSane (h : List Event) : Prop := ∀ a e b, h = a ++ e :: b → Sane (requests a) e

/-- What the recipient reads out of a message: the name of the method and the trace. -/
def Carries (m method : Bytes) (x : Trace) : Prop := getMeta m 0 = .ok ((method, x.parent, x.state), 0)

/-- The string a caller finds in its array, if it gives one: what fits before the NUL. -/
def found (s : Bytes) (len : Option Int) : Option Bytes := len.map fun n => s.take (n - 1).toNat

/-- What an event gives, the traces being as in `w`. -/
def Reply (w : Sheet) : Event → Out → Prop
  | .set _ handle _ _, o => o = if handle then .success none none else .invalidHandle
  | .clear _ handle, o => o = if handle then .success none none else .invalidHandle
  | .get t handle lp lq, o =>
    o = if handle then .success (found (w.has t).parent lp) (found (w.has t).state lq) else .invalidHandle
  | .request t m _, o => ∃ msg, o = .message msg ∧ Carries msg m (w.has t)
  | .invokeAsync _ _ m _, o => ∃ msg, o = .message msg ∧ Carries msg m blank
  | _, o => o = .silent

/-- What the events give. -/
def Replies : Sheet → List Event → List Out → Prop
  | _, [], [] => True
  | w, e :: es, o :: os => Reply w e o ∧ Replies (after w e) es os
  | _, _, _ => False

/-- The events that give thread `t` another trace, or none. -/
def touches (t : Nat) : Event → Bool
  | .set u handle _ _ => handle && u == t
  | .clear u handle => handle && u == t
  | .invokeAsync _ u _ _ => u == t
  | .deliver u _ => u == t
  | .answered u later => !later && u == t
  | .close u => u == t
  | .exit u => u == t
  | _ => false

/-- The messages among what the events gave. -/
def messages (os : List Out) : List Bytes :=
  os.filterMap fun o => match o with
    | .message m => some m
    | _ => none

/-- Request `j` was made by a thread while it handled request `i`, its trace not having been touched. -/
def Behalf (h : List Event) (i j : Nat) : Prop :=
  ∃ a t b m body c, h = a ++ .deliver t i :: b ++ .request t m body :: c ∧ (∀ e ∈ b, touches t e = false) ∧
    j = requests a + requests b

/-- Request `j` was made on behalf of one made on behalf of one ... made on behalf of request `i`. -/
inductive Chain (h : List Event) (i : Nat) : Nat → Prop where
  | self : Chain h i i
  | next {j k : Nat} : Chain h i j → Behalf h j k → Chain h i k

end Verif.Spec.Trace
