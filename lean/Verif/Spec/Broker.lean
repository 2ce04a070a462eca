import Verif.Model.Broker

/-!
# What those who share a connection rely on

All of it is told from calls and answers.
-/

namespace Verif.Spec.Broker

open Verif Verif.Broker

/-- What those who use the connection know: a call to open or close that is not back yet; the number of objects
registered while there is a connection. -/
structure Sheet where
  busy : Option Event
  objects : Option Nat
  deriving DecidableEq, Repr

/-- What a step and its answer change. -/
def note (k : Sheet) : Event × Out → Sheet
  | (.open t, _) => { k with busy := some (.open t) }
  | (.opened _ _, .connected) => ⟨none, some 0⟩
  | (.opened _ _, _) => { k with busy := none }
  | (.close t, .pending) => { k with busy := some (.close t) }
  | (.closed _, _) => ⟨none, none⟩
  | (.register _, .success) => { k with objects := k.objects.map (· + 1) }
  | (.unregister _, .success) => { k with objects := k.objects.map (· - 1) }
  | _ => k

/-- What is known after a history. -/
def sheet (h : List (Event × Out)) : Sheet := h.foldl note ⟨none, none⟩

/-- What an orderly process does: while a call to open or close is on its way it makes no other call, and it closes or
looks something up only with a connection. -/
def Allowed (k : Sheet) : Event → Prop
  | .opened t _ => k.busy = some (.open t)
  | .closed t => k.busy = some (.close t)
  | .close _ => k.busy = none ∧ k.objects.isSome
  | .look _ => k.busy = none ∧ k.objects.isSome
  | _ => k.busy = none

/-- It did so all the time. -/
def Orderly (h : List (Event × Out)) : Prop := ∀ a x b, h = a ++ x :: b → Allowed (sheet a) x.1

/-- The answer due. -/
def answer (k : Sheet) : Event → Out
  | .open _ => .pending
  | .opened _ reach => if k.objects.isSome then .shared else if reach then .connected else .general
  | .close _ => if 1 < k.objects.getD 0 then .success else .pending
  | .closed _ => .destroyed
  | .register _ => if k.objects.isSome then .success else .invalidState
  | .unregister _ => if k.objects.isSome then .success else .general
  | .look _ => .success

end Verif.Spec.Broker
