import Verif.Model.Core

/-!
# What programs rely on when they register objects, methods and events

A sheet notes for every name what the last successful calls left; what every call answers follows from it.
-/

namespace Verif.Spec.Core

open Verif Verif.Core

/-- What is noted. -/
structure Sheet where
  /-- The handler of an object, if it is registered. -/
  handler : Bytes → Option Nat
  /-- The callback of a method of an object. -/
  method : Bytes → Bytes → Option Nat
  /-- How many methods an object has, the two for subscriptions included. -/
  count : Bytes → Nat
  /-- The object takes subscriptions. -/
  enabled : Bytes → Bool
  /-- The events of an object, with the callback to be told of listeners. -/
  event : Bytes → Bytes → Option (Option Nat)
  /-- The listeners of an event, from the first to the last who came. -/
  listeners : Bytes → Bytes → List Bytes
  /-- The subscribe handler of an object. -/
  decider : Bytes → Option Nat

/-- Nothing is registered. -/
def empty : Sheet := ⟨fun _ => none, fun _ _ => none, fun _ => 0, fun _ => false, fun _ _ => none, fun _ _ => [], fun _ => none⟩

/-- A function changed at one place. -/
def put {α β : Type} [DecidableEq α] (f : α → β) (a : α) (b : β) : α → β := fun x => if x = a then b else f x

/-- Nothing is known of this object any more, but that it has this handler. -/
def Sheet.fresh (S : Sheet) (o : Bytes) (h : Option Nat) : Sheet where
  handler := put S.handler o h
  method := put S.method o fun _ => none
  count := put S.count o 0
  enabled := put S.enabled o false
  event := put S.event o fun _ => none
  listeners := put S.listeners o fun _ => []
  decider := put S.decider o none

/-- Registering a method: its answer. -/
def Sheet.canAdd (S : Sheet) (o m : Bytes) : Code :=
  if 64 ≤ m.length then .invalidParam
  else if S.handler o = none then .invalidParam
  else if 32 ≤ S.count o then .outOfResources
  else if (S.method o m).isSome then .invalidParam
  else .success

/-- A method was registered. -/
def Sheet.add (S : Sheet) (o m : Bytes) (k : Nat) : Sheet :=
  { S with method := put S.method o (put (S.method o) m (some k)), count := put S.count o (S.count o + 1) }

/-- Removing a method: its answer. -/
def Sheet.canDrop (S : Sheet) (o m : Bytes) : Code :=
  if S.handler o = none then .invalidParam else if (S.method o m).isSome then .success else .general

/-- A method was removed. -/
def Sheet.drop (S : Sheet) (o m : Bytes) : Sheet :=
  { S with method := put S.method o (put (S.method o) m none), count := put S.count o (S.count o - 1) }

/-- One method after the other, up to the first that fails. -/
def Sheet.addAll (S : Sheet) (o : Bytes) : List (Bytes × Nat) → Sheet × Code
  | [] => (S, .success)
  | (m, k) :: rest =>
    match S.canAdd o m with
    | .success => (S.add o m k).addAll o rest
    | c => (S, c)

/-- One method after the other, up to the first that fails. -/
def Sheet.dropAll (S : Sheet) (o : Bytes) : List Bytes → Sheet × Code
  | [] => (S, .success)
  | m :: rest =>
    match S.canDrop o m with
    | .success => (S.drop o m).dropAll o rest
    | c => (S, c)

/-- The object takes subscriptions from now on; this takes two methods, once. -/
def Sheet.enable (S : Sheet) (o : Bytes) : Sheet :=
  if S.enabled o then S
  else { S with enabled := put S.enabled o true, count := put S.count o (S.count o + 2) }

/-- Can the object take subscriptions? -/
def Sheet.canEnable (S : Sheet) (o : Bytes) : Code :=
  if S.enabled o ∨ S.count o ≤ 30 then .success else .outOfResources

/-- One who asks to be told of an event, or no longer. -/
def Sheet.subscribe (S : Sheet) (o e l : Bytes) (added : Bool) : Sheet :=
  { S with listeners := put S.listeners o (put (S.listeners o) e
      (if added then (if l ∈ S.listeners o e then S.listeners o e else S.listeners o e ++ [l])
       else (S.listeners o e).filter (· ≠ l))) }

/-- What a call or message is answered with, and what is noted then. -/
def Sheet.next (S : Sheet) : Event → Sheet × Out
  | .registerObj o k ok =>
    if 256 ≤ o.length ∨ o = [] ∨ (S.handler o).isSome then (S, .code .invalidParam)
    else if ok then (S.fresh o (some k), .code .success)
    else (S, .code .general)
  | .unregisterObj o ok =>
    if 256 ≤ o.length ∨ o = [] then (S, .code .invalidParam)
    else if ok ∧ (S.handler o).isSome then (S.fresh o none, .code .success)
    else (S, .code .general)
  | .registerMethod o m k =>
    (if S.canAdd o m = .success then S.add o m k else S, .code (S.canAdd o m))
  | .unregisterMethod o m =>
    (if S.canDrop o m = .success then S.drop o m else S, .code (S.canDrop o m))
  | .registerMethodTable o t => ((S.addAll o t).1, .code (S.addAll o t).2)
  | .unregisterMethodTable o t => ((S.dropAll o t).1, .code (S.dropAll o t).2)
  | .registerEvent o e told =>
    let e := e.getD []
    if 256 ≤ e.length ∨ S.handler o = none then (S, .code .invalidParam)
    else if S.canEnable o = .success then
      (({ S with event := put S.event o (put (S.event o) e (some ((S.event o e).getD told))) } : Sheet).enable o,
        .code .success)
    else (S, .code .outOfResources)
  | .unregisterEvent o e =>
    let e := e.getD []
    if (S.event o e).isSome then
      ({ S with event := put S.event o (put (S.event o) e none)
                listeners := put S.listeners o (put (S.listeners o) e []) }, .code .success)
    else (S, .code .invalidParam)
  | .registerSubscribeHandler o k =>
    if S.handler o = none then (S, .code .invalidParam)
    else if S.canEnable o = .success then
      (({ S with decider := put S.decider o (some k) } : Sheet).enable o, .code .success)
    else (S, .code .outOfResources)
  | .request o m texts answer =>
    match S.handler o with
    | none => (S, .nobody)
    | some h =>
      if S.enabled o ∧ (m = subscribeName ∨ m = unsubscribeName) then
        match texts with
        | none => (S, .answered none none none)
        | some (e, l) =>
          if 256 ≤ l.length ∨ 256 ≤ e.length then (S, .answered (some .invalidParam) none none)
          else if (S.decider o).isSome ∧ answer ≠ .notHandled then (S, .answered (some answer) (S.decider o) none)
          else
            match S.event o e with
            | none => (S, .answered (some .unsupportedEvent) (S.decider o) none)
            | some told =>
              let added := m = subscribeName
              (S.subscribe o e l added, .answered (some .success) (S.decider o)
                (if (l ∈ S.listeners o e) = added then none else told.map (·, decide added)))
      else
        match S.method o m with
        | some k => (S, .method k)
        | none => (S, .object h)
  | .publish o e =>
    if (S.event o (e.getD [])).isSome then (S, .sent (S.listeners o (e.getD []))) else (S, .code .invalidParam)

/-- What a history is answered with. -/
def Sheet.answers (S : Sheet) : List Event → Sheet × List Out
  | [] => (S, [])
  | e :: es => let r := S.next e; let q := r.1.answers es; (q.1, r.2 :: q.2)

/-- The two names the library keeps for itself. -/
def Reserved (m : Bytes) : Prop := m = subscribeName ∨ m = unsubscribeName

/-- The program leaves these two methods alone. -/
def Polite : Event → Prop
  | .registerMethod _ m _ | .unregisterMethod _ m => ¬ Reserved m
  | .registerMethodTable _ t => ∀ x ∈ t, ¬ Reserved x.1
  | .unregisterMethodTable _ t => ∀ m ∈ t, ¬ Reserved m
  | _ => True

/-- An object was to take subscriptions that has too many methods for it. -/
def Crowded : Event × Out → Prop
  | (.registerEvent _ _ _, .code .outOfResources) | (.registerSubscribeHandler _ _, .code .outOfResources) => True
  | _ => False

end Verif.Spec.Core
