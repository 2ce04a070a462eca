import Verif.Model.CoreClient

/-!
# What a program that subscribes relies on
-/

namespace Verif.Spec.CoreClient

open Verif Verif.CoreClient

/-- The names a call is about: an object not given is the event, an event not given the empty name. -/
def names : Event → Option (Bytes × Bytes)
  | .begin o e _ | .unsubscribe o e _ => (o.or e).map (·, e.getD [])
  | .finish o e _ => some (o, e)
  | _ => none

/-- What a call and its result change for the event it is about: the callback the program has, and that of a
subscription on its way. -/
def change (s : Option Nat × Option Nat) : Event × Out → Option Nat × Option Nat
  | (.begin _ _ k, .requested) => (s.1, k)
  | (.finish _ _ _, .code .success) => (s.2, none)
  | (.finish _ _ _, .code _) => (s.1, none)
  | (.unsubscribe _ _ _, .code _) => (none, s.2)
  | _ => s

/-- The callback the program has for an event of an object, from the calls made and their results: that of the last
subscription answered with success, unless it was given up since. The second component is a subscription on its way. -/
def has (o e : Bytes) (h : List (Event × Out)) : Option Nat × Option Nat :=
  h.foldl (fun s x => if names x.1 = some (o, e) then change s x else s) (none, none)

/-- Calls about one event of an object do not overlap: until a subscription is answered there is no other call. -/
def Apart (h : List (Event × Out)) : Prop :=
  ∀ a x b, h = a ++ x :: b → ∀ o e, names x.1 = some (o, e) → (has o e a).2.isSome →
    ∃ r, x.1 = .finish o e r

/-- No provider forgets. -/
def Kept (h : List (Event × Out)) : Prop := ∀ x ∈ h, ∀ o e, x.1 ≠ .forget o e

/-- Names are used in one way only: an object by its own name or as the owner of an element that has the name of the
event, and no two of them for one event of which one gets the messages of the other. -/
def Tidy (owner : Bytes → Bytes) (h : List (Event × Out)) : Prop :=
  ∀ x ∈ h, ∀ o e, names x.1 = some (o, e) → (o = owner o ∨ o = e) ∧
    ∀ y ∈ h, ∀ o', names y.1 = some (o', e) → o' = owner o ∨ o' = e → o' = o

end Verif.Spec.CoreClient
