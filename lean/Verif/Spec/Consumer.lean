import Verif.Model.Consumer
import Verif.Spec.Filter

/-!
# Specification: which handler the events of a subscription go to
-/

namespace Verif.Spec.Consumer

open Verif Verif.Value Verif.Consumer
open Verif.Filter (Filter Same)

/-- Values that are compared as expected: numbers other than NaN, times, text that is not NULL. -/
def PlainValue (sc : Bool) : Scalar → Prop
  | .string (some _) => True
  | .datetime _ => True
  | .string none => False
  | .bytes _ => False
  | .none => False
  | v => toDbl sc v ≠ some .nan

/-- Filters all of whose values are. -/
def PlainFilter (sc : Bool) : Filter → Prop
  | .null => True
  | .relation _ v => PlainValue sc v
  | .logic _ l r => PlainFilter sc l ∧ PlainFilter sc r

/-- Two keys mean the same subscription. -/
def SameKey (sc : Bool) (a b : Key) : Prop :=
  a.name = b.name ∧ Same sc a.filter b.filter ∧ a.interval = b.interval ∧ a.duration = b.duration ∧ a.raw = b.raw

/-- The history of a handle. -/
abbrev History := List (Op × Out)

/-- How a subscription stands for its user: there is none; events go to a handler; the user has ended it, but the
provider could not be told; and after that, the user has started to subscribe again. -/
inductive Status where
  | off
  | on (handler : Nat)
  | ended (handler : Nat)
  | again (handler : Nat)
  deriving DecidableEq

/-- Subscribing again. -/
def Status.restart : Status → Status
  | .ended h => .again h
  | st => st

/-- Subscribing again did not find a provider. -/
def Status.giveUp : Status → Status
  | .again h => .ended h
  | st => st

/-- Ended by the user; if the provider cannot be told, an event will remind of it. -/
def Status.stop : Ended → Status → Status
  | .noProvider, .on h => .ended h
  | .noProvider, .again h => .ended h
  | .noProvider, st => st
  | _, _ => .off

/-- An event: the last one if the duration is over; a reminder to tell the provider that the subscription has ended. -/
def Status.hear (over : Bool) (r : Ended) : Status → Status
  | .on h => if over then .off else .on h
  | .ended h => if r ≠ .noProvider ∨ over then .off else .ended h
  | st => st

open Classical in
/-- One step, for one key. -/
noncomputable def next (sc : Bool) (k : Key) (st : Status) : Op × Out → Status
  | (.subscribe _ k' _, .going) => if SameKey sc k' k then st.restart else st
  | (.subscribeAsync k' _, .success) => if SameKey sc k' k then st.restart else st
  | (.replied _ k' h .accepted, _) => if SameKey sc k' k then .on h else st
  | (.replied _ k' h .existing, _) => if SameKey sc k' k then .on h else st
  | (.replied _ k' _ .noProvider, _) => if SameKey sc k' k then st.giveUp else st
  | (.repliedAsync _ k' h (some _), _) => if SameKey sc k' k then .on h else st
  | (.unsubscribe _ k' r, _) => if SameKey sc k' k then st.stop r else st
  | (.event k' over r, _) => if SameKey sc k' k then st.hear over r else st
  | _ => st

/-- How the subscription with this key stands after a history. -/
noncomputable def view (sc : Bool) (k : Key) (h : History) : Status := h.foldl (next sc k) .off

/-- The key of a step. -/
def keyOf : Op → Option Key
  | .subscribe _ k _ => some k
  | .replied _ k _ _ => some k
  | .numbered _ _ => none
  | .subscribeAsync k _ => some k
  | .repliedAsync _ k _ _ => some k
  | .event k _ _ => some k
  | .unsubscribe _ k _ => some k
  | .exists k => some k

/-- All filters are plain. -/
def Plain (sc : Bool) (h : History) : Prop := ∀ x ∈ h, ∀ k, keyOf x.1 = some k → PlainFilter sc k.filter

/-- What a step may find for the promises to be kept: a provider does not know a subscription the consumer asks for; an
event comes from a provider that can be told that the subscription has ended, and not while the user is subscribing
again; and if no provider is found, there was no subscription before. -/
def Usual : Op → Status → Prop
  | .replied _ _ _ .existing, _ => False
  | .replied _ _ _ .noProvider, .on _ => False
  | .event _ _ _, .again _ => False
  | .event _ _ .noProvider, .ended _ => False
  | _, _ => True

/-- Each step of the history is such. -/
def Regular (sc : Bool) (h : History) : Prop :=
  ∀ a e o b, h = a ++ (e, o) :: b → ∀ k, keyOf e = some k → Usual e (view sc k a)

/-- Where an event would go now. -/
def heard (sc : Bool) (s : State) (k : Key) : Res Out := do
  let (_, o) ← step sc s (.event k false .success)
  pure o

/-- A subscription asked for together with others: a plain filter, not data sent as is, and a provider that does not know
the subscription. -/
structure Fit (sc : Bool) (q : Item) : Prop where
  plain : PlainFilter sc q.key.filter
  raw : q.key.raw = false
  new : q.reply ≠ .existing

end Verif.Spec.Consumer
