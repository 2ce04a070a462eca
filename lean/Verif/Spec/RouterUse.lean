import Verif.Model.Router

/-!
# How clients are supposed to use the router
-/

namespace Verif.Router

open Verif

/-- Short enough for the router's buffers, with at most 32 components. -/
def Fits (t : Bytes) : Prop := t.length < 512 ∧ t.count 46 < 32

instance (t : Bytes) : Decidable (Fits t) := inferInstanceAs (Decidable (_ ∧ _))

/-- Two names differ in some component, without the first having a brace there. -/
def apart (q o : Bytes) : Bool :=
  ((Routing.tokens q).zip (Routing.tokens o)).any (fun x => x.1 ≠ x.2 && x.1.head? ≠ some 123)

/-- A name that has nothing to do with the router's own topics. -/
def Elsewhere (q : Bytes) : Prop := q = [] ∨ ∀ o ∈ ownTopics, apart q o = true

instance (q : Bytes) : Decidable (Elsewhere q) := inferInstanceAs (Decidable (_ ∨ _))

/-- A subscribe message that is in order: not too many components, and nobody subscribes to the router's
own topics. If `removal` is false, only additions are. -/
def CleanSubscribe (removal : Bool) (f : Fields) : Prop :=
  (removal = false → f.add = some 1 ∨ f.add = none) ∧
  match f.topic with
  | some (some t) => t.count 46 < 32 ∧ (f.add = some 1 → Elsewhere t)
  | _ => True

instance (removal : Bool) (f : Fields) : Decidable (CleanSubscribe removal f) := by
  unfold CleanSubscribe
  split <;> infer_instance

/-- A command is given. -/
def hasCommand (f : Fields) : Bool :=
  match f.command with
  | some (some _) => true
  | _ => false

/-- A message that is in order: topics fit, do not end in '.', and replies go elsewhere; messages to the
router itself can be parsed and have what they need. Wildcard queries are in order only where names are
not removed. -/
def Clean (removal : Bool) (m : Message) : Prop :=
  (Fits m.hdr.topic ∧ m.hdr.topic.getLast? ≠ some 46) ∧
  (m.hdr.request = true → Fits m.hdr.reply ∧ m.hdr.reply.getLast? ≠ some 46 ∧ Elsewhere m.hdr.reply) ∧
  (m.hdr.topic = wildcardTopic → removal = false) ∧
  match m.body with
  | .bad => m.hdr.topic ≠ subscribeTopic ∧ m.hdr.topic ≠ diagTopic
  | .json f =>
    (m.hdr.topic = subscribeTopic → CleanSubscribe removal f) ∧
    (m.hdr.topic = diagTopic → hasCommand f = true) ∧
    (m.hdr.topic = objectsTopic → ∀ x ∈ f.items, ∀ y, x = some y → Fits y ∧ (y.getLast? ≠ some 46 ∨ removal = false)) ∧
    (m.hdr.topic = wildcardTopic → ∀ x, f.expression = some (some x) → x.count 46 < 32)

/-- The clients connected after one more event. -/
def online1 (l : List Nat) : Event → List Nat
  | .connect c => l ++ [c]
  | .message _ _ => l
  | .disconnect c => l.filter (· ≠ c)

/-- The clients connected after some events. -/
def online (es : List Event) : List Nat := es.foldl online1 []

/-- A client that subscribes to the advisory topic does so under a new id. -/
def NewAdvisory (pre : List Event) (c : Nat) (m : Message) : Prop :=
  ∀ f, m.body = .json f → f.add = some 1 → f.topic = some (some Routing.advisory) →
    ∀ m' f', Event.message c m' ∈ pre → m'.body = .json f' → f'.routeId ≠ f.routeId

/-- What may happen after `pre`. -/
def Allowed (removal : Bool) (pre : List Event) : Event → Prop
  | .connect c => c ∉ online pre
  | .message c m => c ∈ online pre ∧ Clean removal m ∧ NewAdvisory pre c m
  | .disconnect c => c ∈ online pre

/-- A history in which clients use the router as they should. -/
def Orderly (removal : Bool) (es : List Event) : Prop :=
  ∀ pre e post, es = pre ++ e :: post → Allowed removal pre e

/-- The clients holding these routes, with their ids. -/
def recipients (s : State) (ps : List Nat) : List (Nat × Int) :=
  ps.filterMap (fun p =>
    (s.entries.find? (fun e => e.ptr = p)).bind (fun e => e.client.map (fun c => (c, e.subId))))

end Verif.Router
