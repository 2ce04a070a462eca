import Verif.Model.Messages

/-!
# Specification of message listeners

What an application knows from its own calls and from the calls of its handlers.
-/

namespace Verif.Messages

abbrev History := List (Op × Out)

/-- A listener as the application added it: on the private connection or not, topic, id, handler and
user data. -/
structure Held where
  priv : Bool
  topic : Bytes
  id : Nat
  handler : Nat
  user : Nat
  deriving DecidableEq, Repr

/-- Whom a message taken from the queue is for: a listener, the connection itself, or nobody. -/
inductive For where
  | listener (x : Held)
  | connection
  | nobody
  deriving DecidableEq, Repr

/-- What can be told from a history: the listeners added and not removed, the ids used so far on a
connection, the messages that wait on it, and the one taken from the queue for which no call was made
yet. -/
structure View where
  held : List Held
  ids : Bool → List Nat
  waiting : Bool → List Msg
  hand : Bool → Option (Msg × For)

/-- A change of what belongs to one connection. -/
def put {α : Type} (f : Bool → α) (p : Bool) (a : α) : Bool → α := fun q => if q = p then a else f q

/-- Whom a message is for among the listeners: the one on that connection with the id. -/
def whom (held : List Held) (p : Bool) (m : Msg) : For :=
  if m.control = inboxId then .connection
  else match held.find? (fun x => x.priv = p ∧ x.id = m.control) with
    | some x => .listener x
    | none => .nobody

/-- Nothing has happened. -/
def start : View := { held := [], ids := fun _ => [], waiting := fun _ => [], hand := fun _ => none }

/-- One operation. -/
def see (v : View) : Op × Out → View
  | (.add e h u id, .success) =>
    { v with held := v.held ++ [⟨false, e, id, h, u⟩], ids := put v.ids false (v.ids false ++ [id]) }
  | (.addPrivate e h u id, .success) =>
    { v with held := v.held ++ [⟨true, e, id, h, u⟩], ids := put v.ids true (v.ids true ++ [id]) }
  | (.remove _ id, .success) => { v with held := v.held.filter (fun x => ¬ (x.priv = false ∧ x.id = id)) }
  | (.removePrivate _ id, .success) =>
    { v with held := v.held.filter (fun x => ¬ (x.priv = true ∧ x.id = id)) }
  | (.publish _ _, .queued ms _) => { v with waiting := put v.waiting false (v.waiting false ++ ms) }
  | (.direct _, .queued ms _) => { v with waiting := put v.waiting true (v.waiting true ++ ms) }
  | (.look p, .looked m) =>
    { v with waiting := put v.waiting p (v.waiting p).tail, hand := put v.hand p (some (m, whom v.held p m)) }
  | (.call p, _) => { v with hand := put v.hand p none }
  | _ => v

/-- The view after a history. -/
def after (h : History) : View := h.foldl see start

/-- No message was taken from a queue for a listener with this topic that has not been called yet. -/
def NotInHand (v : View) (e : Bytes) : Prop :=
  ∀ p m x, v.hand p = some (m, .listener x) → x.topic ≠ e

/-- What a careful application does: a topic and an id are not given to two listeners, ids are not used
again, a listener is removed with the topic and the id it was added with, not while its call is
under way, and all listeners are not removed at once. -/
def Allowed (inbox : Bytes) (v : View) : Op → Prop
  | .add e _ _ id => id ≠ inboxId ∧ id ∉ v.ids false ∧ e ≠ inbox ∧ ∀ x ∈ v.held, x.topic ≠ e
  | .addPrivate e _ _ id => id ≠ inboxId ∧ id ∉ v.ids true ∧ ∀ x ∈ v.held, x.topic ≠ e
  | .remove e id => (∃ x ∈ v.held, x.priv = false ∧ x.topic = e ∧ x.id = id) ∧ NotInHand v e
  | .removePrivate e id => (∃ x ∈ v.held, x.priv = true ∧ x.topic = e ∧ x.id = id) ∧
      (∀ x ∈ v.held, x.topic ≠ privateTopic id e) ∧ NotInHand v (privateTopic id e)
  | .removeAll => False
  | _ => True

/-- All of a history is like that. -/
def Careful (inbox : Bytes) (h : History) : Prop :=
  ∀ a e o b, h = a ++ (e, o) :: b → Allowed inbox (after a) e

/-- The call made for a message. -/
def callFor : Msg × For → Out
  | (m, .listener x) => .called x.handler x.user m
  | (m, .connection) => .own m
  | (m, .nobody) => .ignored m

/-- No listener was refused and none was on the private connection. -/
def Plain (h : History) : Prop :=
  ∀ x ∈ h, match x with
    | (.add _ _ _ _, o) => o = .success
    | (.addPrivate _ _ _ _, _) => False
    | _ => True

end Verif.Messages
