import Verif.Model.Reconnect

/-!
# Specification of remaking the connection

What an application has asked for is the set of listeners it has added and not removed.
-/

namespace Verif.Reconnect

abbrev History := List (Event × Out)

/-- The entries of the connection's table, by topic and id. -/
def Listens (s : State) (topic : Bytes) (id : Nat) : Prop :=
  ∃ cb, some ⟨id, topic, cb⟩ ∈ s.slots

/-- The listeners of an application, as it knows them from its own calls: added and not removed. -/
def heldAfter (l : List (Bytes × Nat)) : Event × Out → List (Bytes × Nat)
  | (.add _ topic id, .silent) => l ++ [(topic, id)]
  | (.remove _ topic id, .silent) => l.filter (· ≠ (topic, id))
  | _ => l

/-- The listeners after a history. -/
def held (h : History) : List (Bytes × Nat) := h.foldl heldAfter []

/-- What a thread still has to send. -/
def jobOf : Place → Option Job
  | .idle => none
  | .listening _ => none
  | .sending j _ => some j
  | .failed j _ => j
  | .waiting j _ => j
  | .opening j _ _ => j
  | .telling j _ _ => j
  | .reading j _ _ => j
  | .nested j _ _ => j

/-- The thread is making the link again. -/
def Remaking : Place → Prop
  | .opening _ _ _ => True
  | .telling _ _ _ => True
  | .reading _ _ _ => True
  | _ => False

/-- The link is up again and the thread is telling the router about the listeners. -/
def Telling : Place → Prop
  | .telling _ _ _ => True
  | .reading _ _ _ => True
  | _ => False

/-- The thread has nothing to send and waits for nothing but messages. -/
def AtRest : Place → Prop
  | .idle => True
  | .listening _ => True
  | _ => False

/-- A call about a listener with that topic or that id has not returned. -/
def Underway (s : State) (topic : Bytes) (id : Nat) : Prop :=
  ∃ n t i, (t = topic ∨ i = id) ∧
    (jobOf (s.place n) = some (.add t i) ∨ jobOf (s.place n) = some (.remove t i))

/-- What a careful application does, and what the surroundings spare it: a topic and an id are not given
to two listeners, nor used again before the calls about the earlier one have returned; a listener is
removed as it was added, after adding it has returned, and not while its entry is being read; there are
no further names; the link does not go down while the router is told about the listeners; there is
always a socket to be had. -/
def Allowed (s : State) : Event → Prop
  | .add _ topic id => ¬ Underway s topic id ∧ ∀ t i, Listens s t i → t ≠ topic ∧ i ≠ id
  | .remove _ topic id => Listens s topic id ∧ ¬ Underway s topic id ∧
    ∀ n j t k, s.place n = .reading j t k → ∀ l, s.slots[k]? = some (some l) → l.id ≠ id
  | .alias _ _ _ => False
  | .drop => ∀ n, ¬ Telling (s.place n)
  | .connect _ a => a = .made ∨ a = .refused
  | _ => True

/-- The executions in which this is so at every step. -/
inductive Careful : History → State → Prop where
  | nil : Careful [] init
  | snoc {h s e o s'} : Careful h s → Allowed s e → step s e = .ok (s', o) → Careful (h ++ [(e, o)]) s'

end Verif.Reconnect
