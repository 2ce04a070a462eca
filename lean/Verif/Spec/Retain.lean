import Verif.Model.Retain

/-!
# Who owns what
-/

namespace Verif.Spec.Retain

open Verif Verif.Retain

/-- What a program has made: how often it holds each node itself, and the pointers it has set. Nothing is ever
destroyed here. -/
structure Graph where
  made : Nat
  kind : Nat → Kind
  name : Nat → Option Bytes
  holds : Nat → Nat
  link : Nat → Slot → Option Nat
  parent : Nat → Option Nat

def Graph.empty : Graph := ⟨0, fun _ => .value, fun _ => none, fun _ => 0, fun _ _ => none, fun _ => none⟩

/-- `f` with another value at `x`. -/
def change {α β : Type} [DecidableEq α] (f : α → β) (x : α) (v : β) : α → β := fun y => if y = x then v else f y

/-- A new node, held once. -/
def make (g : Graph) (k : Kind) (name : Option Bytes) (value : Option Nat) : Graph where
  made := g.made + 1
  kind := change g.kind g.made k
  name := change g.name g.made name
  holds := change g.holds g.made 1
  link := change g.link g.made (change (fun _ => none) .value value)
  parent := change g.parent g.made none

/-- What a call changes. -/
def effect (g : Graph) : Op → Graph
  | .newValue => make g .value none none
  | .newProperty name value => make g .property name value
  | .newObject name => make g .object name none
  | .retain x => { g with holds := change g.holds x (g.holds x + 1) }
  | .release x => { g with holds := change g.holds x (g.holds x - 1) }
  | .set y k t => { g with link := change g.link y (change (g.link y) k t) }
  | .use _ => g
  | .setParent o p => { g with parent := change g.parent o p }
  | .useParent _ => g

/-- The graph after some calls. -/
def after (ops : List Op) : Graph := ops.foldl effect Graph.empty

/-- Held by the program, or owned by something that is. -/
inductive Reach (g : Graph) : Nat → Prop where
  | held {x} : 0 < g.holds x → Reach g x
  | link {y k x} : Reach g y → g.link y k = some x → Reach g x

/-- The graph without a pointer. -/
def cut (g : Graph) (y : Nat) (k : Slot) : Graph := { g with link := change g.link y (change (g.link y) k none) }

/-- The types of the functions' parameters. -/
def Fits (g : Graph) (y : Nat) (k : Slot) (x : Nat) : Prop :=
  match k with
  | .content => g.kind x ≠ .value
  | .value => g.kind x = .value
  | .next => g.kind x = g.kind y
  | .properties => g.kind x = .property
  | .children => g.kind x = .object

/-- The calls a careful program makes: it passes only what it holds or what is owned by what it holds, it releases
only what it holds, and what it sets as a target does not depend on the pointer it replaces. -/
def Allowed (g : Graph) : Op → Prop
  | .newValue => True
  | .newProperty _ value => ∀ v, value = some v → Reach g v ∧ g.kind v = .value
  | .newObject _ => True
  | .retain x => Reach g x
  | .release x => 0 < g.holds x
  | .set y k t => Reach g y ∧ k ∈ (g.kind y).slots ∧ ∀ x, t = some x → Reach (cut g y k) x ∧ Fits g y k x
  | .use x => Reach g x
  | .setParent o _ => Reach g o
  | .useParent o => Reach g o ∧ ∀ p, g.parent o = some p → Reach g p

/-- Every call is allowed when it is made. -/
def Careful (g : Graph) : List Op → Prop
  | [] => True
  | op :: ops => Allowed g op ∧ Careful (effect g op) ops

/-- There is no circle: numbers can be given to the nodes so that every pointer leads to a greater one. -/
def NoCircle (g : Graph) : Prop := ∃ rank : Nat → Nat, ∀ y k x, g.link y k = some x → rank y < rank x

/-- The node is in memory. -/
def Alive (s : State) (x : Nat) : Prop := ∃ n, s.node x = some n

/-! ## Ordered maps -/

/-- Sets a key: its value is replaced where it is, or it is added at the end. -/
def upsert {α β : Type} [DecidableEq α] (m : List (α × β)) (k : α) (v : β) : List (α × β) :=
  match m with
  | [] => [(k, v)]
  | (j, w) :: m => if j = k then (k, v) :: m else (j, w) :: upsert m k v

/-- A property in a list. -/
structure Entry where
  prop : Nat
  name : Bytes
  value : Option Nat
  deriving DecidableEq, Repr

/-- What `rbusProperty_GetNext`, `rbusProperty_GetName` and `rbusProperty_GetValue` show from a property on. -/
inductive Chain (s : State) : Option Nat → List Entry → Prop where
  | nil : Chain s none []
  | cons {p n m es} : s.node p = some n → n.name = some m → Chain s (n.link .next) es →
      Chain s (some p) (⟨p, m, n.link .value⟩ :: es)

/-- The properties of an object. -/
def Lists (s : State) (o : Nat) (es : List Entry) : Prop := ∃ n, s.node o = some n ∧ Chain s (n.link .properties) es

/-- As a map. -/
def asMap (es : List Entry) : List (Bytes × Option Nat) := es.map fun e => (e.name, e.value)

/-- `s'` came about from `s` by allowed calls that leave the program's own holds as they were. -/
def Continues (ops : List Op) (s' : State) : Prop :=
  ∃ more, Careful Graph.empty (ops ++ more) ∧ run State.init (ops ++ more) = .ok s' ∧
    (∀ x, (after (ops ++ more)).holds x = (after ops).holds x) ∧
    ∀ x, x < (after ops).made → (after (ops ++ more)).kind x = (after ops).kind x

/-- The object's map after setting `nm` to `v`: it is replaced where it is or added at the end, getting it gives the
new value and every other name what it gave before, and no name appears twice if none did. -/
def IsSet (s : State) (o : Nat) (es : List Entry) (nm : Bytes) (v : Option Nat) (s' : State) (es' : List Entry) : Prop :=
  Lists s' o es' ∧ asMap es' = upsert (asMap es) nm v ∧
  getPropertyValue s' o nm = .ok v ∧
  (∀ m, m ≠ nm → getPropertyValue s' o m = getPropertyValue s o m) ∧
  ((es.map (·.name)).Nodup → (es'.map (·.name)).Nodup)

end Verif.Spec.Retain
