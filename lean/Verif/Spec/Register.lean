import Verif.Model.Register
import Verif.Spec.RouterCall

/-!
# What registering a data model is meant to do
-/

namespace Verif.Spec.Register

open Verif Verif.Spec.Routing Verif.Spec.Router Verif.Router Verif.Register

/-- How a name is written: a dot at the end makes no difference. -/
def Written (n : Name) (t : Bytes) : Prop := t = dotted n ∨ t = dotted n ++ [46]

/-- The element has this name, which fits into the messages to the router. -/
def Named (x : Elem × Name) : Prop :=
  Written x.2 x.1.name ∧ x.2 ≠ advisoryName ∧ validString x.1.name = true ∧ x.1.name.count 46 < 32

/-- What the provider does to the router when it registers a name. -/
def joining (p : Provider) (id : Int) (n : Name) : Act := .subscribe p.client n id ⟨p.inbox, 0, true⟩

/-- The provider is known at the router: under the name of its component it has a route with this number and id, and responses
reach it. -/
structure Known (P : List Name) (T : Table) (p : Provider) (id : Int) (u : Nat) : Prop where
  name : p.component ≠ [] ∧ p.component.length < 256
  listener : (p.listeners.find? (fun l => l.1 = p.component)).map (·.2) = some id
  route : ∃ m, T.routes.find? (fun r => r.client = p.client ∧ r.id = id) = some ⟨u, p.client, id, m⟩
  inbox : ∃ q j, Addressed P p.inbox q ∧ (p.client, j) ∈ T.receivers q

/-- The table with further names for a route. -/
def withNames (T : Table) (ns : List Name) (u : Nat) : Table := { T with regs := T.regs ++ ns.map (fun n => (n, u)) }

/-- The table without some names and those below them. -/
def without (T : Table) (ns : List Name) : Table := { T with regs := T.regs.filter (fun x => ∀ n ∈ ns, ¬ n <+: x.1) }

/-- The names in use once the provider has registered its own. -/
def used (as : List Act) (p : Provider) (id : Int) (xs : List (Elem × Name)) : List Name :=
  allNames (as ++ xs.map (fun x => joining p id x.2))

/-- The router sends every message exactly where the table says, and answers requests that go nowhere. -/
def Keeps (P : List Name) (s : State) (T : Table) : Prop := Forwards P s T ∧ Returns P s T

/-- The router and its table after a history (see C17). -/
def After (as : List Act) (P : List Name) (s : State) (T : Table) : Prop :=
  ∃ s₀ dss fs, boot = .ok s₀ ∧ Router.run s₀ (as.map event) = .ok (s, dss) ∧ fs.length = as.length ∧
    T = tableRun table0 (as.zip fs) ∧ Keeps P s T

/-- A data model that the provider may register after the history: with the names in use it follows the convention, and the names
fit into the messages. -/
structure Registrable (as : List Act) (p : Provider) (id : Int) (xs : List (Elem × Name)) : Prop where
  filled : xs ≠ []
  regular : Regular (as ++ xs.map (fun x => joining p id x.2))
  named : ∀ x ∈ xs, Named x

/-- The names are not those of the provider's own routes. -/
def Foreign (T : Table) (p : Provider) (xs : List (Elem × Name)) : Prop :=
  ∀ x ∈ xs, ∀ r ∈ T.routes, r.client = p.client → r.main ≠ x.2

/-- The elements put into the tree of the provider, in order. -/
def insertAll (t : Element.Tree) (es : List Elem) : Element.Tree := es.foldl (fun t e => Element.insert t e.name e.type e.cb) t

end Verif.Spec.Register
