import Verif.Model.Routing
import Verif.Spec.Routing

/-!
# How the operations of the specification are made of the calls of the model
-/

namespace Verif.Routing

open Verif Verif.Spec.Routing

/-- The call made for an operation. -/
def call : Spec.Routing.Op → Op
  | .register n w x => .add (dotted n) w x
  | .forget w => .removeRoute w
  | .remove n => .removeTopic (dotted n)

/-- A result counts as acceptance. -/
def accepted (rc : Rc) : Bool := rc = .ok

/-- In the calls `os`, made after `pre`, registrations that are not exclusive are for owners that have
not registered anything before. This is how the router uses the tree, except that a client may make it
register the advisory topic for an owner it already has. -/
def Disciplined (pre os : List Op) : Prop :=
  ∀ a e d x b, pre ++ os = a ++ .add e d x :: b → (x = false ∨ e = advisory) →
    ∀ e' x', Op.add e' d x' ∉ a

end Verif.Routing
