import Verif.Model.ObjectCompare
import Verif.Spec.Compare
import Verif.Spec.Wire

/-!
# Specification for comparing objects

An object is what can be read of it: a path leads from an object to one of its properties or
children by name, and from a value to the object or first property it holds; at the end of the path
something is seen. Two objects are the same when every path sees the same in both.
-/

namespace Verif.ObjCmp

open Verif Verif.Value

/-- Where a path can stand. -/
inductive Node where
  | obj (o : Obj)
  | val (v : Val)

/-- One step of a path: to the value of a property, to a child, or into what a value holds. -/
inductive Move where
  | prop (n : Bytes)
  | child (n : Bytes)
  | inside
  deriving DecidableEq

/-- The value of the first property of a name, as `rbusObject_GetValue` gives it. -/
def Chain.get (n : Bytes) : Chain → Option Val
  | .nil => none
  | .cons m v rest => if m = some n then some v else rest.get n

/-- The first child of a name. -/
def Objs.get (n : Bytes) : Objs → Option Obj
  | .nil => none
  | .cons o rest => if o.name = some n then some o else rest.get n

/-- One step from a node. -/
def Node.go : Move → Node → Option Node
  | .prop n, .obj o => (o.props.get n).map .val
  | .child n, .obj o => (o.children.get n).map .obj
  | .inside, .val (.obj o) => some (.obj o)
  | .inside, .val (.props (.cons _ v _)) => some (.val v)
  | _, _ => none

/-- The node a path leads to. -/
def Node.walk : List Move → Node → Option Node
  | [], x => some x
  | m :: p, x => (x.go m).bind (walk p)

/-- What is seen at a node: the name of an object; the type of a value, and the scalar or the name
of the first property it holds. -/
inductive View where
  | object (name : Option Bytes)
  | missing
  | scalar (s : Scalar)
  | property (name : Option Bytes)
  | noProperty
  | holdsObject
  | noObject

/-- What is seen at a node. -/
def Node.view : Node → View
  | .obj o => .object o.name
  | .val .null => .missing
  | .val (.scalar s) => .scalar s
  | .val (.props (.cons n _ _)) => .property n
  | .val (.props .nil) => .noProperty
  | .val (.obj _) => .holdsObject
  | .val .nullObj => .noObject

/-- The same is seen: scalars may be any two that comparing values (C08) finds equal. -/
def View.same (sc : Bool) : View → View → Prop
  | .object n, .object m => n = m
  | .missing, .missing => True
  | .scalar a, .scalar b => Value.compare sc a b = .ok .eq
  | .property n, .property m => n = m
  | .noProperty, .noProperty => True
  | .holdsObject, .holdsObject => True
  | .noObject, .noObject => True
  | _, _ => False

/-- The two ends of a path agree: both see nothing, or the same. -/
def Agree (sc : Bool) : Option Node → Option Node → Prop
  | none, none => True
  | some x, some y => x.view.same sc y.view
  | _, _ => False

/-- Nothing that can be read tells the two apart. -/
def Same (sc : Bool) (x y : Node) : Prop := ∀ p, Agree sc (x.walk p) (y.walk p)

mutual
/-- Every name in the value is given, and no value in it holds a NULL property or object. -/
def Val.Filled : Val → Prop
  | .null => True
  | .scalar _ => True
  | .props .nil => False
  | .props (.cons n v rest) => n ≠ none ∧ v.Filled ∧ rest.Filled
  | .obj o => o.Filled
  | .nullObj => False

/-- See `Val.Filled`. -/
def Chain.Filled : Chain → Prop
  | .nil => True
  | .cons n v rest => n ≠ none ∧ v.Filled ∧ rest.Filled

/-- See `Val.Filled`. -/
def Obj.Filled : Obj → Prop
  | .mk n _ ps cs => n ≠ none ∧ ps.Filled ∧ cs.Filled

/-- See `Val.Filled`. -/
def Objs.Filled : Objs → Prop
  | .nil => True
  | .cons o rest => o.Filled ∧ rest.Filled
end

/-- The names in a chain of properties. -/
def Chain.names : Chain → List (Option Bytes)
  | .nil => []
  | .cons n _ rest => n :: rest.names

/-- The names in a chain of objects. -/
def Objs.names : Objs → List (Option Bytes)
  | .nil => []
  | .cons o rest => o.name :: rest.names

mutual
/-- No object in the value has two properties, or two children, of one name. -/
def Val.Unique : Val → Prop
  | .props ps => ps.Unique
  | .obj o => o.Unique
  | _ => True

/-- See `Val.Unique`; the names in the chain itself may repeat. -/
def Chain.Unique : Chain → Prop
  | .nil => True
  | .cons _ v rest => v.Unique ∧ rest.Unique

/-- See `Val.Unique`. -/
def Obj.Unique : Obj → Prop
  | .mk _ _ ps cs => ps.names.Nodup ∧ cs.names.Nodup ∧ ps.Unique ∧ cs.Unique

/-- See `Val.Unique`; the names in the chain itself may repeat. -/
def Objs.Unique : Objs → Prop
  | .nil => True
  | .cons o rest => o.Unique ∧ rest.Unique
end

mutual
/-- Every scalar in the value meets `P`. -/
def Val.All (P : Scalar → Prop) : Val → Prop
  | .scalar s => P s
  | .props ps => ps.All P
  | .obj o => o.All P
  | _ => True

/-- See `Val.All`. -/
def Chain.All (P : Scalar → Prop) : Chain → Prop
  | .nil => True
  | .cons _ v rest => v.All P ∧ rest.All P

/-- See `Val.All`. -/
def Obj.All (P : Scalar → Prop) : Obj → Prop
  | .mk _ _ ps cs => ps.All P ∧ cs.All P

/-- See `Val.All`. -/
def Objs.All (P : Scalar → Prop) : Objs → Prop
  | .nil => True
  | .cons o rest => o.All P ∧ rest.All P
end

/-- Scalars whose comparison with one another is always defined. -/
def Tame (s : Scalar) : Prop := Ordinary s ∧ ∀ t, s ≠ .bytes t

mutual
/-- Every name in the value is given. -/
def Val.Named : Val → Prop
  | .props ps => ps.Named
  | .obj o => o.Named
  | _ => True

/-- See `Val.Named`. -/
def Chain.Named : Chain → Prop
  | .nil => True
  | .cons n v rest => n ≠ none ∧ v.Named ∧ rest.Named

/-- See `Val.Named`. -/
def Obj.Named : Obj → Prop
  | .mk n _ ps cs => n ≠ none ∧ ps.Named ∧ cs.Named

/-- See `Val.Named`. -/
def Objs.Named : Objs → Prop
  | .nil => True
  | .cons o rest => o.Named ∧ rest.Named
end

mutual
/-- A value of the messages (C09) as a value to compare. -/
def ofWire : Wire.WVal → Val
  | .scalar s => .scalar s
  | .props ps => .props (ofWireProps ps)
  | .obj o => .obj (ofWireObj o)
  | .nullObj => .nullObj

/-- A property list of the messages as a chain to compare. -/
def ofWireProps : Wire.PropList → Chain
  | .nil => .nil
  | .cons n v rest => .cons (some n) (ofWire v) (ofWireProps rest)

/-- An object of the messages as an object to compare. -/
def ofWireObj : Wire.Obj → Obj
  | .mk n m ps cs => .mk (some n) m (ofWireProps ps) (ofWireObjs cs)

/-- A chain of objects of the messages as one to compare. -/
def ofWireObjs : Wire.ObjList → Objs
  | .nil => .nil
  | .cons o rest => .cons (ofWireObj o) (ofWireObjs rest)
end

end Verif.ObjCmp
