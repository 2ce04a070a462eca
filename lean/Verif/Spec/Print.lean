import Verif.Model.Print

/-!
# What a reader of a printed object is to learn from it
-/

namespace Verif.Spec.Print

open Verif Verif.Value Verif.ObjCmp

/-- What there is to see in a value or object: types and texts of values, names, and what belongs to what. -/
inductive Seen where
  | nothing
  | value (type text : Bytes)
  | properties (ps : List (Bytes × Seen))
  | object (name : Bytes) (ps : List (Bytes × Seen)) (children : List Seen)

mutual
/-- What is in a value. An object or properties that are not there are nothing. -/
def seenVal : Val → Seen
  | .null | .nullObj => .nothing
  | .scalar s => .value (Print.label s.ty) (match Print.toStr s with | .ok t => t | _ => [])
  | .props .nil => .nothing
  | .props (.cons n v rest) => .properties ((n.getD [], seenVal v) :: seenProps rest)
  | .obj o => seenObj o

/-- What is in properties. -/
def seenProps : Chain → List (Bytes × Seen)
  | .nil => []
  | .cons n v rest => (n.getD [], seenVal v) :: seenProps rest

/-- What is in an object: its name, its properties, its children. -/
def seenObj : Obj → Seen
  | .mk n _ ps cs => .object (n.getD []) (seenProps ps) (seenObjs cs)

/-- What is in objects. -/
def seenObjs : Objs → List Seen
  | .nil => []
  | .cons o rest => seenObj o :: seenObjs rest
end

mutual
/-- No name and no text within has a line feed. -/
def cleanVal : Val → Prop
  | .scalar s => ∀ t, Print.toStr s = .ok t → 10 ∉ t
  | .props ps => cleanProps ps
  | .obj o => cleanObj o
  | _ => True

def cleanProps : Chain → Prop
  | .nil => True
  | .cons n v rest => 10 ∉ n.getD [] ∧ cleanVal v ∧ cleanProps rest

def cleanObj : Obj → Prop
  | .mk n _ ps cs => 10 ∉ n.getD [] ∧ cleanProps ps ∧ cleanObjs cs

def cleanObjs : Objs → Prop
  | .nil => True
  | .cons o rest => cleanObj o ∧ cleanObjs rest
end

mutual
/-- Every object within that has children has a property as well. -/
def fullVal : Val → Prop
  | .props ps => fullProps ps
  | .obj o => fullObj o
  | _ => True

def fullProps : Chain → Prop
  | .nil => True
  | .cons _ v rest => fullVal v ∧ fullProps rest

def fullObj : Obj → Prop
  | .mk _ _ ps cs => (ps = .nil → cs = .nil) ∧ fullProps ps ∧ fullObjs cs

def fullObjs : Objs → Prop
  | .nil => True
  | .cons o rest => fullObj o ∧ fullObjs rest
end

/-- A value that was set, to something; times in years and months an `int` can hold. -/
def Given : Scalar → Prop
  | .none | .string none | .bytes none => False
  | .datetime d => d.year.toInt < 2 ^ 31 - 1900 ∧ d.mon.toInt < 2 ^ 31 - 1
  | _ => True

mutual
/-- Everything within has a name, and all values are given. -/
def givenVal : Val → Prop
  | .scalar s => Given s
  | .props ps => givenProps ps
  | .obj o => givenObj o
  | _ => True

def givenProps : Chain → Prop
  | .nil => True
  | .cons n v rest => n ≠ none ∧ givenVal v ∧ givenProps rest

def givenObj : Obj → Prop
  | .mk n _ ps cs => n ≠ none ∧ givenProps ps ∧ givenObjs cs

def givenObjs : Objs → Prop
  | .nil => True
  | .cons o rest => givenObj o ∧ givenObjs rest
end

/-- All values in a filter are given. -/
def givenFilter : Filter.Filter → Prop
  | .null => True
  | .relation _ v => Given v
  | .logic _ l r => givenFilter l ∧ givenFilter r

/-- What there is to see in a filter. -/
inductive SeenFilter where
  | nothing
  | relation (op : Nat) (type text : Bytes)
  | negation (f : SeenFilter)
  | logic (op : Nat) (f g : SeenFilter)

/-- What is in a filter. A negation has one operand. -/
def seenFilter : Filter.Filter → SeenFilter
  | .null => .nothing
  | .relation op v => .relation op (Print.label v.ty) (match Print.toStr v with | .ok t => t | _ => [])
  | .logic op l r => if op = Filter.opNOT then .negation (seenFilter l) else .logic op (seenFilter l) (seenFilter r)

/-- Operators are those of the API, and no text has a space or a closing parenthesis. -/
def Readable : Filter.Filter → Prop
  | .null => True
  | .relation op v => op ≤ 5 ∧ ∀ t, Print.toStr v = .ok t → ∀ c ∈ t, c ≠ 32 ∧ c ≠ 41
  | .logic op l r => op ≤ 2 ∧ Readable l ∧ (op ≠ Filter.opNOT → Readable r)

end Verif.Spec.Print
