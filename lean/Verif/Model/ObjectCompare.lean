import Verif.Model.Compare

/-!
# Model of comparing values that hold objects, properties and objects

`rbusValue_Compare` (rbus_value.c:905-1010) in full, `rbusProperty_Compare` (rbus_property.c:133-148)
and `rbusObject_Compare` (rbus_object.c:113-238). Results are given by their sign. The shortcut for
two handles to the same C object (rbus_value.c:907, rbus_property.c:137, rbus_object.c:122) is left
out: the two sides are taken to have no C object in common.
-/

namespace Verif.ObjCmp

open Verif Verif.Value

mutual
/-- An `rbusValue_t` (rbus_value.c:43-67): the NULL handle, a scalar, a chain of properties (the
empty one after `rbusValue_SetProperty(value, NULL)`), an object, or the state after
`rbusValue_SetObject(value, NULL)`. -/
inductive Val where
  | null
  | scalar (s : Scalar)
  | props (ps : Chain)
  | obj (o : Obj)
  | nullObj

/-- A chain of `rbusProperty_t` linked by `next` (rbus_property.c:29-35): name, which may be NULL,
and value. -/
inductive Chain where
  | nil
  | cons (name : Option Bytes) (v : Val) (rest : Chain)

/-- An `rbusObject_t` (rbus_object.c:30-43): name, which may be NULL, whether multi-instance,
properties, children. The parent link is not modelled; comparing does not look at it. -/
inductive Obj where
  | mk (name : Option Bytes) (multi : Bool) (ps : Chain) (children : Objs)

/-- A chain of `rbusObject_t` linked by `next`. -/
inductive Objs where
  | nil
  | cons (o : Obj) (rest : Objs)
end

/-- `rbusObject_GetName` (rbus_object.c:240-243). -/
def Obj.name : Obj → Option Bytes
  | .mk n _ _ _ => n

/-- `rbusObject_GetType` (rbus_object.c:440-443). -/
def Obj.multi : Obj → Bool
  | .mk _ m _ _ => m

/-- `rbusObject_GetProperties` (rbus_object.c:257-262). -/
def Obj.props : Obj → Chain
  | .mk _ _ ps _ => ps

/-- `rbusObject_GetChildren` (rbus_object.c:406-411). -/
def Obj.children : Obj → Objs
  | .mk _ _ _ cs => cs

/-- `strcmp` of two names: it dereferences a NULL one. -/
def nameCmp : Option Bytes → Option Bytes → Res Ordering
  | some s, some t => .ok (strcmp s t)
  | _, _ => .ub

/-- The code of the type of a value (rbus_value.h:79-102). The NULL handle has none; it is dealt
with before types are looked at. -/
def Val.code : Val → Nat
  | .null => 0
  | .scalar s => s.ty.code
  | .props _ => Ty.property.code
  | .obj _ | .nullObj => Ty.object.code

/-- The inner loop over the properties of the second object (rbus_object.c:138-152), up to the
first one of the wanted name. -/
def Chain.look (n : Option Bytes) : Chain → Res (Option Val)
  | .nil => .ok none
  | .cons m w rest => do
    match ← nameCmp n m with
    | .eq => pure (some w)
    | _ => rest.look n

/-- The inner loop over the children of the second object (rbus_object.c:195-211), up to the first
one of the wanted name. -/
def Objs.look (n : Option Bytes) : Objs → Res (Option Obj)
  | .nil => .ok none
  | .cons o rest => do
    match ← nameCmp n o.name with
    | .eq => pure (some o)
    | _ => rest.look n

/-- The loop over the properties of the second object (rbus_object.c:158-177): whether each has one
of its name in the first. -/
def Chain.within : Chain → Chain → Res Bool
  | .nil, _ => .ok true
  | .cons n _ rest, ps1 => do
    match ← ps1.look n with
    | none => pure false
    | some _ => rest.within ps1

/-- The loop over the children of the second object (rbus_object.c:216-234). -/
def Objs.within : Objs → Objs → Res Bool
  | .nil, _ => .ok true
  | .cons o rest, cs1 => do
    match ← cs1.look o.name with
    | none => pure false
    | some _ => rest.within cs1

mutual
/-- `rbusValue_Compare` (rbus_value.c:905-1010). Of a chain of properties only the first is compared
(rbus_property.c:133-148). A value that holds no property or no object is less than every other of
its type, also when that one holds none either (rbus_value.c:990-995, 999-1004). -/
def cmpVal (sc : Bool) : Val → Val → Res Ordering
  | .null, .null => .ok .eq
  | .null, _ => .ok .lt
  | _, .null => .ok .lt
  | .scalar a, .scalar b => Value.compare sc a b
  | .props (.cons n v _), .props (.cons m w _) => do
    match ← nameCmp n m with
    | .eq => cmpVal sc v w
    | o => pure o
  | .props (.cons _ _ _), .props .nil => .ok .gt
  | .props .nil, .props _ => .ok .lt
  | .obj a, .obj b => cmpObj sc true a b
  | .obj _, .nullObj => .ok .gt
  | .nullObj, .obj _ => .ok .lt
  | .nullObj, .nullObj => .ok .lt
  | v, w => .ok (if v.code < w.code then .lt else .gt)

/-- The loop over the properties of the first object (rbus_object.c:134-156): each must have one of
its name in the second; the first of that name is compared with it. `rbusProperty_Compare` compares
the names once more, which are equal here, and then the values. -/
def cmpProps (sc : Bool) : Chain → Chain → Res Ordering
  | .nil, _ => .ok .eq
  | .cons n v rest, ps2 => do
    match ← ps2.look n with
    | none => pure .gt
    | some w =>
      match ← cmpVal sc v w with
      | .eq => cmpProps sc rest ps2
      | o => pure o

/-- `rbusObject_Compare` (rbus_object.c:113-238) on two non-NULL objects. -/
def cmpObj (sc recursive : Bool) : Obj → Obj → Res Ordering
  | .mk n1 _ ps1 cs1, .mk n2 _ ps2 cs2 => do
    match ← nameCmp n1 n2 with
    | .eq =>
      match ← cmpProps sc ps1 ps2 with
      | .eq =>
        if ← ps2.within ps1 then
          if recursive then
            match ← cmpObjs sc cs1 cs2 with
            | .eq => if ← cs2.within cs1 then pure .eq else pure .lt
            | o => pure o
          else pure .eq
        else pure .lt
      | o => pure o
    | o => pure o

/-- The loop over the children of the first object (rbus_object.c:190-214). -/
def cmpObjs (sc : Bool) : Objs → Objs → Res Ordering
  | .nil, _ => .ok .eq
  | .cons o rest, cs2 => do
    match ← cs2.look o.name with
    | none => pure .gt
    | some p =>
      match ← cmpObj sc true o p with
      | .eq => cmpObjs sc rest cs2
      | r => pure r
end

end Verif.ObjCmp
