import Verif.Model.Retain
import Verif.Model.Value

/-!
# Typed data in properties and objects (src/rbus/rbus_property.c, src/rbus/rbus_object.c)

The heap is that of `Retain`; here its values also have data. A program makes objects and values, sets and gets data
under names, and changes values it holds or that an object holds.

Values that hold properties or objects are left out, and so are properties without a value. Names are never NULL.
What a getter returns is a copy here; how long the pointers it returns stay valid is the subject of `Cells`.
-/

namespace Verif.Typed

open Verif Verif.Value

/-- The heap with the data of its values. -/
structure State where
  heap : Retain.State
  data : Nat → Scalar

/-- Nothing is there. -/
def State.init : State := ⟨Retain.State.init, fun _ => .none⟩

/-- What a getter that can refuse returns (`rbusValueError_t`, include/rbus_value.h:77-83, with what it stores). -/
inductive Got where
  | is (d : Scalar)
  /-- The bytes at the pointer it stores and their number; `none`: NULL and 0. -/
  | text (b : Option Bytes)
  /-- `RBUS_VALUE_ERROR_TYPE`. -/
  | wrongType
  /-- `RBUS_VALUE_ERROR_NOT_FOUND`. -/
  | notFound
  /-- `RBUS_VALUE_ERROR_NULL`. -/
  | null
  deriving DecidableEq, Repr

/-- `rbusValue_GetStringEx` (rbus_value.c:447-455) with `rbusValue_GetString` (rbus_value.c:436-445) for the type
string, `rbusValue_GetBytesEx` (rbus_value.c:480-488) with `rbusValue_GetBytes` (rbus_value.c:461-478) for the type
bytes, `rbusValue_GetTimeEx` (rbus_value.c:538-548) for times and `rbusValue_Get##T1##Ex` (rbus_value.c:1316-1324) for
the others. The buffer of a string ends with a zero, which the getter of strings does not count. -/
def getEx : Scalar → Ty → Got
  | .string b, .string => .text b
  | .bytes b, .string => .text b
  | .string b, .bytes => .text (b.map (· ++ [0]))
  | .bytes b, .bytes => .text b
  | d, t => if d.ty = t then .is d else .wrongType

/-- `rbusValue_Init##T1` (rbus_value.c:1304-1310), `rbusValue_InitString`, `rbusValue_InitBytes`, `rbusValue_InitTime`
(rbus_value.c:129-145, 522-528): a new value with data. -/
def newValue (s : State) (d : Scalar) : State :=
  ⟨Retain.alloc s.heap .value none, fun x => if x = s.heap.next then d else s.data x⟩

/-- `rbusValue_Set##T1` (rbus_value.c:1325-1330), `rbusValue_SetString`, `rbusValue_SetBytes`, `rbusValue_SetTime`
(rbus_value.c:549-606): other data in a value that is there. -/
def setData (s : State) (v : Nat) (d : Scalar) : Res State := do
  let _ ← Retain.get s.heap v
  pure { s with data := fun x => if x = v then d else s.data x }

/-- `rbusObject_SetProperty##T1` (rbus_object.c:478-483), `rbusObject_SetPropertyString`, `rbusObject_SetPropertyBytes`
(rbus_object.c:513-519, 532-538). -/
def setTyped (s : State) (o : Nat) (nm : Bytes) (d : Scalar) : Res State := do
  let v := s.heap.next
  let s := newValue s d
  let h ← Retain.setPropertyValue s.heap o nm v
  let h ← Retain.release h v
  pure { s with heap := h }

/-- `rbusObject_SetPropertyValue` (rbus_object.c:362-384), also `rbusObject_SetValue` (rbus_object.c:357-360). -/
def setValue (s : State) (o : Nat) (nm : Bytes) (v : Nat) : Res State := do
  let h ← Retain.setPropertyValue s.heap o nm v
  pure { s with heap := h }

/-- `rbusProperty_Set##T1(rbusObject_GetProperty(o, nm), d)` (rbus_property.c:318-323, also 262-276), by a program that
tests for NULL; the result tells whether there was such a property. The code releases the old value before it makes
the new one and does not retain the new one; here the new one is made, set and released, which comes to the same. -/
def setAt (s : State) (o : Nat) (nm : Bytes) (d : Scalar) : Res (State × Bool) := do
  match ← Retain.getProperty s.heap o nm with
  | none => pure (s, false)
  | some p => do
    let v := s.heap.next
    let s := newValue s d
    let h ← Retain.assign s.heap p .value (some v)
    let h ← Retain.release h v
    pure ({ s with heap := h }, true)

/-- `rbusValue_Set##T1(rbusObject_GetValue(o, nm), d)` (rbus_object.c:337-355 and `setData`), by a program that tests
for NULL. -/
def changeAt (s : State) (o : Nat) (nm : Bytes) (d : Scalar) : Res (State × Bool) := do
  match ← Retain.getPropertyValue s.heap o nm with
  | none => pure (s, false)
  | some v => do
    let s ← setData s v d
    pure (s, true)

/-- `rbusObject_GetProperty##T1` (rbus_object.c:467-477), `rbusObject_GetPropertyString`,
`rbusObject_GetPropertyBytes` (rbus_object.c:502-512, 521-531). -/
def getTyped (s : State) (o : Nat) (nm : Bytes) (t : Ty) : Res Got := do
  match ← Retain.getProperty s.heap o nm with
  | none => pure .notFound
  | some p => do
    let n ← Retain.get s.heap p
    match n.link .value with
    | none => pure .null
    | some v => do
      let _ ← Retain.get s.heap v
      pure (getEx (s.data v) t)

/-- `rbusProperty_Get##T1##Ex` (rbus_property.c:312-317), `rbusProperty_GetStringEx`, `rbusProperty_GetBytesEx`
(rbus_property.c:248-260): only the getters of strings and bytes test whether the property is NULL. -/
def propertyGetEx (s : State) (p : Option Nat) (t : Ty) : Res Got :=
  match p with
  | none => if t = .string ∨ t = .bytes then .ok .null else .ub
  | some p => do
    let n ← Retain.get s.heap p
    match n.link .value with
    | none => pure .null
    | some v => do
      let _ ← Retain.get s.heap v
      pure (getEx (s.data v) t)

/-- What a program does. -/
inductive Event where
  /-- `rbusObject_Init` (rbus_object.c:44-55). -/
  | newObject (name : Option Bytes)
  | newValue (d : Scalar)
  /-- The release of an object or a value. -/
  | release (x : Nat)
  | change (v : Nat) (d : Scalar)
  | setTyped (o : Nat) (nm : Bytes) (d : Scalar)
  | setValue (o : Nat) (nm : Bytes) (v : Nat)
  | setAt (o : Nat) (nm : Bytes) (d : Scalar)
  | changeAt (o : Nat) (nm : Bytes) (d : Scalar)
  | getTyped (o : Nat) (nm : Bytes) (t : Ty)
  /-- `rbusProperty_Get##T1##Ex(rbusObject_GetProperty(o, nm))` without a test for NULL. -/
  | getAt (o : Nat) (nm : Bytes) (t : Ty)
  deriving DecidableEq, Repr

/-- What a program learns. -/
inductive Out where
  | done
  /-- The object or value that was made. -/
  | made (x : Nat)
  /-- Whether there was such a property. -/
  | there (b : Bool)
  | got (g : Got)
  deriving DecidableEq, Repr

/-- One call; the functions cited with the definitions used. -/
def step (s : State) : Event → Res (State × Out)
  | .newObject name => .ok ({ s with heap := Retain.alloc s.heap .object name }, .made s.heap.next)
  | .newValue d => .ok (newValue s d, .made s.heap.next)
  | .release x => (do
    let h ← Retain.release s.heap x
    pure ({ s with heap := h }, .done))
  | .change v d => (do
    let s ← setData s v d
    pure (s, .done))
  | .setTyped o nm d => (do
    let s ← setTyped s o nm d
    pure (s, .done))
  | .setValue o nm v => (do
    let s ← setValue s o nm v
    pure (s, .done))
  | .setAt o nm d => (do
    let (s, b) ← setAt s o nm d
    pure (s, .there b))
  | .changeAt o nm d => (do
    let (s, b) ← changeAt s o nm d
    pure (s, .there b))
  | .getTyped o nm t => (do
    let g ← getTyped s o nm t
    pure (s, .got g))
  | .getAt o nm t => (do
    let p ← Retain.getProperty s.heap o nm
    let g ← propertyGetEx s p t
    pure (s, .got g))

/-- Several calls. -/
def run (s : State) : List Event → Res (State × List Out)
  | [] => .ok (s, [])
  | e :: es => do
    let (s, o) ← step s e
    let (s, os) ← run s es
    pure (s, o :: os)

end Verif.Typed
