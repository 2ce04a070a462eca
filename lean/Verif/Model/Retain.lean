import Verif.Model.Base

/-!
# Values, properties and objects with reference counts
(src/rtmessage/rtRetainable.c, src/rbus/rbus_value.c, src/rbus/rbus_property.c, src/rbus/rbus_object.c)

The heap holds values, properties and objects. Only names, counts and pointers are modelled, not the data of values.
Touching a node that was freed is undefined. Addresses are numbered and not used again; counts are unbounded (the
code uses `atomic_int`) and, except in `Race` below, one thread runs. Recursion depth is not limited.
-/

namespace Verif.Retain

open Verif

/-- The three structures that begin with an `rtRetainable`. -/
inductive Kind where
  | value | property | object
  deriving DecidableEq, Repr

/-- The pointers that own what they point to: `d.property`/`d.object` of a value (rbus_value.c:45-75), `value` and
`next` of a property (rbus_property.c:29-35), `properties`, `children` and `next` of an object (rbus_object.c:30-42). -/
inductive Slot where
  | content | value | next | properties | children
  deriving DecidableEq, Repr

/-- The pointers of each structure, in the order in which its destructor releases them
(rbus_value.c:100-117 and 164-171, rbus_property.c:50-69, rbus_object.c:66-85). -/
def Kind.slots : Kind → List Slot
  | .value => [.content]
  | .property => [.value, .next]
  | .object => [.properties, .children, .next]

/-- `struct _rbusValue`, `_rbusProperty` or `_rbusObject`. -/
structure Node where
  kind : Kind
  name : Option Bytes
  count : Nat
  link : Slot → Option Nat
  /-- `parent` of an object, which does not own. -/
  parent : Option Nat

/-- The heap; `next` nodes were allocated, those with `none` are freed. -/
structure State where
  next : Nat
  node : Nat → Option Node

/-- The empty heap. -/
def State.init : State := ⟨0, fun _ => none⟩

/-- Changes a node. -/
def put (s : State) (x : Nat) (n : Option Node) : State := { s with node := fun y => if y = x then n else s.node y }

/-- Dereferences a pointer. -/
def get (s : State) (x : Nat) : Res Node :=
  match s.node x with
  | some n => .ok n
  | none => .ub

/-- What a node owns. -/
def Node.targets (n : Node) : List Nat := n.kind.slots.filterMap n.link

/-- `rtRetainable_retainInternal` (rtRetainable.c:22-25). -/
def retain (s : State) (x : Nat) : Res State := do
  let n ← get s x
  pure (put s x (some { n with count := n.count + 1 }))

/-- `rtRetainable_releaseInternal` (rtRetainable.c:27-35) with the destructors, on a list of pointers that are to be
released one after the other; what a destroyed node owns comes first. The destructors free the node when they are
done; here it is freed at once, so that touching it during its own destruction is undefined. The recursion is
bounded by `fuel`, which is proved to be enough. -/
def releaseAll : Nat → List Nat → State → Res State
  | _, [], s => .ok s
  | 0, _ :: _, _ => .fail
  | f + 1, x :: w, s => do
    let n ← get s x
    if n.count = 1 then releaseAll f (n.targets ++ w) (put s x none)
    else releaseAll f w (put s x (some { n with count := n.count - 1 }))

/-- `rbusValue_Release`, `rbusProperty_Release`, `rbusObject_Release` (rbus_value.c:179-183,
rbus_property.c:77-81, rbus_object.c:93-97). -/
def release (s : State) (x : Nat) : Res State := releaseAll (3 * s.next + 1) [x] s

/-- Changes one pointer. -/
def upd (l : Slot → Option Nat) (k : Slot) (t : Option Nat) : Slot → Option Nat := fun j => if j = k then t else l j

/-- Release of what a pointer owned, if it is not NULL. -/
def releaseOpt (s : State) : Option Nat → Res State
  | some x => release s x
  | none => .ok s

/-- Retain, if not NULL. -/
def retainOpt (s : State) : Option Nat → Res State
  | some x => retain s x
  | none => .ok s

/-- `rbusValue_SetProperty`, `rbusValue_SetObject`, `rbusProperty_SetValue`, `rbusProperty_SetNext`,
`rbusObject_SetProperties`, `rbusObject_SetChildren`, `rbusObject_SetNext` (rbus_value.c:608-626,
rbus_property.c:170-193, rbus_object.c:263-271, 413-438): first the old target is released, then the pointer is
assigned and the new target retained. The code assigns only after the release; here the pointer is NULL meanwhile,
which makes no difference unless the node itself is destroyed by the release, and then both are undefined. -/
def assign (s : State) (y : Nat) (k : Slot) (t : Option Nat) : Res State := do
  let n ← get s y
  let s ← releaseOpt (put s y (some { n with link := upd n.link k none })) (n.link k)
  let n ← get s y
  retainOpt (put s y (some { n with link := upd n.link k t })) t

/-- The `Init` functions (rbus_value.c:119-127, rbus_property.c:37-48, rbus_object.c:44-55). -/
def alloc (s : State) (k : Kind) (name : Option Bytes) : State :=
  { put s s.next (some ⟨k, name, 1, fun _ => none, none⟩) with next := s.next + 1 }

/-- What a program does with values, properties and objects. The typed setters (`rbusProperty_SetInt32` etc.) are
`newValue`, `set` and `release`. -/
inductive Op where
  | newValue
  | newProperty (name : Option Bytes) (value : Option Nat)
  | newObject (name : Option Bytes)
  | retain (x : Nat)
  | release (x : Nat)
  | set (y : Nat) (k : Slot) (t : Option Nat)
  /-- Any function that reads the node. -/
  | use (x : Nat)
  | setParent (o : Nat) (p : Option Nat)
  /-- `rbusObject_GetName(rbusObject_GetParent(o))` and the like. -/
  | useParent (o : Nat)
  deriving DecidableEq, Repr

/-- One call. `fail`: a pointer the structure does not have. -/
def step (s : State) : Op → Res State
  | .newValue => .ok (alloc s .value none)
  | .newProperty name value =>
    match value with
    | none => .ok (alloc s .property name)
    | some v => assign (alloc s .property name) s.next .value (some v)
  | .newObject name => .ok (alloc s .object name)
  | .retain x => retain s x
  | .release x => release s x
  | .set y k t => do
    let n ← get s y
    if k ∈ n.kind.slots then assign s y k t else .fail
  | .use x => do
    let _ ← get s x
    pure s
  -- rbus_object.c:393-404
  | .setParent o p => do
    let n ← get s o
    pure (put s o (some { n with parent := p }))
  | .useParent o => do
    let n ← get s o
    match n.parent with
    | none => pure s
    | some p => do
      let _ ← get s p
      pure s

/-- A program's calls in turn. -/
def run (s : State) : List Op → Res State
  | [] => .ok s
  | op :: ops => do
    let s ← step s op
    run s ops

/-! ## The properties of an object -/

/-- The loop of `rbusObject_GetProperty` (rbus_object.c:277-279). `fail`: it does not end; `fuel` is more than the
number of nodes. `strcmp` with a NULL name is undefined. -/
def find (s : State) : Nat → Option Nat → Bytes → Res (Option Nat)
  | _, none, _ => .ok none
  | 0, some _, _ => .fail
  | f + 1, some p, name => do
    let n ← get s p
    match n.name with
    | none => .ub
    | some m => if m = name then pure (some p) else find s f (n.link .next) name

/-- `rbusObject_GetProperty` (rbus_object.c:272-281). -/
def getProperty (s : State) (o : Nat) (name : Bytes) : Res (Option Nat) := do
  let n ← get s o
  find s (s.next + 1) (n.link .properties) name

/-- `rbusObject_GetPropertyValue` with a name (rbus_object.c:342-355). -/
def getPropertyValue (s : State) (o : Nat) (name : Bytes) : Res (Option Nat) := do
  match ← getProperty s o name with
  | none => pure none
  | some p => do
    let n ← get s p
    pure (n.link .value)

/-- The end of a list (rbus_property.c:197-200). -/
def last (s : State) : Nat → Nat → Res Nat
  | 0, _ => .fail
  | f + 1, p => do
    let n ← get s p
    match n.link .next with
    | none => pure p
    | some q => last s f q

/-- `rbusProperty_Append` (rbus_property.c:195-202). -/
def append (s : State) (p : Nat) (back : Option Nat) : Res State := do
  let l ← last s (s.next + 1) p
  assign s l .next back

/-- `rbusObject_SetPropertyValue` (rbus_object.c:362-384). -/
def setPropertyValue (s : State) (o : Nat) (name : Bytes) (v : Nat) : Res State := do
  match ← getProperty s o name with
  | some p => assign s p .value (some v)
  | none => do
    let p := s.next
    let s ← assign (alloc s .property (some name)) p .value (some v)
    let n ← get s o
    let s ← match n.link .properties with
      | none => assign s o .properties (some p)
      | some h => append s h (some p)
    release s p

/-- The search of `rbusObject_SetProperty` (rbus_object.c:293-307): the property with the name, and the one before
it or the last one. -/
def search (s : State) : Nat → Option Nat → Option Nat → Bytes → Res (Option Nat × Option Nat)
  | _, none, before, _ => .ok (none, before)
  | 0, some _, _, _ => .fail
  | f + 1, some p, before, name => do
    let n ← get s p
    match n.name with
    | none => .ub
    | some m => if m = name then pure (some p, before) else search s f (n.link .next) (some p) name

/-- `rbusObject_SetProperty` (rbus_object.c:283-335). -/
def setProperty (s : State) (o p : Nat) : Res State := do
  let n ← get s o
  match n.link .properties with
  | none => assign s o .properties (some p)
  | some h => do
    let np ← get s p
    match np.name with
    | none => .ub
    | some name => do
      let (old, before) ← search s (s.next + 1) (some h) none name
      match old with
      | some x => do
        let nx ← get s x
        let s ← match nx.link .next with
          | some t => append s p (some t)
          | none => .ok s
        match before with
        | some l => assign s l .next (some p)
        | none => assign s o .properties (some p)
      | none =>
        match before with
        | some l => assign s l .next (some p)
        | none => pure s

/-! ## Two threads that release -/

namespace Race

/-- Where a thread is in `rtRetainable_releaseInternal` (rtRetainable.c:27-35): before the subtraction, before the
comparison, before the destructor, done. -/
inductive Pc where
  | sub | compare | destroy | done
  deriving DecidableEq, Repr

/-- A node with its count, and how often it was destroyed; two threads. -/
structure State where
  count : Int
  freed : Nat
  first : Pc
  second : Pc
  deriving DecidableEq, Repr

/-- One step of a thread at `pc`; the destructor ends with `free`. Touching the freed node, or freeing it again, is
undefined. -/
def advance (s : State) (pc : Pc) : Res (State × Pc) :=
  match pc with
  | .done => .ok (s, .done)
  | _ =>
    if s.freed ≠ 0 then .ub
    else
      match pc with
      | .sub => .ok ({ s with count := s.count - 1 }, .compare)
      | .compare => .ok (s, if s.count = 0 then .destroy else .done)
      | _ => .ok ({ s with freed := 1 }, .done)

/-- The next step of the first (`true`) or the second thread. -/
def step (s : State) (b : Bool) : Res State := do
  if b then
    let (s, pc) ← advance s s.first
    pure { s with first := pc }
  else
    let (s, pc) ← advance s s.second
    pure { s with second := pc }

/-- The threads in some order of their steps. -/
def run (s : State) : List Bool → Res State
  | [] => .ok s
  | b :: bs => do
    let s ← step s b
    run s bs

end Race

end Verif.Retain
