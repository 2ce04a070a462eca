import Verif.Model.Base

/-!
# Model of rtVector (src/rtmessage/rtVector.c)

Items are pointers, compared for identity (`α` with decidable equality). Allocation is assumed to
succeed and the vector pointer itself to be non-NULL. A slot of the allocation that holds no item
(NULL from `calloc`, or uninitialised after `realloc`) is `none`.
-/

namespace Verif.Vector

open Verif

/-- `struct _rtVector` (rtVector.c:29-34): the allocation and the count; `capacity` is the length of
the allocation and `data == NULL` is a capacity of 0. -/
structure Vec (α : Type) where
  slots : List (Option α)
  count : Nat

/-- `RTVECT_BLOCKSIZE` (rtVector.c:27). -/
def block : Nat := 16

/-- `rtVector_Create` (rtVector.c:36-46). -/
def create {α} : Vec α := { slots := [], count := 0 }

/-- An assignment `data[i] = x`: undefined outside the allocation. -/
def store {α} (slots : List (Option α)) (i : Nat) (x : Option α) : Res (List (Option α)) :=
  if i < slots.length then .ok (slots.set i x) else .ub

/-- An access `data[i]`: undefined outside the allocation. -/
def load {α} (slots : List (Option α)) (i : Nat) : Res (Option α) :=
  match slots[i]? with
  | some x => .ok x
  | none => .ub

/-- Lines 74-83 of `rtVector_PushBack`: the allocation a push works on. -/
def grow {α} (v : Vec α) : List (Option α) :=
  if v.slots.length = 0 then List.replicate block none
  else if v.count + 1 ≥ v.slots.length then v.slots ++ List.replicate block none
  else v.slots

/-- `rtVector_PushBack` (rtVector.c:68-90). -/
def pushBack {α} (v : Vec α) (item : α) : Res (Vec α) := do
  let s ← store (grow v) v.count (some item)
  pure { slots := s, count := v.count + 1 }

/-- The search loops (rtVector.c:96-104, 130-138, 188-199) with `n` slots left to look at from `i`:
the index of the first item found. -/
def search {α} (p : α → Bool) (slots : List (Option α)) : Nat → Nat → Res (Option Nat)
  | 0, _ => .ok none
  | n + 1, i => do
    match ← load slots i with
    | some x => if p x then .ok (some i) else search p slots n (i + 1)
    | none => .ub

/-- The shift loop (rtVector.c:109-113, 143-147) with `n` rounds left. -/
def shift {α} : Nat → Nat → List (Option α) → Res (List (Option α))
  | 0, _, slots => .ok slots
  | n + 1, i, slots => do
    let x ← load slots (i + 1)
    let slots ← store slots i x
    shift n (i + 1) slots

/-- The clearing loop (rtVector.c:117-121, 151-155) with `n` rounds left. -/
def clear {α} : Nat → Nat → List (Option α) → Res (List (Option α))
  | 0, _, slots => .ok slots
  | n + 1, i, slots => do
    let slots ← store slots i none
    clear n (i + 1) slots

/-- `rtVector_RemoveItemByCompare` (rtVector.c:126-158), with the comparison as the predicate `p`;
also `rtVector_RemoveItem` (rtVector.c:92-124) with identity. The result tells RT_OK from RT_FAIL;
the destroyer is the caller's business. -/
def removeBy {α} (v : Vec α) (p : α → Bool) : Res (Vec α × Bool) := do
  match ← search p v.slots v.count 0 with
  | none => pure (v, false)
  | some i =>
    let s ← shift (v.count - i) i v.slots
    let s ← clear (s.length - v.count) v.count s
    pure ({ slots := s, count := v.count - 1 }, true)

/-- `rtVector_At` (rtVector.c:160-166). -/
def at' {α} (v : Vec α) (index : Nat) : Res (Option α) :=
  if index ≥ v.count then .ok none else load v.slots index

/-- `rtVector_Size` (rtVector.c:168-173). -/
def size {α} (v : Vec α) : Nat := v.count

/-- `rtVector_Find` (rtVector.c:184-201), and `rtVector_HasItem` (rtVector.c:175-182) as whether the
result is there. -/
def find {α} (v : Vec α) (p : α → Bool) : Res (Option α) := do
  match ← search p v.slots v.count 0 with
  | none => pure none
  | some i => load v.slots i

/-- The operations of a vector's user. -/
inductive Op (α : Type) where
  | push (x : α)
  | removeBy (p : α → Bool)
  | at' (i : Nat)
  | size
  | find (p : α → Bool)

/-- What an operation answers. -/
inductive Out (α : Type) where
  | unit
  | flag (b : Bool)
  | item (x : Option α)
  | num (n : Nat)

/-- One operation on the model. -/
def step {α} (v : Vec α) : Op α → Res (Vec α × Out α)
  | .push x => do let v ← pushBack v x; pure (v, .unit)
  | .removeBy p => do let (v, b) ← removeBy v p; pure (v, .flag b)
  | .at' i => do let x ← at' v i; pure (v, .item x)
  | .size => pure (v, .num (size v))
  | .find p => do let x ← find v p; pure (v, .item x)

/-- A history of operations and its answers. -/
def run {α} (v : Vec α) : List (Op α) → Res (Vec α × List (Out α))
  | [] => pure (v, [])
  | op :: ops => do
    let (v, o) ← step v op
    let (v, os) ← run v ops
    pure (v, o :: os)

end Verif.Vector
