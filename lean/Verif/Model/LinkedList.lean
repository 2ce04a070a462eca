import Verif.Model.Base

/-!
# Model of rtList (src/rtmessage/rtList.c)

Items live in a heap and are linked by addresses; following a link to an address where there is no
item is undefined, and so is a walk that does not end. Allocation is assumed to succeed and the list
and item pointers given by the user to be non-NULL. `D` is what data pointers point to; a NULL data
pointer is `none`.
-/

namespace Verif.LinkedList

open Verif

/-- `struct _rtListItem` (rtList.c:30-35). -/
structure Node (D : Type) where
  data : Option D
  next : Option Nat
  prev : Option Nat

/-- `struct _rtList` (rtList.c:37-43) and the heap; `fresh` is the next address `malloc` returns. -/
structure LL (D : Type) where
  mem : Nat → Option (Node D)
  fresh : Nat
  front : Option Nat
  back : Option Nat
  free : Option Nat
  size : Nat

/-- `rtList_Create` (rtList.c:85-95). -/
def create {D} : LL D :=
  { mem := fun _ => none, fresh := 0, front := none, back := none, free := none, size := 0 }

/-- Reading the item at an address. -/
def get {D} (s : LL D) (a : Nat) : Res (Node D) :=
  match s.mem a with
  | some n => .ok n
  | none => .ub

/-- Writing the item at an address. -/
def put {D} (s : LL D) (a : Nat) (n : Node D) : LL D :=
  { s with mem := fun i => if i = a then some n else s.mem i }

/-- `a->next = v`. -/
def setNext {D} (s : LL D) (a : Nat) (v : Option Nat) : Res (LL D) := do
  let n ← get s a
  pure (put s a { n with next := v })

/-- `a->prev = v`. -/
def setPrev {D} (s : LL D) (a : Nat) (v : Option Nat) : Res (LL D) := do
  let n ← get s a
  pure (put s a { n with prev := v })

/-- `a->data = v`; `rtListItem_SetData` (rtList.c:361-366). -/
def setData {D} (s : LL D) (a : Nat) (v : Option D) : Res (LL D) := do
  let n ← get s a
  pure (put s a { n with data := v })

/-- The data argument of the insertions: a pointer, or `rtListReuseData` (rtList.c:28). -/
inductive Arg (D : Type) where
  | reuse
  | ptr (d : Option D)

/-- `rtList_GetFreeItem` (rtList.c:45-61). The links of a new item are not initialised; every caller
sets them. -/
def getFreeItem {D} (s : LL D) : Res (LL D × Nat) :=
  match s.free with
  | some f => do
    let n ← get s f
    pure ({ s with free := n.next }, f)
  | none => pure ({ put s s.fresh { data := none, next := none, prev := none } with
      fresh := s.fresh + 1 }, s.fresh)

/-- `rtList_SetFreeItem` (rtList.c:63-77). -/
def setFreeItem {D} (s : LL D) (item : Nat) : Res (LL D) :=
  match s.free with
  | some f => do
    let s ← setPrev s f (some item)
    let s ← setNext s item (some f)
    let s ← setPrev s item none
    pure { s with free := some item }
  | none => do
    let s ← setNext s item none
    let s ← setPrev s item none
    pure { s with free := some item }

/-- `if(data != rtListReuseData) item->data = data`. -/
def setArg {D} (s : LL D) (item : Nat) : Arg D → Res (LL D)
  | .reuse => pure s
  | .ptr d => setData s item d

/-- `if(p) p->next = v`. -/
def setNextOpt {D} (s : LL D) (p : Option Nat) (v : Option Nat) : Res (LL D) :=
  match p with
  | some a => setNext s a v
  | none => pure s

/-- `if(p) p->prev = v`. -/
def setPrevOpt {D} (s : LL D) (p : Option Nat) (v : Option Nat) : Res (LL D) :=
  match p with
  | some a => setPrev s a v
  | none => pure s

/-- `rtList_PushFront` (rtList.c:128-149), with the item made. -/
def pushFront {D} (s : LL D) (data : Arg D) : Res (LL D × Nat) := do
  let (s, item) ← getFreeItem s
  let s ← setArg s item data
  let s ← setPrev s item none
  let s ← setNext s item s.front
  let s ← setPrevOpt s s.front (some item)
  let s := { s with front := some item }
  let s := { s with back := if s.back = none then some item else s.back, size := s.size + 1 }
  pure (s, item)

/-- `rtList_PushBack` (rtList.c:150-171). -/
def pushBack {D} (s : LL D) (data : Arg D) : Res (LL D × Nat) := do
  let (s, item) ← getFreeItem s
  let s ← setArg s item data
  let s ← setNext s item none
  let s ← setPrev s item s.back
  let s ← setNextOpt s s.back (some item)
  let s := { s with back := some item }
  let s := { s with front := if s.front = none then some item else s.front, size := s.size + 1 }
  pure (s, item)

/-- Lines 186-189: `if(at == list->front) list->front = item; else item->prev->next = item;`. -/
def linkBefore {D} (s : LL D) (at' item : Nat) : Res (LL D) :=
  if some at' = s.front then pure { s with front := some item }
  else do
    let n ← get s item
    match n.prev with
    | some p => setNext s p (some item)
    | none => .ub

/-- `rtList_InsertBefore` (rtList.c:172-194). -/
def insertBefore {D} (s : LL D) (data : Arg D) (at' : Nat) : Res (LL D × Nat) := do
  let (s, item) ← getFreeItem s
  let s ← setArg s item data
  let s ← setNext s item (some at')
  let n ← get s at'
  let s ← setPrev s item n.prev
  let s ← setPrev s at' (some item)
  let s ← linkBefore s at' item
  pure ({ s with size := s.size + 1 }, item)

/-- Lines 209-212: `if(at == list->back) list->back = item; else item->next->prev = item;`. -/
def linkAfter {D} (s : LL D) (at' item : Nat) : Res (LL D) :=
  if some at' = s.back then pure { s with back := some item }
  else do
    let n ← get s item
    match n.next with
    | some p => setPrev s p (some item)
    | none => .ub

/-- `rtList_InsertAfter` (rtList.c:195-217). -/
def insertAfter {D} (s : LL D) (data : Arg D) (at' : Nat) : Res (LL D × Nat) := do
  let (s, item) ← getFreeItem s
  let s ← setArg s item data
  let n ← get s at'
  let s ← setNext s item n.next
  let s ← setPrev s item (some at')
  let s ← setNext s at' (some item)
  let s ← linkAfter s at' item
  pure ({ s with size := s.size + 1 }, item)

/-- Lines 237-241 and 291-295: with a destroyer, non-NULL data is destroyed and the pointer
cleared. -/
def dropData {D} (s : LL D) (item : Nat) (destroy : Bool) : Res (LL D) :=
  if destroy then setData s item none else pure s

/-- `rtList_RemoveItem` (rtList.c:218-245). -/
def removeItem {D} (s : LL D) (item : Nat) (destroy : Bool) : Res (LL D) := do
  let n ← get s item
  let s ← setNextOpt s n.prev n.next
  let s ← setPrevOpt s n.next n.prev
  let s := { s with front := if s.front = some item then n.next else s.front }
  let s := { s with back := if s.back = some item then n.prev else s.back }
  let s ← dropData s item destroy
  let s ← setFreeItem s item
  pure { s with size := s.size - 1 }

/-- The search loops (rtList.c:251-252, 268-276, 320-325) from an item, with the test on the data
pointer as `p`: the item found. -/
def search {D} (s : LL D) (p : Option D → Bool) : Nat → Option Nat → Res (Option (Nat × Option D))
  | _, none => pure none
  | 0, some _ => .ub
  | fuel + 1, some a => do
    let n ← get s a
    if p n.data then pure (some (a, n.data)) else search s p fuel n.next

/-- `rtList_RemoveItemByCompare` (rtList.c:262-281), and `rtList_RemoveItemWithData` (246-261) with
pointer equality as the test. -/
def removeBy {D} (s : LL D) (p : Option D → Bool) (destroy : Bool) : Res (LL D × Bool) := do
  match ← search s p s.fresh s.front with
  | none => pure (s, false)
  | some (a, _) => do
    let s ← removeItem s a destroy
    pure (s, true)

/-- The loop of `rtList_RemoveAllItems` (rtList.c:287-298). -/
def removeLoop {D} (destroy : Bool) : Nat → Option Nat → LL D → Res (LL D)
  | _, none, s => pure s
  | 0, some _, _ => .ub
  | fuel + 1, some a, s => do
    let n ← get s a
    let s ← dropData s a destroy
    let s ← setFreeItem s a
    removeLoop destroy fuel n.next s

/-- `rtList_RemoveAllItems` (rtList.c:283-302). -/
def removeAll {D} (s : LL D) (destroy : Bool) : Res (LL D) := do
  let s ← removeLoop destroy s.fresh s.front s
  pure { s with size := 0, front := none, back := none }

/-- `rtList_Find` (rtList.c:314-327). -/
def find {D} (s : LL D) (p : Option D → Bool) : Res (Option (Option D)) := do
  let r ← search s p s.fresh s.front
  pure (r.map (·.2))

/-- Walking forward with `rtList_GetFront`, `rtListItem_GetNext`, `rtListItem_GetData`
(rtList.c:337-374). -/
def walkNext {D} (s : LL D) : Nat → Option Nat → Res (List (Nat × Option D))
  | _, none => pure []
  | 0, some _ => .ub
  | fuel + 1, some a => do
    let n ← get s a
    let r ← walkNext s fuel n.next
    pure ((a, n.data) :: r)

/-- Walking backward with `rtList_GetBack`, `rtListItem_GetPrev`, `rtListItem_GetData`
(rtList.c:345-382). -/
def walkPrev {D} (s : LL D) : Nat → Option Nat → Res (List (Nat × Option D))
  | _, none => pure []
  | 0, some _ => .ub
  | fuel + 1, some a => do
    let n ← get s a
    let r ← walkPrev s fuel n.prev
    pure ((a, n.data) :: r)

/-- `rtList_Destroy` with a destroyer (rtList.c:97-127): what is passed to the destroyer, in order:
the data of every item, even NULL, and then the non-NULL data still in recycled items. -/
def destroyCalls {D} (s : LL D) : Res (List (Option D)) := do
  let l ← walkNext s s.fresh s.front
  let f ← walkNext s s.fresh s.free
  pure (l.map (·.2) ++ (f.map (·.2)).filter (·.isSome))

/-- The operations of a list's user. -/
inductive Op (D : Type) where
  | pushFront (x : Arg D)
  | pushBack (x : Arg D)
  | insertBefore (x : Arg D) (at' : Nat)
  | insertAfter (x : Arg D) (at' : Nat)
  | removeItem (item : Nat) (destroy : Bool)
  | removeBy (p : Option D → Bool) (destroy : Bool)
  | removeAll (destroy : Bool)
  | setData (item : Nat) (d : Option D)

/-- What an operation answers: the new item, or whether something was removed. -/
inductive Out where
  | unit
  | item (a : Nat)
  | flag (b : Bool)
deriving DecidableEq

/-- One operation on the model. -/
def step {D} (s : LL D) : Op D → Res (LL D × Out)
  | .pushFront x => do let (s, a) ← pushFront s x; pure (s, .item a)
  | .pushBack x => do let (s, a) ← pushBack s x; pure (s, .item a)
  | .insertBefore x at' => do let (s, a) ← insertBefore s x at'; pure (s, .item a)
  | .insertAfter x at' => do let (s, a) ← insertAfter s x at'; pure (s, .item a)
  | .removeItem a destroy => do let s ← removeItem s a destroy; pure (s, .unit)
  | .removeBy p destroy => do let (s, b) ← removeBy s p destroy; pure (s, .flag b)
  | .removeAll destroy => do let s ← removeAll s destroy; pure (s, .unit)
  | .setData a d => do let s ← setData s a d; pure (s, .unit)

/-- A history of operations and its answers. -/
def run {D} (s : LL D) : List (Op D) → Res (LL D × List Out)
  | [] => pure (s, [])
  | op :: ops => do
    let (s, o) ← step s op
    let (s, os) ← run s ops
    pure (s, o :: os)

end Verif.LinkedList
