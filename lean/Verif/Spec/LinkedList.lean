import Verif.Model.LinkedList

/-!
# Specification for linked lists: a sequence of items, and the items to be recycled
-/

namespace Verif.LinkedList

/-- Items with their data, in order; removed items with the data left in them, last removed first;
and the number of items ever made. -/
structure Spec (D : Type) where
  live : List (Nat × Option D)
  free : List (Nat × Option D)
  made : Nat

/-- The item an insertion uses: the item removed last, or else a new one, without data. -/
def Spec.take {D} (t : Spec D) : (Nat × Option D) × Spec D :=
  match t.free with
  | f :: fs => (f, { t with free := fs })
  | [] => ((t.made, none), { t with made := t.made + 1 })

/-- The data an insertion stores: what the user gives, or what is in the item. -/
def argData {D} (old : Option D) : Arg D → Option D
  | .reuse => old
  | .ptr d => d

/-- Inserting before or after the item with address `at'`. -/
def insBefore {D} (at' : Nat) (x : Nat × Option D) : List (Nat × Option D) → List (Nat × Option D)
  | [] => []
  | y :: r => if y.1 = at' then x :: y :: r else y :: insBefore at' x r

def insAfter {D} (at' : Nat) (x : Nat × Option D) : List (Nat × Option D) → List (Nat × Option D)
  | [] => []
  | y :: r => if y.1 = at' then y :: x :: r else y :: insAfter at' x r

/-- What is left in a removed item. -/
def dropped {D} (destroy : Bool) (x : Nat × Option D) : Nat × Option D :=
  (x.1, if destroy then none else x.2)

/-- Removing the first item satisfying `p`. -/
def Spec.remove {D} (t : Spec D) (p : Nat × Option D → Bool) (destroy : Bool) : Spec D :=
  match t.live.find? p with
  | some x => { t with live := t.live.eraseP p, free := dropped destroy x :: t.free }
  | none => t

/-- The operations on sequences. -/
def specStep {D} (t : Spec D) : Op D → Spec D × Out
  | .pushFront x =>
    ({ t.take.2 with live := (t.take.1.1, argData t.take.1.2 x) :: t.live }, .item t.take.1.1)
  | .pushBack x =>
    ({ t.take.2 with live := t.live ++ [(t.take.1.1, argData t.take.1.2 x)] }, .item t.take.1.1)
  | .insertBefore x at' =>
    ({ t.take.2 with live := insBefore at' (t.take.1.1, argData t.take.1.2 x) t.live },
      .item t.take.1.1)
  | .insertAfter x at' =>
    ({ t.take.2 with live := insAfter at' (t.take.1.1, argData t.take.1.2 x) t.live },
      .item t.take.1.1)
  | .removeItem a destroy => (t.remove (fun x => x.1 = a) destroy, .unit)
  | .removeBy p destroy => (t.remove (fun x => p x.2) destroy, .flag (t.live.any (fun x => p x.2)))
  | .removeAll destroy =>
    ({ t with live := [], free := (t.live.map (dropped destroy)).reverse ++ t.free }, .unit)
  | .setData a d => ({ t with live := t.live.map (fun x => if x.1 = a then (a, d) else x) }, .unit)

/-- The item an operation refers to must be in the list. -/
def Allowed {D} (t : Spec D) : Op D → Prop
  | .insertBefore _ a | .insertAfter _ a | .removeItem a _ | .setData a _ => ∃ d, (a, d) ∈ t.live
  | _ => True

/-- A history on sequences. -/
def specRun {D} (t : Spec D) : List (Op D) → Spec D × List Out
  | [] => (t, [])
  | op :: ops => ((specRun (specStep t op).1 ops).1, (specStep t op).2 :: (specRun (specStep t op).1 ops).2)

/-- Every operation of the history refers to items in the list at that time. -/
def AllowedRun {D} (t : Spec D) : List (Op D) → Prop
  | [] => True
  | op :: ops => Allowed t op ∧ AllowedRun (specStep t op).1 ops

/-- The empty list. -/
def Spec.empty {D} : Spec D := { live := [], free := [], made := 0 }

/-- The operation does not leave data in a removed item: it removes nothing, or with a destroyer. -/
def destroys {D} : Op D → Bool
  | .removeItem _ d | .removeBy _ d | .removeAll d => d
  | _ => true

end Verif.LinkedList
