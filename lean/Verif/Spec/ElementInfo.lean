import Verif.Model.ElementInfo
import Verif.Spec.Gather

/-!
# Specification of listing elements

In terms of what names lead to (`Spec.Rows.View`).
-/

namespace Verif.Spec.ElementInfo

open Verif Verif.Element Verif.Spec.Provider Verif.Spec.Rows
open Verif.ElementInfo (Listed)
open Verif.Params (Comp Fate coreToRbus)

/-- The names directly below a name, without row templates. -/
def below (V : View) (p : Path) : List Path :=
  match V p with
  | some e => (e.below.filter (· ≠ template)).map (fun t => p ++ [t])
  | none => []

/-- The elements `n` levels below a name, and those between if `all`. -/
def reach (V : View) (all : Bool) : Nat → Path → List Path
  | 0, p => [p]
  | n + 1, p => (if all then [p] else []) ++ (below V p).flatMap (reach V all n)

/-- What a depth asks for: down to that level, or with a negative number that level only. -/
def wanted (V : View) (depth : Int) (p : Path) : List Path := reach V (decide (0 ≤ depth)) depth.natAbs p

/-- Rows of tables. -/
def isRow (V : View) (q : Path) : Bool :=
  match V q, V q.dropLast with
  | some e, some t => decide (e.type = tObject) && decide (t.type = tTable)
  | _, _ => false

/-- What can be done with an element: one bit for each kind of handler, and rows can be read and written. -/
def rights (cb : Cb) (row : Bool) : Nat :=
  (if cb.get.isSome || row then 1 else 0) + (if cb.set.isSome || row then 2 else 0) + (if cb.addRow.isSome then 4 else 0) +
    (if cb.removeRow.isSome then 8 else 0) + (if cb.sub.isSome then 16 else 0) + (if cb.method.isSome then 32 else 0)

/-- What is told of an element: objects and tables are named with a dot at the end. -/
def describe (V : View) (c : Comp) (q : Path) : List Listed :=
  match V q with
  | some e => [⟨if e.type = tObject ∨ e.type = tTable then join q else Subs.fullText q, BitVec.ofNat 32 e.type,
      BitVec.ofNat 32 (rights e.cb (isRow V q)), c⟩]
  | none => []

/-- What one provider contributes: nothing if it does not have the name or a call of it fails. -/
def told (V : View) (c : Comp) (p : Path) (depth : Int) : Fate → Int × List Listed
  | .answered => if V p = none then (17, []) else (0, (wanted V depth p).flatMap (describe V c))
  | .lost e => ((coreToRbus e : Nat), [])
  | .unanswered e => ((coreToRbus e : Nat), [])

/-- What all contribute, in order. -/
def tolds (V : Comp → View) (p : Path) (depth : Int) : List Comp → List Fate → List (Int × List Listed)
  | [], _ => []
  | c :: cs, fates => told (V c) c p depth (fates.headD .answered) :: tolds V p depth cs fates.tail

end Verif.Spec.ElementInfo
