import Verif.Model.Typed
import Verif.Spec.Retain

/-!
# What objects hold under their names
-/

namespace Verif.Spec.Typed

open Verif Verif.Value Verif.Typed
open Verif.Spec.Retain (upsert change)

/-- What is under a name: data of its own, or a value the program made and may still change. -/
inductive Held where
  | own (d : Scalar)
  | shared (v : Nat)
  deriving DecidableEq, Repr

/-- What a program can write down while it runs. -/
structure Sheet where
  /-- The objects and what they hold, in order. -/
  objects : Nat → Option (List (Bytes × Held))
  /-- The values it made and what it last put into them. -/
  values : Nat → Option Scalar
  /-- What it has not released. -/
  mine : Nat → Bool

def Sheet.empty : Sheet := ⟨fun _ => none, fun _ => none, fun _ => false⟩

/-- What is under a name of an object. -/
def Sheet.under (v : Sheet) (o : Nat) (nm : Bytes) : Option Held :=
  match v.objects o with
  | some l => (l.find? fun x => x.1 = nm).map (·.2)
  | none => none

/-- Its data. -/
def Sheet.data (v : Sheet) : Held → Scalar
  | .own d => d
  | .shared x => (v.values x).getD .none

/-- Puts something under a name. -/
def Sheet.put (v : Sheet) (o : Nat) (nm : Bytes) (x : Held) : Sheet :=
  match v.objects o with
  | some l => { v with objects := change v.objects o (some (upsert l nm x)) }
  | none => v

/-- A call and what came of it. -/
def note (v : Sheet) : Event × Out → Sheet
  | (.newObject _, .made o) => { v with objects := change v.objects o (some []), mine := change v.mine o true }
  | (.newValue d, .made x) => { v with values := change v.values x (some d), mine := change v.mine x true }
  | (.release x, _) => { v with mine := change v.mine x false }
  | (.change x d, _) => { v with values := change v.values x (some d) }
  | (.setTyped o nm d, _) => v.put o nm (.own d)
  | (.setValue o nm x, _) => v.put o nm (.shared x)
  | (.setAt o nm d, _) =>
    match v.under o nm with
    | some _ => v.put o nm (.own d)
    | none => v
  | (.changeAt o nm d, _) =>
    match v.under o nm with
    | some (.own _) => v.put o nm (.own d)
    | some (.shared x) => { v with values := change v.values x (some d) }
    | none => v
  | _ => v

/-- The sheet after a history. -/
def sheet (h : List (Event × Out)) : Sheet := h.foldl note Sheet.empty

/-- An object, or a value, that the program made and has not released. -/
def Sheet.object (v : Sheet) (o : Nat) : Prop := v.mine o = true ∧ (v.objects o).isSome
def Sheet.value (v : Sheet) (x : Nat) : Prop := v.mine x = true ∧ (v.values x).isSome

/-- The calls of a careful program: it passes objects where objects are due and values where values are, and only
such as it has not released. It does not read from a property that is not there, except as a string or bytes. -/
def Allowed (v : Sheet) : Event → Prop
  | .newObject _ => True
  | .newValue _ => True
  | .release x => v.mine x = true
  | .change x _ => v.value x
  | .setTyped o _ _ => v.object o
  | .setValue o _ x => v.object o ∧ v.value x
  | .setAt o _ _ => v.object o
  | .changeAt o _ _ => v.object o
  | .getTyped o _ _ => v.object o
  | .getAt o nm t => v.object o ∧ (v.under o nm = none → t = .string ∨ t = .bytes)

/-- Every call of the history was allowed when it was made. -/
def Careful (h : List (Event × Out)) : Prop := ∀ a e o b, h = a ++ (e, o) :: b → Allowed (sheet a) e

/-- What reading under a name as a type gives. -/
def answer (v : Sheet) (o : Nat) (nm : Bytes) (t : Ty) : Got :=
  match v.under o nm with
  | none => .notFound
  | some x =>
    match v.data x, t with
    | .string b, .string => .text b
    | .bytes b, .string => .text b
    | .string b, .bytes => .text (b.map (· ++ [0]))
    | .bytes b, .bytes => .text b
    | d, t => if d.ty = t then .is d else .wrongType

/-- What a call must tell; `none`: it makes something, see `Unused`. -/
def told (v : Sheet) : Event → Option Out
  | .newObject _ => none
  | .newValue _ => none
  | .setAt o nm _ => some (.there (v.under o nm).isSome)
  | .changeAt o nm _ => some (.there (v.under o nm).isSome)
  | .getTyped o nm t => some (.got (answer v o nm t))
  | .getAt o nm t => some (.got (if v.under o nm = none then .null else answer v o nm t))
  | _ => some .done

/-- Nothing on the sheet. -/
def Unused (v : Sheet) (x : Nat) : Prop := v.objects x = none ∧ v.values x = none ∧ v.mine x = false

/-- A call that does not concern what is under a name. -/
def Elsewhere (o : Nat) (nm : Bytes) : Event → Prop
  | .setTyped q n _ => ¬ (q = o ∧ n = nm)
  | .setValue q n _ => ¬ (q = o ∧ n = nm)
  | .setAt q n _ => ¬ (q = o ∧ n = nm)
  | .changeAt q n _ => ¬ (q = o ∧ n = nm)
  | _ => True

end Verif.Spec.Typed
