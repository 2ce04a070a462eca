import Verif.Model.Json

/-!
# What the fields of a message are meant to be
-/

namespace Verif.Json

open Verif

/-- The same letters, apart from capitals. -/
def SameLetter (x y : UInt8) : Prop :=
  x = y ∨ (65 ≤ x.toNat ∧ x.toNat ≤ 90 ∧ y.toNat = x.toNat + 32) ∨ (65 ≤ y.toNat ∧ y.toNat ≤ 90 ∧ x.toNat = y.toNat + 32)

/-- The same name, apart from capitals. -/
def SameName : Bytes → Bytes → Prop
  | [], [] => True
  | x :: a, y :: b => SameLetter x y ∧ SameName a b
  | _, _ => False

/-- The name of the field that a call makes or adds to, if it does. -/
def named : Op → Option Bytes
  | .setString n v => if v.isSome then some n else none
  | .setInt32 n _ => some n
  | .setBool n _ => some n
  | .setDouble n _ => some n
  | .setMessage n x => if x.isSome then some n else none
  | .addString n _ => some n
  | .addMessage n x => if x.isSome then some n else none
  | .addBinary n bs => if bs.length ≤ 1026 then some n else none
  | .setTopic _ => some ("_topic".toUTF8.data.toList)

/-- The call makes or adds to the field. -/
def Concerns (n : Bytes) (op : Op) : Prop := ∃ k, named op = some k ∧ SameName n k

/-- The call adds to an array. -/
def Adds : Op → Prop
  | .addString _ _ => True
  | .addMessage _ _ => True
  | _ => False

/-- What a call adds: a text, or a message. -/
def addition : Op → Option (Bytes ⊕ Item)
  | .addString _ (some s) => some (.inl s)
  | .addMessage _ (some x) => some (.inr x)
  | _ => none

open Classical in
/-- What is added to a field, in order. -/
noncomputable def added (n : Bytes) (ops : List Op) : List (Bytes ⊕ Item) :=
  (ops.filter (fun op => Concerns n op)).filterMap addition

/-- The topic is set at most once, and before nothing else makes a field of this name. -/
def OneTopic (ops : List Op) : Prop :=
  ∀ before t after, ops = before ++ .setTopic t :: after → ∀ op ∈ before, ¬ Concerns ("_topic".toUTF8.data.toList) op

end Verif.Json
