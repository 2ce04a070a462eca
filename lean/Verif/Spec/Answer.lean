import Verif.Model.Answer

/-!
# What is said about answering calls
-/

namespace Verif.Spec.Answer

open Verif.Answer

/-- What happened and what was seen. -/
abbrev History := List (Op × List Effect)

/-- The calls that arrived, in order. -/
def arrived (h : History) : List Call :=
  h.filterMap fun x => match x.1 with
    | .enter c => some c
    | _ => none

/-- The call whose callback was called. -/
def called : Effect → Option Call
  | .invoked c _ => some c
  | .sent _ _ => none

/-- The call that was answered. -/
def replied : Effect → Option Call
  | .invoked _ _ => none
  | .sent c _ => some c

/-- The calls for which a callback was called, in order. -/
def served (h : History) : List Call :=
  (h.flatMap (·.2)).filterMap called

/-- The calls that were answered, in order. -/
def answered (h : History) : List Call :=
  (h.flatMap (·.2)).filterMap replied

/-- All that was seen. -/
def effects (h : History) : List Effect := h.flatMap (·.2)

/-- How often a callback returned. -/
def returns (h : History) : Nat :=
  (h.filter fun x => match x.1 with
    | .back _ => true
    | _ => false).length

/-- The response a callback that ended with `r` gives itself. -/
def given (c : Call) : Ret → Option Nat
  | .answer v => some v
  | .silent => some unsupported
  | .later => if c.inTable then some unsupported else none

/-- Only callbacks that got a handle promise a later response. -/
def Kept (h : History) : Prop :=
  ∀ a out b c, h = a ++ (.back .later, out) :: b → (served a).getLast? = some c → c.inTable = false → c.rpc = true

/-- The handle was used to respond. -/
def Used (h : History) (k : Nat) : Prop := ∃ v o, (Op.respond k v, o) ∈ h

/-- The callback that got the handle returned without promising a response. -/
def Ended (h : History) (k : Nat) : Prop :=
  ∃ a r o b c, h = a ++ (.back r, o) :: b ∧ r ≠ .later ∧ (served a).getLast? = some c ∧ .invoked c (some k) ∈ effects a

/-- No two calls are the same. -/
def Distinct (h : History) : Prop := ((arrived h).map (·.id)).Nodup

end Verif.Spec.Answer
