import Verif.Model.Discover
/-!
# Discovery: specification
-/

namespace Verif.Spec.Discover

open Verif.Discover

/-- The caller has got these names: success, how many, and an array of exactly them (no array is needed for none). -/
def Given (names : List Bytes) (o : Out) : Prop :=
  o.code = .success ∧ o.count = some (names.length : Int) ∧
    (o.slot = .array (names.map .text) ∨ (names = [] ∧ (o.slot = .null ∨ o.slot = .untouched)))

/-- An answer that a router can send: as many items as it says, all texts that are names. -/
structure Honest (names : List Bytes) (r : Reply) : Prop where
  count : r.count = some (BitVec.ofNat 32 names.length)
  items : r.items = names.map some
  few : names.length < 2 ^ 31
  short : ∀ n ∈ names, n.length ≤ 256

/-- An answer, from whomever, that says a number not less than the number of items, and whose items are texts. -/
def Sound (r : Reply) : Prop :=
  (∃ n, r.count = some n ∧ (0 ≤ n.toInt → (r.items.length : Int) ≤ n.toInt)) ∧ ∀ i ∈ r.items, i ≠ none

/-- The pointer can be used or freed by the caller, or is as it was. -/
def Usable (s : Slot) : Prop := s ≠ .dangling

end Verif.Spec.Discover
