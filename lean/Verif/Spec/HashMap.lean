import Verif.Model.HashMap

/-!
# Specification for hash maps: the list of live bindings, most recent first
-/

namespace Verif.HashMap

/-- The operations on the live bindings. -/
def specStep {K V} [DecidableEq K] (l : List (K × V)) : Op K V → List (K × V) × Out V
  | .set k v => ((k, v) :: l.filter (fun kv => kv.1 ≠ k), .unit)
  | .get k => (l, .val (l.lookup k))
  | .contains k => (l, .flag (l.lookup k).isSome)
  | .remove k => (l.filter (fun kv => kv.1 ≠ k), .flag (l.lookup k).isSome)
  | .size => (l, .num l.length)

/-- A history on the live bindings. -/
def specRun {K V} [DecidableEq K] (l : List (K × V)) : List (Op K V) → List (K × V) × List (Out V)
  | [] => (l, [])
  | op :: ops => ((specRun (specStep l op).1 ops).1, (specStep l op).2 :: (specRun (specStep l op).1 ops).2)

/-- A hash function that stays within the table. -/
def GoodHash {K} (c : Conf K) : Prop := ∀ k n, 0 < n → c.hash k n < n

end Verif.HashMap
