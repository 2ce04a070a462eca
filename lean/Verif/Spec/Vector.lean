import Verif.Model.Vector

/-!
# Specification for vectors: a list
-/

namespace Verif.Vector

/-- The operations on a plain list. -/
def specStep {α} (l : List α) : Op α → List α × Out α
  | .push x => (l ++ [x], .unit)
  | .removeBy p => (l.eraseP p, .flag (l.any p))
  | .at' i => (l, .item l[i]?)
  | .size => (l, .num l.length)
  | .find p => (l, .item (l.find? p))

/-- A history on a plain list. -/
def specRun {α} (l : List α) : List (Op α) → List α × List (Out α)
  | [] => (l, [])
  | op :: ops => ((specRun (specStep l op).1 ops).1, (specStep l op).2 :: (specRun (specStep l op).1 ops).2)

end Verif.Vector
