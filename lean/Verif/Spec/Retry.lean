import Verif.Model.Retry

/-!
# Specification of the waits between attempts

In whole seconds: 1, 2, 4, ... up to 60, and never more than what is left.
-/

namespace Verif.Retry

/-- The waits from the `k`-th on when `left` seconds remain. -/
def schedule (k left : Nat) : List Nat :=
  if h : left = 0 then []
  else
    let w := min (min (2 ^ k) 60) left
    w :: schedule (k + 1) (left - w)
termination_by left
decreasing_by
  have : 0 < 2 ^ k := Nat.two_pow_pos k
  omega

end Verif.Retry
