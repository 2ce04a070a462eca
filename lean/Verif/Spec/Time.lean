import Verif.Model.Time

/-!
# Times in nanoseconds
-/

namespace Verif.Spec.Time

open Verif.Time

/-- A time as the clock gives it. -/
def Normal (t : Time) : Prop := 0 ≤ t.nsec ∧ t.nsec < 1000000000

/-- Nanoseconds since the epoch of the clock. -/
def nanos (t : Time) : Int := t.sec * 1000000000 + t.nsec

end Verif.Spec.Time
