import Verif.Model.WarnLimit
import Verif.Spec.Time
import Verif.Proof.Exec

/-!
# When a warning should be written
-/

namespace Verif.WarnLimit

open Verif
open Verif.Spec.Time (Normal nanos)

/-- Registrations refused so far, each with its time and whether there was a warning. -/
abbrev History := List ((Bytes × Time.Time) × Bool)

/-- The last warning: its name and time. -/
def lastWarning (h : History) : Option (Bytes × Time.Time) := ((h.filter (·.2)).getLast?).map (·.1)

/-- Names that are not empty and have at most 126 characters, and times of a clock. -/
def Ordinary (e : Bytes × Time.Time) : Prop := e.1 ≠ [] ∧ e.1.length ≤ 126 ∧ Normal e.2

/-- Less than 24 days (2^31 milliseconds) apart. -/
def Near (s t : Time.Time) : Prop := nanos t - nanos s < 2 ^ 31 * 1000000 ∧ nanos s - nanos t < 2 ^ 31 * 1000000

end Verif.WarnLimit
