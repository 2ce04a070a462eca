import Verif.Model.Time

/-!
# Model of how the router limits a warning (src/rtmessage/rtrouted.c)

When a name is registered a second time, the router writes a warning to its log, but not always
(rtrouted.c:411-421). Names are texts without NUL of fewer than 128 characters (rtrouted.c:147-165, 760).
-/

namespace Verif.WarnLimit

open Verif

/-- `storedTopicExp` and `storedTime` (rtrouted.c:384-385). -/
structure State where
  name : Bytes
  time : Time.Time
  deriving DecidableEq, Repr

/-- Their first values. -/
def init : State := ⟨[], ⟨0, 0⟩⟩

/-- `rtRouted_ShouldLimitLog` (rtrouted.c:380-408): true when the warning is written. The clock is read once here;
in the code it is read again for the time that is kept (lines 396 and 404). -/
def step (s : State) (e : Bytes × Time.Time) : Res (State × Bool) :=
  if s.name.take 128 = e.1.take 128 then
    if Time.elapsed s.time e.2 ≥ 60000 then .ok ({ s with time := e.2 }, true)
    else .ok (s, false)
  else .ok (⟨e.1.take 126, e.2⟩, true)

/-- Several registrations. -/
def run (s : State) : List (Bytes × Time.Time) → Res (State × List Bool)
  | [] => .ok (s, [])
  | e :: es => do
    let (s1, o) ← step s e
    let (s2, os) ← run s1 es
    pure (s2, o :: os)

end Verif.WarnLimit
