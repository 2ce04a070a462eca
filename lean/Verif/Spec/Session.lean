import Verif.Model.Session

/-!
# Specification of sessions

What a history of calls and their results says about how many sessions are open, looking at nothing
but the results.
-/

namespace Verif.Session

/-- Sessions that were created: calls that succeeded and handed out an id. -/
def created : List (Op × Rc × BitVec 32) → Nat
  | [] => 0
  | (.create, .success, _) :: h => created h + 1
  | _ :: h => created h

/-- Sessions that were closed: calls with an id (not the default 0) that succeeded. -/
def closed : List (Op × Rc × BitVec 32) → Nat
  | [] => 0
  | (.close id, .success, _) :: h => (if id = 0#32 then 0 else 1) + closed h
  | _ :: h => closed h

/-- The calls of a history next to their results. -/
def history (ops : List Op) : List (Op × Rc × BitVec 32) := ops.zip (run init ops).2

end Verif.Session
