import Verif.Model.Handle

/-!
# Specification of open handles

Which handle a component name has, told from the calls and their results only.
-/

namespace Verif.Handle

/-- The open handle of each name. -/
abbrev Open := Bytes → Option Handle

/-- Opening a name gives it the new handle in place of any previous one; a failed open leaves it
without any. Closing takes the handle away from its name. -/
def specStep (f : Open) : Op × Out → Open
  | (.open_ name _, .opened h) => fun n => if n = name then some h else f n
  | (.open_ name _, _) => fun n => if n = name then none else f n
  | (.close addr, .closed true) => fun n => if (f n).map (·.addr) = some addr then none else f n
  | (.close _, _) => f

/-- The open handles after a history, beginning with none. -/
def openAfter (hist : List (Op × Out)) : Open := hist.foldl specStep (fun _ => none)

end Verif.Handle
