import Verif.Model.Params

/-!
# What setting and getting several parameters should do
-/

namespace Verif.Spec.Params

open Verif Verif.Params

/-- The values of all parameters after those in `l` were given new values, a later one counting more than an
earlier one. -/
def after (s : Name → Value) (l : List (Name × Value)) : Name → Value :=
  fun n => ((l.reverse.find? fun x => x.1 = n).map (·.2)).getD (s n)

/-- The parameters of a request with the values it gives them. -/
def asked (items : List Item) : List (Name × Value) := items.map fun i => (i.name, i.value)

/-- The set calls among handler calls. -/
def setCalls (l : List Call) : List (Name × Value × Bool) :=
  l.filterMap fun c => match c with
    | .set n v commit _ => some (n, v, commit)
    | .get _ _ => none

/-- The provider has this parameter, and it can be read and written. -/
def Known (p : Provider) (n : Name) : Prop := p.elem n = some ⟨true, true⟩

/-- Each parameter has exactly one provider. -/
def Routed (w : World) (names : List Name) : Prop := ∀ n ∈ names, ∃ c, w.routes n = [c]

/-- Every call is answered. -/
def Answered (w : World) : Prop := ∀ f ∈ w.fates, f = .answered

/-- How many of the coming handler calls will fail. -/
def failures (p : Provider) : Nat := p.codes.countP (· ≠ 0)

/-- The parameter a handler is called for. -/
def about : Call → Name
  | .get n _ => n
  | .set n _ _ _ => n

/-- The handler calls `l` were made from one state of a provider to another. -/
def Made (p p' : Provider) (l : List Call) : Prop := p'.calls = p.calls ++ l

end Verif.Spec.Params
