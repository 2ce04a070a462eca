import Verif.Model.GetExt

/-!
# Specification of getting one name from several providers
-/

namespace Verif.Spec.GetExt

open Verif Verif.Params

/-- What a destination contributes: a code and values, of which there are none with an error. -/
def contribution (f : Fate) (p : Provider) (n : Name) : Nat × List Prop' :=
  match f with
  | .answered => if (p.wild n).1 = 0 then (0, (p.wild n).2) else (readCode (p.wild n).1, [])
  | .lost e => (coreToRbus e, [])
  | .unanswered e => (coreToRbus e, [])

/-- The contributions of several destinations; calls beyond the given fates are answered. -/
def contributions (w : World) (n : Name) : List Fate → List Comp → List (Nat × List Prop')
  | _, [] => []
  | fs, c :: cs => contribution (fs.headD .answered) (w.at' c) n :: contributions w n fs.tail cs

/-- The first error, if any, and the values before it. -/
def collect : List (Nat × List Prop') → Nat × List Prop'
  | [] => (0, [])
  | (c, vs) :: rest => if c = 0 then ((collect rest).1, vs ++ (collect rest).2) else (c, [])

/-- Names of events, which end with `!`, and of methods, which have brackets. -/
def EventOrMethod (n : Name) : Prop := n.getLast? = some 33 ∨ n.getLast? = some 41 ∨ 40 ∈ n

end Verif.Spec.GetExt
