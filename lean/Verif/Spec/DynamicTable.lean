import Verif.Model.DynamicTable

/-!
# What tables kept up to date by handlers are to look like

Which elements there are depends on what was registered and on the provider's data, and on nothing else.
-/

namespace Verif.Spec.DynamicTable

open Verif Verif.DynamicTable

/-- The element of a name, from the elements registered below `pre` and the data: a name inside a table goes on with a
row of the data and then with the row's template. -/
def lookup (data : Path → List Nat) : Path → List Node → Path → Option Kind
  | _, _, [] => some .object
  | pre, reg, tok :: rest =>
    match reg.find? (fun n => n.tok == tok), rest with
    | none, _ => none
    | some (.leaf _), rest => if rest.isEmpty then some .leaf else none
    | some (.object _ cs), rest => lookup data (pre ++ [tok]) cs rest
    | some (.table _ _ _ _), [] => some .table
    | some (.table _ _ tm _), .row r :: rest =>
      if r ∈ data (pre ++ [tok]) then lookup data (pre ++ [tok, .row r]) tm rest else none
    | some (.table _ _ _ _), .word _ :: _ => none

/-- What was registered: words, each once among its siblings, every table with a handler, and no rows yet. -/
inductive Registered : List Node → Prop
  | mk (ns : List Node)
    (distinct : (ns.map Node.tok).Nodup)
    (words : ∀ n ∈ ns, ∃ b, n.tok = .word b)
    (objects : ∀ tok cs, .object tok cs ∈ ns → Registered cs)
    (handlers : ∀ tok h tm rs, .table tok h tm rs ∈ ns → h = true ∧ rs = [])
    (templates : ∀ tok h tm rs, .table tok h tm rs ∈ ns → Registered tm) : Registered ns

/-- The levels asked for: all up to `depth`, or only the one `-depth` below. -/
def InDepth (depth : Int) (below : Nat) : Prop :=
  (0 ≤ depth ∧ below ≤ depth.natAbs) ∨ (depth < 0 ∧ below = depth.natAbs)

end Verif.Spec.DynamicTable
