import Verif.Model.Filter
import Verif.Spec.Value
import Verif.Spec.Compare

/-!
# Specification for filters
-/

namespace Verif.Filter

open Verif Verif.Value

/-- Filters whose stored form is faithful: built of relations with an encodable value and of
binary logic operators with both operands (operator numbers fit 32 bits). NOT, which has only a left
operand, is excluded. -/
def Storable : Filter → Prop
  | .null => False
  | .relation op v => op < 2 ^ 32 ∧ Encodable v
  | .logic op l r => op < 2 ^ 32 ∧ op ≠ opNOT ∧ Storable l ∧ Storable r

/-- The value encoded last. -/
def lastValue : Filter → Scalar
  | .null => .none
  | .relation _ v => v
  | .logic _ _ r => lastValue r

/-- Filter expressions as a user writes them. -/
inductive Expr where
  | gt (v : Scalar) | ge (v : Scalar) | lt (v : Scalar) | le (v : Scalar) | eq (v : Scalar)
  | ne (v : Scalar)
  | and (l r : Expr) | or (l r : Expr) | not (e : Expr)

/-- Building the expression with `rbusFilter_InitRelation` and `rbusFilter_InitLogic`. -/
def Expr.build : Expr → Filter
  | .gt v => .relation opGT v
  | .ge v => .relation opGE v
  | .lt v => .relation opLT v
  | .le v => .relation opLE v
  | .eq v => .relation opEQ v
  | .ne v => .relation opNE v
  | .and l r => .logic opAND l.build r.build
  | .or l r => .logic opOR l.build r.build
  | .not e => .logic opNOT e.build .null

/-- Meaning of the expression when the tested value compares to a bound as `cmp bound` says. -/
def Expr.Holds (cmp : Scalar → Ordering) : Expr → Prop
  | .gt v => cmp v = .gt
  | .ge v => cmp v = .gt ∨ cmp v = .eq
  | .lt v => cmp v = .lt
  | .le v => cmp v = .lt ∨ cmp v = .eq
  | .eq v => cmp v = .eq
  | .ne v => cmp v = .lt ∨ cmp v = .gt
  | .and l r => l.Holds cmp ∧ r.Holds cmp
  | .or l r => l.Holds cmp ∨ r.Holds cmp
  | .not e => ¬ e.Holds cmp

/-- The bounds occurring in an expression. -/
def Expr.bounds : Expr → List Scalar
  | .gt v | .ge v | .lt v | .le v | .eq v | .ne v => [v]
  | .and l r | .or l r => l.bounds ++ r.bounds
  | .not e => e.bounds

/-- Two filters are the same up to values that compare equal. -/
inductive Same (sc : Bool) : Filter → Filter → Prop
  | null : Same sc .null .null
  | relation {op v w} : compare sc v w = .ok .eq → Same sc (.relation op v) (.relation op w)
  | logic {op l₁ l₂ r₁ r₂} : Same sc l₁ l₂ → Same sc r₁ r₂ →
      Same sc (.logic op l₁ r₁) (.logic op l₂ r₂)

end Verif.Filter
