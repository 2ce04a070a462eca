import Verif.Proof.Compare

/-!
# C08: comparing values

`compare sc a b` is the sign of the result for two different value handles; comparing a handle
with itself returns 0 at once.
-/

namespace Verif.Props

open Verif Verif.Value

/-- C08 (order laws). On values that are neither NaN nor NULL, comparison is defined except on
the overrun pair (bytes, the second a proper prefix of the first), and it is a total preorder:
reflexive, the two directions give opposite signs, and "not greater" is transitive.
Partial because of the overrun pair and NaN, on which the claim is false (see `..._fails`). -/
theorem C08_total_preorder_partial (sc : Bool) :
    (∀ a b, Ordinary a → Ordinary b → (Value.compare sc a b = .ub ↔ Overrun a b)) ∧
    (∀ a, Ordinary a → Value.compare sc a a = .ok .eq) ∧
    (∀ a b, Ordinary a → Ordinary b → ¬ Overrun a b → ¬ Overrun b a →
      ∃ o, Value.compare sc a b = .ok o ∧ Value.compare sc b a = .ok o.swap) ∧
    (∀ a b c o₁ o₂, Ordinary a → Ordinary b → Ordinary c →
      Value.compare sc a b = .ok o₁ → o₁ ≠ .gt → Value.compare sc b c = .ok o₂ → o₂ ≠ .gt →
      ∃ o₃, Value.compare sc a c = .ok o₃ ∧ o₃ ≠ .gt) := by
  have notOver : ∀ a b o, Ordinary a → Ordinary b → Value.compare sc a b = .ok o →
      ¬ (cls sc a).overrun (cls sc b) := by
    intro a b o ha hb h hov
    rw [compare_cls, (cmpCls_ub (ordinary_cls ha) (ordinary_cls hb)).2 hov] at h
    cases h
  refine ⟨?_, ?_, ?_, ?_⟩
  · intro a b ha hb
    rw [compare_cls, cmpCls_ub (ordinary_cls ha) (ordinary_cls hb), overrun_cls]
  · intro a ha
    have hno : ¬ (cls sc a).overrun (cls sc a) := by
      cases hc : cls sc a with
      | byt s => cases s <;> simp [Cls.overrun]
      | _ => simp [Cls.overrun]
    rw [compare_cls, cmpCls_ref (ordinary_cls ha) (ordinary_cls ha) hno]
    have hok := ordinary_cls (sc := sc) ha
    cases hc : cls sc a with
    | num d => rw [hc] at hok; exact congrArg _ (cmpDbl_self hok)
    | str s => exact congrArg _ (strcmp_self _)
    | byt s => exact congrArg _ (strcmp_self _)
    | dt => rfl
    | nil => rfl
  · intro a b ha hb h1 h2
    rw [overrun_cls (sc := sc)] at h1 h2
    refine ⟨refCls (cls sc a) (cls sc b), ?_, ?_⟩
    · rw [compare_cls, cmpCls_ref (ordinary_cls ha) (ordinary_cls hb) h1]
    · rw [compare_cls, cmpCls_ref (ordinary_cls hb) (ordinary_cls ha) h2,
        refCls_swap (ordinary_cls ha) (ordinary_cls hb)]
  · intro a b c o₁ o₂ ha hb hc h1 n1 h2 n2
    have v1 := notOver a b o₁ ha hb h1
    have v2 := notOver b c o₂ hb hc h2
    rw [compare_cls, cmpCls_ref (ordinary_cls ha) (ordinary_cls hb) v1] at h1
    rw [compare_cls, cmpCls_ref (ordinary_cls hb) (ordinary_cls hc) v2] at h2
    simp only [Res.ok.injEq] at h1 h2
    subst h1 h2
    have h3 := refCls_trans n1 n2
    have v3 : ¬ (cls sc a).overrun (cls sc c) := fun h => h3 (refCls_overrun h)
    exact ⟨_, by rw [compare_cls, cmpCls_ref (ordinary_cls ha) (ordinary_cls hc) v3], h3⟩

example : Value.compare true (.int8 0xff) (.uint16 3) = .ok .lt ∧
    Value.compare true (.uint16 3) (.string (some [65])) = .ok .lt ∧
    Value.compare true (.bytes (some [1, 2])) (.bytes (some [1, 2, 0])) = .ok .lt := by decide +kernel

/-- C08 (numbers). Comparing numeric values of any two types never contradicts the exact order of
the numbers: if the first is exactly at most the second, the result is not "greater"; rounding to
double can only make different numbers compare equal. -/
theorem C08_numeric_order (sc : Bool) (a b : Scalar) (x y : Dbl) (hx : exactNum sc a = some x)
    (hy : exactNum sc b = some y) (hle : numLe x y) :
    ∃ o, Value.compare sc a b = .ok o ∧ o ≠ .gt := by
  have key : ∀ da db, toDbl sc a = some da → toDbl sc b = some db → Dbl.le da db →
      ∃ o, Value.compare sc a b = .ok o ∧ o ≠ .gt := by
    intro da db ha hb h
    refine ⟨cmpDbl da db, ?_, cmpDbl_le.2 h⟩
    exact compare_num ha hb
  rcases toDbl_exact hx with ⟨ha, hr⟩ | ⟨n, rfl, ha⟩ <;>
  rcases toDbl_exact hy with ⟨hb, hs⟩ | ⟨m, rfl, hb⟩
  · refine key _ _ ha hb ?_
    cases x <;> cases y <;> simp_all [numLe, Dbl.le]
  · refine key _ _ ha hb ?_
    cases x <;> simp_all [numLe, Dbl.le]
    exact rep_le_rint hr hle
  · refine key _ _ ha hb ?_
    cases y <;> simp_all [numLe, Dbl.le]
    exact rint_le_rep hs hle
  · refine key _ _ ha hb ?_
    simp only [numLe, Dbl.le] at *
    exact Int.mul_le_mul_of_nonneg_right (rint_mono (Int.le_of_mul_le_mul_right hle scale_pos))
      (Int.le_of_lt scale_pos)

/-- C08 (integers). Integers below 2^53 in absolute value, of any two integer types, compare exactly
as the mathematical integers do. -/
theorem C08_small_integers_exact (sc : Bool) (a b : Scalar) (n m : Int) (ha : intNum sc a = some n)
    (hb : intNum sc b = some m) (hn : n.natAbs < 2 ^ 53) (hm : m.natAbs < 2 ^ 53) :
    Value.compare sc a b = .ok (if n < m then .lt else if n = m then .eq else .gt) := by
  have conv : ∀ v k, intNum sc v = some k → toDbl sc v = some (.fin (rint k * scale)) := by
    intro v k h
    cases v <;> simp only [intNum, Option.some.injEq, reduceCtorEq] at h <;> subst h <;> rfl
  have h1 := conv a n ha
  have h2 := conv b m hb
  rw [rint_small hn] at h1
  rw [rint_small hm] at h2
  rw [compare_num h1 h2]
  simp only [cmpDbl, Res.ok.injEq]
  have hS := scale_pos
  by_cases h : n = m
  · subst h; simp
  · have hne : n * (scale : Int) ≠ m * scale := by
      intro he
      exact h (Int.eq_of_mul_eq_mul_right (by omega) he)
    rw [if_neg hne]
    by_cases hlt : n < m
    · rw [if_pos hlt, if_pos (Int.mul_lt_mul_of_pos_right hlt hS)]
    · rw [if_neg hlt, if_neg h, if_neg]
      intro hc
      exact hlt (Int.lt_of_mul_lt_mul_right hc (Int.le_of_lt hS))

example : intNum true (.int64 (-5)) = some (-5) ∧ intNum true (.boolean true) = some 1 := by decide

/-- C08 (strings and bytes). Two strings, or two byte strings, compare equal only when they are
equal. -/
theorem C08_text_equal_iff (sc : Bool) (s t : Bytes) :
    (Value.compare sc (.string (some s)) (.string (some t)) = .ok .eq ↔ s = t) ∧
    (Value.compare sc (.bytes (some s)) (.bytes (some t)) = .ok .eq ↔ s = t) := by
  refine ⟨⟨?_, ?_⟩, ⟨?_, ?_⟩⟩
  · intro h
    rw [compare_cls] at h
    simp only [cls, toDbl, cmpCls, Res.ok.injEq] at h
    exact strcmp_eq h
  · rintro rfl
    rw [compare_cls]
    simp [cls, toDbl, cmpCls, strcmp_self]
  · intro h
    rw [compare_cls] at h
    simp only [cls, toDbl, cmpCls] at h
    by_cases hp : t <+: s ∧ t ≠ s
    · rw [bytescmp_ub hp] at h; cases h
    · rw [bytescmp_eq hp] at h
      simp only [Res.ok.injEq] at h
      exact strcmp_eq h
  · rintro rfl
    rw [compare_cls]
    simp only [cls, toDbl, cmpCls]
    rw [bytescmp_eq (by simp), strcmp_self]

/-- C08 fails for date-times: any two compare equal. -/
theorem C08_datetime_fails (sc : Bool) (d e : DateTime) :
    Value.compare sc (.datetime d) (.datetime e) = .ok .eq := by
  rw [compare_cls]
  simp only [cls, toDbl, cmpCls]

/-- C08 fails for large integers: two different 64-bit integers compare equal. -/
theorem C08_large_integers_fails :
    ∃ n m : BitVec 64, n ≠ m ∧ Value.compare true (.int64 n) (.int64 m) = .ok .eq :=
  ⟨2 ^ 53, 2 ^ 53 + 1, by decide, by decide +kernel⟩

/-- C08 fails for NaN: each of two NaN values is greater than the other. -/
theorem C08_nan_fails :
    ∃ v : Scalar, Value.compare true v v = .ok .gt :=
  ⟨.double 0x7ff8000000000000, by decide +kernel⟩

/-- C08 fails for byte strings of different length: the comparison reads bytes the second value
does not have. -/
theorem C08_bytes_overrun_fails :
    ∃ s t : Bytes, Value.compare true (.bytes (some s)) (.bytes (some t)) = .ub :=
  ⟨[1, 2], [1], by decide +kernel⟩

end Verif.Props
