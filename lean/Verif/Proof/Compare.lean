import Verif.Model.Compare
import Verif.Spec.Compare

namespace Verif.Value

open Verif

/-! ## Rounding to 53 bits -/

theorem log2_bounds {n : Nat} (h : 2 ^ 53 ≤ n) :
    53 ≤ n.log2 ∧ 2 ^ (n.log2 - 52 + 52) ≤ n ∧ n < 2 ^ (n.log2 - 52 + 53) := by
  have hn : n ≠ 0 := by intro h0; subst h0; simp at h
  have h1 : 53 ≤ n.log2 := (Nat.le_log2 hn).2 h
  refine ⟨h1, ?_, ?_⟩
  · rw [show n.log2 - 52 + 52 = n.log2 by omega]; exact Nat.log2_self_le hn
  · rw [show n.log2 - 52 + 53 = n.log2 + 1 by omega]; exact Nat.lt_log2_self

theorem round53_small {n : Nat} (h : n < 2 ^ 53) : round53 n = n := by
  simp only [round53, if_pos h]

theorem round53_bounds {n : Nat} (h : 2 ^ 53 ≤ n) :
    2 ^ (n.log2 - 52 + 52) ≤ round53 n ∧ round53 n ≤ 2 ^ (n.log2 - 52 + 53) := by
  obtain ⟨_, h2, h3⟩ := log2_bounds h
  simp only [round53, if_neg (Nat.not_lt.2 h)]
  generalize n.log2 - 52 = s at *
  have hp : 0 < 2 ^ s := Nat.two_pow_pos s
  have hq1 : 2 ^ 52 ≤ n / 2 ^ s := by
    rw [Nat.le_div_iff_mul_le hp, ← Nat.pow_add, Nat.add_comm]; exact h2
  have hq2 : n / 2 ^ s < 2 ^ 53 := by
    rw [Nat.div_lt_iff_lt_mul hp, ← Nat.pow_add, Nat.add_comm]; exact h3
  have e1 : (2 : Nat) ^ (s + 52) = 2 ^ 52 * 2 ^ s := by rw [Nat.pow_add, Nat.mul_comm]
  have e2 : (2 : Nat) ^ (s + 53) = 2 ^ 53 * 2 ^ s := by rw [Nat.pow_add, Nat.mul_comm]
  rw [e1, e2]
  constructor
  · apply Nat.mul_le_mul_right
    split <;> omega
  · apply Nat.mul_le_mul_right
    split <;> omega

theorem round53_mono {a b : Nat} (h : a ≤ b) : round53 a ≤ round53 b := by
  by_cases hb : b < 2 ^ 53
  · rw [round53_small hb, round53_small (by omega)]; exact h
  have hb' := Nat.not_lt.1 hb
  by_cases ha : a < 2 ^ 53
  · rw [round53_small ha]
    have := (round53_bounds hb').1
    have h2 : 2 ^ 53 ≤ 2 ^ (b.log2 - 52 + 52) := Nat.pow_le_pow_right (by decide) (by
      have := (log2_bounds hb').1; omega)
    omega
  have ha' := Nat.not_lt.1 ha
  have hab : a.log2 ≤ b.log2 := by
    rw [Nat.le_log2 (by intro h0; subst h0; simp at hb')]
    exact Nat.le_trans (Nat.log2_self_le (by intro h0; subst h0; simp at ha')) h
  by_cases hs : a.log2 - 52 = b.log2 - 52
  · simp only [round53, if_neg ha, if_neg hb]
    rw [hs]
    generalize b.log2 - 52 = s
    apply Nat.mul_le_mul_right
    have hp : 0 < 2 ^ s := Nat.two_pow_pos s
    have hq : a / 2 ^ s ≤ b / 2 ^ s := Nat.div_le_div_right h
    have da := Nat.div_add_mod a (2 ^ s)
    have db := Nat.div_add_mod b (2 ^ s)
    generalize a / 2 ^ s = qa at *
    generalize b / 2 ^ s = qb at *
    generalize a % 2 ^ s = ra at *
    generalize b % 2 ^ s = rb at *
    generalize 2 ^ s = p at *
    by_cases hqq : qa = qb
    · subst hqq
      have : ra ≤ rb := by omega
      split <;> split <;> omega
    · split <;> split <;> omega
  · have h1 := (round53_bounds ha').2
    have h2 := (round53_bounds hb').1
    have h3 : 2 ^ (a.log2 - 52 + 53) ≤ 2 ^ (b.log2 - 52 + 52) :=
      Nat.pow_le_pow_right (by decide) (by omega)
    omega

/-- Numbers with at most 53 significant bits are unchanged. -/
theorem round53_rep {m k : Nat} (hm : m < 2 ^ 53) : round53 (m * 2 ^ k) = m * 2 ^ k := by
  by_cases hlt : m * 2 ^ k < 2 ^ 53
  · exact round53_small hlt
  have hge := Nat.not_lt.1 hlt
  have hm0 : m ≠ 0 := by intro h0; subst h0; simp at hge
  simp only [round53, if_neg hlt]
  have hlog : (m * 2 ^ k).log2 - 52 ≤ k := by
    have hl : (m * 2 ^ k).log2 < 53 + k := by
      rw [Nat.log2_lt (by omega), Nat.pow_add]
      exact Nat.mul_lt_mul_of_pos_right hm (Nat.two_pow_pos k)
    omega
  generalize (m * 2 ^ k).log2 - 52 = s at *
  obtain ⟨d, rfl⟩ := Nat.exists_eq_add_of_le hlog
  have e : m * 2 ^ (s + d) = 2 ^ s * (m * 2 ^ d) := by
    rw [Nat.pow_add]; ac_rfl
  have hp : 0 < 2 ^ s := Nat.two_pow_pos s
  rw [e, Nat.mul_mod_right, Nat.mul_div_cancel_left _ hp]
  rw [if_neg (by omega)]
  ac_rfl

/-- Signed rounding. -/
def rint (n : Int) : Int := if n < 0 then - (round53 n.natAbs : Int) else round53 n.natAbs

theorem rint_mono {a b : Int} (h : a ≤ b) : rint a ≤ rint b := by
  unfold rint
  by_cases ha : a < 0 <;> by_cases hb : b < 0
  · rw [if_pos ha, if_pos hb]
    have := round53_mono (a := b.natAbs) (b := a.natAbs) (by omega)
    omega
  · rw [if_pos ha, if_neg hb]; omega
  · omega
  · rw [if_neg ha, if_neg hb]
    have := round53_mono (a := a.natAbs) (b := b.natAbs) (by omega)
    omega

theorem rint_small {a : Int} (h : a.natAbs < 2 ^ 53) : rint a = a := by
  unfold rint
  rw [round53_small h]
  split <;> omega

theorem rint_big {a : Int} (h : 2 ^ 53 ≤ a) : 2 ^ 53 ≤ rint a := by
  have := rint_mono h
  have e : rint (2 ^ 53) = 2 ^ 53 := by decide
  omega

theorem rint_neg (a : Int) : rint (-a) = - rint a := by
  unfold rint
  rw [Int.natAbs_neg]
  by_cases h0 : a = 0
  · subst h0; decide
  by_cases ha : a < 0
  · rw [if_pos ha, if_neg (by omega)]; omega
  · rw [if_neg ha, if_pos (by omega)]

/-- Finite doubles, scaled: at most 53 significant bits. -/
def Rep (x : Int) : Prop := ∃ m k : Nat, m < 2 ^ 53 ∧ x.natAbs = m * 2 ^ k

theorem Rep.neg {x : Int} (h : Rep x) : Rep (-x) := by
  obtain ⟨m, k, h1, h2⟩ := h
  exact ⟨m, k, h1, by rw [Int.natAbs_neg]; exact h2⟩

theorem rint_rep {N : Int} (h : Rep N) : rint N = N := by
  obtain ⟨m, k, hm, hk⟩ := h
  unfold rint
  rw [hk, round53_rep hm, ← hk]
  split <;> omega

theorem scale_eq : scale = 2 ^ 1074 := by unfold scale; rfl

theorem scale_pos : (0 : Int) < scale := by
  unfold scale
  exact_mod_cast Nat.two_pow_pos 1074

theorem natAbs_mul_scale {x : Int} {z : Nat} (e : x.natAbs = z * scale) :
    ∃ N : Int, x = N * scale ∧ N.natAbs = z := by
  rcases Int.natAbs_eq x with hx | hx
  · exact ⟨z, by rw [hx, e]; push_cast; rfl, by simp⟩
  · exact ⟨-z, by rw [hx, e]; push_cast; rw [Int.neg_mul], by simp⟩

/-- Rounding is monotone against representable numbers (in units of 2^-1074). -/
theorem rint_le_rep {n x : Int} (hx : Rep x) (h : n * scale ≤ x) : rint n * scale ≤ x := by
  have hP := scale_pos
  by_cases hs : n.natAbs < 2 ^ 53
  · rw [rint_small hs]; exact h
  obtain ⟨m, k, hm, hk⟩ := hx
  by_cases hk' : 1074 ≤ k
  · obtain ⟨d, rfl⟩ := Nat.exists_eq_add_of_le hk'
    -- x = N * scale with N representable
    have e : x.natAbs = (m * 2 ^ d) * scale := by rw [hk, Nat.pow_add, ← scale_eq]; ac_rfl
    obtain ⟨N, rfl, hN⟩ := natAbs_mul_scale e
    have hR : Rep N := ⟨m, d, hm, hN⟩
    have h' : n ≤ N := Int.le_of_mul_le_mul_right h hP
    have := rint_mono h'
    rw [rint_rep hR] at this
    exact Int.mul_le_mul_of_nonneg_right this (Int.le_of_lt hP)
  · have hlt : x.natAbs < 2 ^ 53 * scale := by
      rw [hk]
      unfold scale
      exact Nat.mul_lt_mul_of_lt_of_le hm (Nat.pow_le_pow_right (by decide) (by omega)) (Nat.two_pow_pos _)
    generalize scale = S at *
    by_cases hn : n < 0
    · have hb : 2 ^ 53 ≤ -n := by omega
      have h1 := rint_big hb
      rw [rint_neg] at h1
      have h2 : rint n ≤ - 2 ^ 53 := by omega
      have h3 := Int.mul_le_mul_of_nonneg_right h2 (Int.le_of_lt hP)
      omega
    · have hb : 2 ^ 53 ≤ n := by omega
      have h3 := Int.mul_le_mul_of_nonneg_right hb (Int.le_of_lt hP)
      omega

theorem rep_le_rint {n x : Int} (hx : Rep x) (h : x ≤ n * scale) : x ≤ rint n * scale := by
  have := rint_le_rep (n := -n) hx.neg (by rw [Int.neg_mul]; omega)
  rw [rint_neg, Int.neg_mul] at this
  omega

/-! ## Values as exact numbers -/

theorem ofInt_eq (n : Int) : Dbl.ofInt n = .fin (rint n * scale) := rfl

theorem ofBits_rep {b : BitVec 64} {n : Int} (h : Dbl.ofBits b = .fin n) : Rep n := by
  simp only [Dbl.ofBits] at h
  have hfrac : b.toNat % 2 ^ 52 < 2 ^ 52 := Nat.mod_lt _ (Nat.two_pow_pos _)
  generalize b.toNat % 2 ^ 52 = frac at *
  generalize b.toNat / 2 ^ 52 % 2 ^ 11 = exp at *
  generalize decide (b.toNat / 2 ^ 63 = 1) = neg at *
  split at h
  · split at h
    · cases h
    · split at h <;> cases h
  · simp only [Dbl.fin.injEq] at h
    subst h
    by_cases he : exp = 0
    · refine ⟨frac, 0, by omega, ?_⟩
      rw [if_pos he]
      cases neg <;> simp
    · refine ⟨2 ^ 52 + frac, exp - 1, by omega, ?_⟩
      rw [if_neg he]
      generalize (2 ^ 52 + frac) * 2 ^ (exp - 1) = z
      cases neg <;> simp

theorem ofSingle_rep {b : BitVec 32} {n : Int} (h : Dbl.ofSingle b = .fin n) : Rep n := by
  simp only [Dbl.ofSingle] at h
  have hfrac : b.toNat % 2 ^ 23 < 2 ^ 23 := Nat.mod_lt _ (Nat.two_pow_pos _)
  generalize b.toNat % 2 ^ 23 = frac at *
  generalize b.toNat / 2 ^ 23 % 2 ^ 8 = exp at *
  generalize decide (b.toNat / 2 ^ 31 = 1) = neg at *
  split at h
  · split at h
    · cases h
    · split at h <;> cases h
  · simp only [Dbl.fin.injEq] at h
    subst h
    by_cases he : exp = 0
    · refine ⟨frac, 925, by omega, ?_⟩
      rw [if_pos he]
      generalize frac * 2 ^ 925 = z
      cases neg <;> simp
    · refine ⟨2 ^ 23 + frac, exp + 924, by omega, ?_⟩
      rw [if_neg he]
      generalize (2 ^ 23 + frac) * 2 ^ (exp + 924) = z
      cases neg <;> simp

/-- Either the coerced double is the exact value, or the value is an integer that was rounded. -/
theorem toDbl_exact {sc : Bool} {v : Scalar} {e : Dbl} (h : exactNum sc v = some e) :
    (toDbl sc v = some e ∧ ∀ n, e = .fin n → Rep n) ∨
    (∃ n, e = .fin (n * scale) ∧ toDbl sc v = some (.fin (rint n * scale))) := by
  cases v
  case single b =>
    left
    simp only [exactNum, Option.some.injEq] at h
    subst h
    exact ⟨rfl, fun n hn => ofSingle_rep hn⟩
  case double b =>
    left
    simp only [exactNum, Option.some.injEq] at h
    subst h
    exact ⟨rfl, fun n hn => ofBits_rep hn⟩
  all_goals
    simp only [exactNum, intNum, Option.map_some, Option.map_none, Option.some.injEq, reduceCtorEq] at h
  all_goals
    subst h
    right
    exact ⟨_, rfl, rfl⟩

theorem exactNum_isSome (sc : Bool) (v : Scalar) : (exactNum sc v).isSome = (toDbl sc v).isSome := by
  cases v <;> rfl

/-! ## Order laws of the pieces -/

theorem cmpDbl_swap {a b : Dbl} (ha : a ≠ .nan) (hb : b ≠ .nan) : cmpDbl b a = (cmpDbl a b).swap := by
  cases a <;> cases b <;> simp_all [cmpDbl]
  rename_i x y
  by_cases h : x = y
  · simp [h]
  · rw [if_neg h, if_neg (fun e => h e.symm)]
    by_cases h2 : x < y
    · rw [if_pos h2, if_neg (by omega)]; rfl
    · rw [if_neg h2, if_pos (by omega)]; rfl

theorem cmpDbl_self {a : Dbl} (ha : a ≠ .nan) : cmpDbl a a = .eq := by
  cases a <;> simp_all [cmpDbl]

/-- Position of a double in the order. -/
def Dbl.le : Dbl → Dbl → Prop
  | .fin a, .fin b => a ≤ b
  | .ninf, .fin _ => True
  | .ninf, .ninf => True
  | .ninf, .pinf => True
  | .fin _, .pinf => True
  | .pinf, .pinf => True
  | _, _ => False

theorem cmpDbl_le {a b : Dbl} : cmpDbl a b ≠ .gt ↔ Dbl.le a b := by
  cases a <;> cases b <;> simp [cmpDbl, Dbl.le]
  rename_i x y
  by_cases h : x = y
  · simp [h]
  · rw [if_neg h]
    by_cases h2 : x < y
    · rw [if_pos h2]; simp; omega
    · rw [if_neg h2]; simp; omega

theorem Dbl.le_trans {a b c : Dbl} (h1 : Dbl.le a b) (h2 : Dbl.le b c) : Dbl.le a c := by
  cases a <;> cases b <;> cases c <;> simp_all [Dbl.le]
  omega

theorem strcmp_self (s : Bytes) : strcmp s s = .eq := by
  induction s with
  | nil => rfl
  | cons a s ih => simp [strcmp, ih]

theorem strcmp_eq {s t : Bytes} (h : strcmp s t = .eq) : s = t := by
  induction s generalizing t with
  | nil => cases t <;> simp_all [strcmp]
  | cons a s ih =>
    cases t with
    | nil => simp [strcmp] at h
    | cons b t =>
      simp only [strcmp] at h
      split at h
      · cases h
      · split at h
        · cases h
        · rw [ih h]
          congr 1
          rw [UInt8.lt_iff_toNat_lt] at *
          apply UInt8.toNat_inj.1
          omega

theorem strcmp_swap (s t : Bytes) : strcmp t s = (strcmp s t).swap := by
  induction s generalizing t with
  | nil => cases t <;> rfl
  | cons a s ih =>
    cases t with
    | nil => rfl
    | cons b t =>
      simp only [strcmp]
      by_cases h1 : a < b
      · have h2 : ¬ b < a := by rw [UInt8.lt_iff_toNat_lt] at *; omega
        simp [h1, h2]
      · by_cases h2 : b < a
        · simp [h1, h2]
        · simp [h1, h2, ih]

theorem strcmp_trans {s t u : Bytes} (h1 : strcmp s t ≠ .gt) (h2 : strcmp t u ≠ .gt) :
    strcmp s u ≠ .gt := by
  induction s generalizing t u with
  | nil => cases u <;> simp [strcmp]
  | cons a s ih =>
    cases t with
    | nil => simp [strcmp] at h1
    | cons b t =>
      cases u with
      | nil => simp [strcmp] at h2
      | cons c u =>
        simp only [strcmp] at *
        simp only [UInt8.lt_iff_toNat_lt] at *
        by_cases hac : a.toNat < c.toNat
        · simp [hac]
        · rw [if_neg hac]
          by_cases hab : a.toNat < b.toNat
          · rw [if_neg (by omega), if_pos (by omega)] at h2
            exact absurd rfl h2
          · rw [if_neg hab] at h1
            by_cases hba : b.toNat < a.toNat
            · simp [hba] at h1
            · rw [if_neg hba] at h1
              have e : a.toNat = b.toNat := by omega
              rw [if_neg (by omega)] at h2
              by_cases hcb : c.toNat < b.toNat
              · simp [hcb] at h2
              · rw [if_neg hcb] at h2
                rw [if_neg (by omega)]
                exact ih h1 h2

/-- On byte strings the code computes `strcmp` unless the second is a proper prefix of the first. -/
theorem bytescmp_eq {s t : Bytes} (h : ¬ (t <+: s ∧ t ≠ s)) : bytescmp s t = .ok (strcmp s t) := by
  induction s generalizing t with
  | nil => cases t <;> rfl
  | cons a s ih =>
    cases t with
    | nil => exact absurd ⟨List.nil_prefix, by simp⟩ h
    | cons b t =>
      simp only [bytescmp, strcmp]
      split
      · rfl
      · split
        · rfl
        · apply ih
          rintro ⟨hp, hne⟩
          apply h
          rename_i h1 h2
          have : a = b := by
            rw [UInt8.lt_iff_toNat_lt] at *
            apply UInt8.toNat_inj.1
            omega
          subst this
          exact ⟨by simpa using hp, by simpa using hne⟩

theorem bytescmp_ub {s t : Bytes} (h : t <+: s ∧ t ≠ s) : bytescmp s t = .ub := by
  induction s generalizing t with
  | nil => simp at h
  | cons a s ih =>
    cases t with
    | nil => rfl
    | cons b t =>
      obtain ⟨h1, h2⟩ := h
      rw [List.cons_prefix_cons] at h1
      obtain ⟨rfl, h1⟩ := h1
      simp only [bytescmp]
      rw [if_neg (by rw [UInt8.lt_iff_toNat_lt]; omega), if_neg (by rw [UInt8.lt_iff_toNat_lt]; omega)]
      exact ih ⟨h1, by simpa using h2⟩

end Verif.Value

namespace Verif.Value

open Verif

/-! ## Values grouped by how they compare -/

inductive Cls where
  | num (d : Dbl)
  | dt
  | str (s : Option Bytes)
  | byt (s : Option Bytes)
  | nil

def cls (sc : Bool) (v : Scalar) : Cls :=
  match toDbl sc v, v with
  | some d, _ => .num d
  | Option.none, .string s => .str s
  | Option.none, .bytes s => .byt s
  | Option.none, .datetime _ => .dt
  | Option.none, _ => .nil

def cmpCls : Cls → Cls → Res Ordering
  | .num a, .num b => .ok (cmpDbl a b)
  | .num _, _ => .ok .lt
  | _, .num _ => .ok .gt
  | .dt, .dt => .ok .eq
  | .dt, _ => .ok .lt
  | _, .dt => .ok .gt
  | .str (some s), .str (some t) => .ok (strcmp s t)
  | .str _, .str _ => .ub
  | .str _, _ => .ok .lt
  | _, .str _ => .ok .gt
  | .byt (some s), .byt (some t) => bytescmp s t
  | .byt _, .byt _ => .ub
  | .byt _, _ => .ok .lt
  | _, .byt _ => .ok .gt
  | .nil, .nil => .ok .eq

theorem toDbl_code (sc : Bool) (v : Scalar) :
    ((toDbl sc v).isSome = true ∧ v.ty.code < 0x50d) ∨
    (toDbl sc v = none ∧ ((∃ t, v = .datetime t) ∨ (∃ s, v = .string s) ∨ (∃ s, v = .bytes s) ∨ v = .none)) := by
  cases v <;> simp [toDbl, Scalar.ty, Ty.code]

theorem compare_cls (sc : Bool) (a b : Scalar) : compare sc a b = cmpCls (cls sc a) (cls sc b) := by
  cases a <;> cases b <;> first | rfl | (rename_i s t; cases s <;> cases t <;> rfl)

theorem compare_num {sc : Bool} {a b : Scalar} {x y : Dbl} (ha : toDbl sc a = some x)
    (hb : toDbl sc b = some y) : compare sc a b = .ok (cmpDbl x y) := by
  have h : ∀ {v d}, toDbl sc v = some d → cls sc v = .num d := by
    intro v d h
    unfold cls
    rw [h]
  rw [compare_cls, h ha, h hb]
  rfl

/-- Class-level version of `Ordinary`. -/
def Cls.ok : Cls → Prop
  | .num d => d ≠ .nan
  | .str s => s ≠ none
  | .byt s => s ≠ none
  | _ => True

theorem ofInt_ne_nan (n : Int) : Dbl.ofInt n ≠ .nan := by simp [Dbl.ofInt]

theorem ordinary_cls {sc : Bool} {v : Scalar} (h : Ordinary v) : (cls sc v).ok := by
  cases v <;> simp [cls, toDbl, Cls.ok, ofInt_ne_nan, Ordinary] at * <;> exact h

def Cls.overrun : Cls → Cls → Prop
  | .byt (some s), .byt (some t) => t <+: s ∧ t ≠ s
  | _, _ => False

theorem overrun_cls {sc : Bool} {a b : Scalar} : Overrun a b ↔ (cls sc a).overrun (cls sc b) := by
  rcases toDbl_code sc a with ⟨ha, _⟩ | ⟨ha, hca⟩
  · obtain ⟨da, ha⟩ := Option.isSome_iff_exists.1 ha
    cases a <;> simp [toDbl] at ha <;> simp [Overrun, Cls.overrun, cls, toDbl]
  · rcases toDbl_code sc b with ⟨hb, _⟩ | ⟨hb, hcb⟩
    · obtain ⟨db, hb⟩ := Option.isSome_iff_exists.1 hb
      cases b <;> simp [toDbl] at hb <;>
        (rcases hca with ⟨t, rfl⟩ | ⟨t, rfl⟩ | ⟨t, rfl⟩ | rfl <;> simp [Overrun, Cls.overrun, cls, toDbl])
    · rcases hca with ⟨t, rfl⟩ | ⟨t, rfl⟩ | ⟨t, rfl⟩ | rfl <;>
      rcases hcb with ⟨u, rfl⟩ | ⟨u, rfl⟩ | ⟨u, rfl⟩ | rfl <;>
      simp [Overrun, Cls.overrun, cls, toDbl]
      cases t <;> cases u <;> simp

theorem cmpCls_ub {a b : Cls} (ha : a.ok) (hb : b.ok) : cmpCls a b = .ub ↔ a.overrun b := by
  cases a with
  | num d => cases b <;> simp [cmpCls, Cls.overrun]
  | dt => cases b <;> simp [cmpCls, Cls.overrun]
  | nil => cases b <;> simp [cmpCls, Cls.overrun]
  | str s =>
    cases s with
    | none => simp [Cls.ok] at ha
    | some s =>
      cases b with
      | str t => cases t <;> simp_all [cmpCls, Cls.overrun, Cls.ok]
      | _ => simp [cmpCls, Cls.overrun]
  | byt s =>
    cases s with
    | none => simp [Cls.ok] at ha
    | some s =>
      cases b with
      | byt t =>
        cases t with
        | none => simp [Cls.ok] at hb
        | some t =>
          simp only [cmpCls, Cls.overrun]
          constructor
          · intro h
            by_cases hp : t <+: s ∧ t ≠ s
            · exact hp
            · rw [bytescmp_eq hp] at h; cases h
          · exact bytescmp_ub
      | _ => simp [cmpCls, Cls.overrun]

/-- The order the comparison computes when it does not overrun. -/
def refCls : Cls → Cls → Ordering
  | .num a, .num b => cmpDbl a b
  | .num _, _ => .lt
  | _, .num _ => .gt
  | .dt, .dt => .eq
  | .dt, _ => .lt
  | _, .dt => .gt
  | .str s, .str t => strcmp (s.getD []) (t.getD [])
  | .str _, _ => .lt
  | _, .str _ => .gt
  | .byt s, .byt t => strcmp (s.getD []) (t.getD [])
  | .byt _, _ => .lt
  | _, .byt _ => .gt
  | .nil, .nil => .eq

theorem cmpCls_ref {a b : Cls} (ha : a.ok) (hb : b.ok) (h : ¬ a.overrun b) :
    cmpCls a b = .ok (refCls a b) := by
  cases a with
  | num d => cases b <;> simp [cmpCls, refCls]
  | dt => cases b <;> simp [cmpCls, refCls]
  | nil => cases b <;> simp [cmpCls, refCls]
  | str s =>
    cases s with
    | none => simp [Cls.ok] at ha
    | some s =>
      cases b with
      | str t => cases t <;> simp_all [cmpCls, refCls, Cls.ok]
      | _ => simp [cmpCls, refCls]
  | byt s =>
    cases s with
    | none => simp [Cls.ok] at ha
    | some s =>
      cases b with
      | byt t =>
        cases t with
        | none => simp [Cls.ok] at hb
        | some t => exact bytescmp_eq h
      | _ => simp [cmpCls, refCls]

theorem refCls_swap {a b : Cls} (ha : a.ok) (hb : b.ok) : refCls b a = (refCls a b).swap := by
  cases a <;> cases b <;> simp only [refCls, Ordering.swap_lt, Ordering.swap_gt, Ordering.swap_eq]
  · exact cmpDbl_swap ha hb
  · exact strcmp_swap _ _
  · exact strcmp_swap _ _

theorem refCls_trans {a b c : Cls} (h1 : refCls a b ≠ .gt) (h2 : refCls b c ≠ .gt) :
    refCls a c ≠ .gt := by
  cases a <;> cases b <;> cases c <;>
    simp only [refCls, ne_eq, reduceCtorEq, not_false_eq_true, not_true_eq_false] at *
  · exact cmpDbl_le.2 (Dbl.le_trans (cmpDbl_le.1 h1) (cmpDbl_le.1 h2))
  · exact strcmp_trans h1 h2
  · exact strcmp_trans h1 h2

theorem strcmp_prefix {s t : Bytes} (h : t <+: s ∧ t ≠ s) : strcmp s t = .gt := by
  induction s generalizing t with
  | nil => simp at h
  | cons a s ih =>
    cases t with
    | nil => rfl
    | cons b t =>
      obtain ⟨h1, h2⟩ := h
      rw [List.cons_prefix_cons] at h1
      obtain ⟨rfl, h1⟩ := h1
      simp only [strcmp]
      rw [if_neg (by rw [UInt8.lt_iff_toNat_lt]; omega), if_neg (by rw [UInt8.lt_iff_toNat_lt]; omega)]
      exact ih ⟨h1, by simpa using h2⟩

theorem refCls_overrun {a b : Cls} (h : a.overrun b) : refCls a b = .gt := by
  unfold Cls.overrun at h
  split at h
  · exact strcmp_prefix h
  · exact h.elim

end Verif.Value
