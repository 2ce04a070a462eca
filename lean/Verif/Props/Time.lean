import Verif.Spec.Time

/-!
# C42: time arithmetic
-/

namespace Verif.Props

open Verif Verif.Time
open Verif.Spec.Time (Normal nanos)

private theorem toInt32_eq {n : Int} (h1 : -2 ^ 31 ≤ n) (h2 : n < 2 ^ 31) : toInt32 n = n := by
  rw [toInt32, BitVec.toInt_ofInt, Int.bmod_eq_of_le_mul_two] <;> omega

/-- **C42.** Adding milliseconds to a time gives the time that many milliseconds later, again
normalised. -/
theorem C42_later_exact (t : Time) (ht : Normal t) (ms : BitVec 32) :
    Normal (later t ms) ∧ nanos (later t ms) = nanos t + ms.toNat * 1000000 := by
  obtain ⟨h1, h2⟩ := ht
  unfold later
  simp only [Normal, nanos]
  split <;> constructor <;> simp only [] <;> omega

/-- **C42.** The elapsed time is the number of whole milliseconds between two times, rounded down, as
long as that fits an `int` (24 days). -/
theorem C42_elapsed_exact_partial (s e : Time) (hs : Normal s) (he : Normal e)
    (h1 : -2 ^ 31 ≤ (nanos e - nanos s) / 1000000) (h2 : (nanos e - nanos s) / 1000000 < 2 ^ 31) :
    elapsed s e = (nanos e - nanos s) / 1000000 := by
  obtain ⟨a1, a2⟩ := hs
  obtain ⟨b1, b2⟩ := he
  unfold elapsed
  simp only [nanos] at *
  split
  · rw [Int.tdiv_eq_ediv_of_nonneg (by omega), toInt32_eq] <;> omega
  · rw [Int.tdiv_eq_ediv_of_nonneg (by omega), toInt32_eq] <;> omega

/-- **C42.** Asking for the time elapsed until a time made `m` milliseconds later gives `m`, below
2^31. -/
theorem C42_later_elapsed_partial (t : Time) (ht : Normal t) (ms : BitVec 32) (h : ms.toNat < 2 ^ 31) :
    elapsed t (later t ms) = ms.toNat := by
  obtain ⟨hn, he⟩ := C42_later_exact t ht ms
  rw [C42_elapsed_exact_partial t _ ht hn] <;> omega

example : Normal ⟨5, 999999999⟩ ∧ (4294 : BitVec 32).toNat < 2 ^ 31 := by unfold Normal; decide

/-- **C42 fails** from 2^31 milliseconds on: the elapsed time is negative. -/
theorem C42_long_span_fails (t : Time) (ht : Normal t) (ms : BitVec 32) (h : 2 ^ 31 ≤ ms.toNat) :
    elapsed t (later t ms) = ms.toNat - 2 ^ 32 ∧ elapsed t (later t ms) < 0 := by
  have hms := ms.isLt
  obtain ⟨a1, a2⟩ := ht
  have key : ∀ n : Int, n = ms.toNat → toInt32 n = ms.toNat - 2 ^ 32 := by
    intro n hn
    subst hn
    rw [toInt32, BitVec.toInt_ofInt]
    simp only [Int.bmod]
    omega
  have : elapsed t (later t ms) = ms.toNat - 2 ^ 32 := by
    unfold elapsed later
    simp only []
    split <;> split <;> rename_i c1 c2 <;> simp only [] at c2 ⊢ <;>
      rw [Int.tdiv_eq_ediv_of_nonneg (by omega)] <;> apply key <;> omega
  rw [this]
  exact ⟨rfl, by omega⟩

example : 2 ^ 31 ≤ (2592000000 : BitVec 32).toNat := by decide

/-- **C42.** Comparing two times gives the sign of their distance: a total order that agrees with
elapsed time. -/
theorem C42_compare_is_order (a b : Time) (ha : Normal a) (hb : Normal b) :
    compare a b = (nanos a - nanos b).sign := by
  obtain ⟨a1, a2⟩ := ha
  obtain ⟨b1, b2⟩ := hb
  unfold Verif.Time.compare nanos
  split
  · rw [Int.sign_eq_neg_one_of_neg (by omega)]
  · split
    · rw [Int.sign_eq_one_of_pos (by omega)]
    · rw [show a.sec * 1000000000 + a.nsec - (b.sec * 1000000000 + b.nsec) = 0 by omega]
      rfl

/-- **C42.** A time made later never compares less. -/
theorem C42_later_not_before (t : Time) (ht : Normal t) (ms : BitVec 32) :
    Verif.Time.compare t (later t ms) ≤ 0 ∧
    (Verif.Time.compare t (later t ms) = 0 ↔ ms = 0) := by
  obtain ⟨hn, he⟩ := C42_later_exact t ht ms
  rw [C42_compare_is_order t _ ht hn, he]
  have hz : ms = 0 ↔ ms.toNat = 0 := by
    constructor
    · intro h; subst h; rfl
    · intro h; exact BitVec.eq_of_toNat_eq (by simpa using h)
  constructor
  · apply Int.sign_nonpos_iff.mpr; omega
  · rw [hz, Int.sign_eq_zero_iff_zero]; omega

example : Normal ⟨7, 1⟩ ∧ Normal ⟨6, 999999999⟩ := by unfold Normal; decide

end Verif.Props
