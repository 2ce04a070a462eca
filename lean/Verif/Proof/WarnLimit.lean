import Verif.Spec.WarnLimit
import Verif.Props.Time

/-!
# Lemmas for C114
-/

namespace Verif.WarnLimit

open Verif
open Verif.Spec.Time (Normal nanos)

theorem last_true (h : History) (e : Bytes × Time.Time) : lastWarning (h ++ [(e, true)]) = some e := by
  simp [lastWarning]

theorem last_false (h : History) (e : Bytes × Time.Time) : lastWarning (h ++ [(e, false)]) = lastWarning h := by
  simp [lastWarning]

/-- What is kept is the last warning. -/
theorem kept {h : History} {s : State} (hx : Exec step init h s) (ho : ∀ x ∈ h, Ordinary x.1) :
    (h = [] ∧ s = init) ∨ (lastWarning h = some (s.name, s.time) ∧ s.name ≠ [] ∧ s.name.length ≤ 126 ∧
      ∃ x ∈ h, x.1.2 = s.time) := by
  induction hx with
  | nil => exact .inl ⟨rfl, rfl⟩
  | @snoc h s e o s' hx hs ih =>
    obtain ⟨e1, e2, e3⟩ := ho (e, o) (by simp)
    simp only at e1 e2 e3
    have ih := ih fun x hm => ho x (List.mem_append_left _ hm)
    refine .inr ?_
    simp only [step] at hs
    split at hs
    · rename_i heq
      rcases ih with ⟨rfl, rfl⟩ | ⟨i1, i2, i3, x, i4, i5⟩
      · rw [List.take_of_length_le (l := e.1) (by omega)] at heq
        exact absurd heq.symm (by simpa [init] using e1)
      · rw [List.take_of_length_le (by omega), List.take_of_length_le (by omega)] at heq
        split at hs
        · cases hs
          refine ⟨?_, i2, i3, (e, true), by simp, rfl⟩
          rw [last_true, heq]
        · cases hs
          refine ⟨by rw [last_false]; exact i1, i2, i3, x, by simp [i4], i5⟩
    · cases hs
      have ht : e.1.take 126 = e.1 := List.take_of_length_le e2
      refine ⟨by rw [last_true, ht], by rw [ht]; exact e1, by rw [ht]; exact e2, (e, true), by simp, rfl⟩

theorem elapsed_minute {s t : Time.Time} (hs : Normal s) (ht : Normal t) (hn : Near s t) :
    Time.elapsed s t ≥ 60000 ↔ ¬ nanos t - nanos s < 60 * 1000000000 := by
  obtain ⟨n1, n2⟩ := hn
  rw [Props.C42_elapsed_exact_partial s t hs ht (by omega) (by omega)]
  omega

theorem short {h : History} {s : State} (hx : Exec step init h s) : s.name.length ≤ 126 := by
  induction hx with
  | nil => simp [init]
  | @snoc h s e o s' hx hs ih =>
    simp only [step] at hs
    split at hs
    · split at hs <;> cases hs <;> exact ih
    · cases hs
      simp only [List.length_take]
      omega

end Verif.WarnLimit
