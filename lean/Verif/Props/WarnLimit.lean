import Verif.Proof.WarnLimit

/-!
# C114: warnings about names registered twice
-/

namespace Verif.Props

open Verif Verif.WarnLimit
open Verif.Spec.Time (Normal nanos)

private def wlName (s : String) : Bytes := s.toUTF8.data.toList

/-- Which of some registrations are warned of. -/
private def warned (es : List (Bytes × Time.Time)) : Res (List Bool) := do
  let (_, os) ← WarnLimit.run WarnLimit.init es
  pure os

/-- C114. In every history of refused registrations, the next one is warned of, unless the last warning was about
the same name and less than a minute ago.

Partial: for names of at most 126 characters (`C114_long_fails`), all within 24 days (`C114_days_fails`). -/
theorem C114_warning_partial {h : WarnLimit.History} {s : WarnLimit.State}
    (hx : Exec WarnLimit.step WarnLimit.init h s) (ho : ∀ x ∈ h, Ordinary x.1) {e : Bytes × Time.Time}
    (he : Ordinary e) (hn : ∀ x ∈ h, Near x.1.2 e.2) :
    ∃ s' o, WarnLimit.step s e = .ok (s', o) ∧
      (o = false ↔ ∃ t, lastWarning h = some (e.1, t) ∧ nanos e.2 - nanos t < 60 * 1000000000) := by
  obtain ⟨e1, e2, e3⟩ := he
  rcases kept hx ho with ⟨rfl, rfl⟩ | ⟨i1, i2, i3, x, i4, i5⟩
  · refine ⟨⟨e.1.take 126, e.2⟩, true, ?_, by simp [lastWarning]⟩
    have : ¬ (WarnLimit.init.name.take 128 = e.1.take 128) := by
      rw [List.take_of_length_le (l := e.1) (by omega)]
      simpa [WarnLimit.init] using fun h => e1 h
    simp only [WarnLimit.step, this, if_false]
  · have hm := elapsed_minute (s := s.time) (i5 ▸ (ho x i4).2.2) e3 (i5 ▸ hn x i4)
    have t1 : s.name.take 128 = s.name := List.take_of_length_le (by omega)
    have t2 : e.1.take 128 = e.1 := List.take_of_length_le (by omega)
    by_cases heq : s.name = e.1
    · by_cases hel : Time.elapsed s.time e.2 ≥ 60000
      · refine ⟨{ s with time := e.2 }, true, by simp only [WarnLimit.step, t2, heq, if_true, hel], ?_⟩
        simp only [Bool.true_eq_false, false_iff]
        rintro ⟨t, h1, h2⟩
        rw [i1, Option.some.injEq, Prod.mk.injEq] at h1
        rw [← h1.2] at h2
        exact hm.mp hel h2
      · refine ⟨s, false, by simp only [WarnLimit.step, t2, heq, if_true, hel, if_false], ?_⟩
        simp only [true_iff]
        exact ⟨s.time, by rw [i1, heq], Classical.not_not.mp fun h => hel (hm.mpr h)⟩
    · refine ⟨⟨e.1.take 126, e.2⟩, true, by simp only [WarnLimit.step, t1, t2, heq, if_false], ?_⟩
      simp only [Bool.true_eq_false, false_iff]
      rintro ⟨t, h1, -⟩
      rw [i1, Option.some.injEq, Prod.mk.injEq] at h1
      exact heq h1.1

example : warned [(wlName "A.b", ⟨10, 0⟩), (wlName "A.b", ⟨69, 999999999⟩), (wlName "A.b", ⟨70, 0⟩),
    (wlName "A.c", ⟨71, 0⟩)] = .ok [true, false, true, true] := by decide +kernel

/-- C114 (failure). Names of 127 characters are warned of every time, since one character is lost of what is
kept. -/
theorem C114_long_fails {h : WarnLimit.History} {s : WarnLimit.State}
    (hx : Exec WarnLimit.step WarnLimit.init h s) {e : Bytes × Time.Time} (he : e.1.length = 127) :
    ∃ s', WarnLimit.step s e = .ok (s', true) := by
  have hs := short hx
  have : ¬ (s.name.take 128 = e.1.take 128) := by
    intro h
    have := congrArg List.length h
    simp only [List.length_take] at this
    omega
  exact ⟨⟨e.1.take 126, e.2⟩, by simp only [WarnLimit.step, this, if_false]⟩

example : warned (List.replicate 3 (List.replicate 127 65, ⟨10, 0⟩)) = .ok [true, true, true] := by decide +kernel

/-- C114 (failure). Two names in turn are warned of every time. -/
theorem C114_turns_fails : warned [(wlName "A.b", ⟨10, 0⟩), (wlName "A.c", ⟨10, 0⟩), (wlName "A.b", ⟨10, 0⟩),
    (wlName "A.c", ⟨10, 0⟩)] = .ok [true, true, true, true] := by decide +kernel

/-- C114 (failure). When the last warning was 25 days ago, the next is left out, because the time between is
negative as an `int`. -/
theorem C114_days_fails : warned [(wlName "A.b", ⟨10, 0⟩), (wlName "A.b", ⟨10 + 25 * 86400, 0⟩)] =
    .ok [true, false] := by decide +kernel

end Verif.Props
