import Verif.Model.Base

/-!
# Executions, built up one step at a time
-/

namespace Verif

variable {S E O : Type}

/-- `h` is a history of steps leading from `s₀` to `s`. -/
inductive Exec (step : S → E → Res (S × O)) (s₀ : S) : List (E × O) → S → Prop where
  | nil : Exec step s₀ [] s₀
  | snoc {h s e o s'} : Exec step s₀ h s → step s e = .ok (s', o) → Exec step s₀ (h ++ [(e, o)]) s'

theorem res_bind_ok {α β : Type} {x : Res α} {f : α → Res β} {b : β} (h : (x >>= f) = .ok b) :
    ∃ a, x = .ok a ∧ f a = .ok b := by
  cases x with
  | ok a => exact ⟨a, rfl, h⟩
  | fail => cases h
  | ub => cases h

theorem Exec.extend {step : S → E → Res (S × O)} {s₀ : S} {h s} (hx : Exec step s₀ h s)
    {run : S → List E → Res (S × List O)}
    (hnil : ∀ s, run s [] = .ok (s, []))
    (hcons : ∀ s e es, run s (e :: es) = (do
      let (s1, o) ← step s e
      let (s2, os) ← run s1 es
      pure (s2, o :: os))) :
    ∀ (es : List E) s' os, run s es = .ok (s', os) →
      es.length = os.length ∧ Exec step s₀ (h ++ es.zip os) s' := by
  intro es
  induction es generalizing h s with
  | nil =>
    intro s' os hr
    rw [hnil] at hr
    cases hr
    simpa using hx
  | cons e es ih =>
    intro s' os hr
    rw [hcons] at hr
    obtain ⟨⟨s1, o⟩, h1, hr⟩ := res_bind_ok hr
    obtain ⟨⟨s2, os'⟩, h2, hr⟩ := res_bind_ok hr
    cases hr
    have := ih (.snoc hx h1) _ _ h2
    refine ⟨by simp [this.1], ?_⟩
    simpa using this.2

/-- An execution that ends in undefined behaviour has a last history and an undefined step. -/
theorem Exec.undefined {step : S → E → Res (S × O)} {s₀ : S} {h s} (hx : Exec step s₀ h s)
    {run : S → List E → Res (S × List O)}
    (hnil : ∀ s, run s [] = .ok (s, []))
    (hcons : ∀ s e es, run s (e :: es) = (do
      let (s1, o) ← step s e
      let (s2, os) ← run s1 es
      pure (s2, o :: os))) :
    ∀ es : List E, run s es = .ub → ∃ h' s' e, e ∈ es ∧ Exec step s₀ h' s' ∧ step s' e = .ub := by
  intro es
  induction es generalizing h s with
  | nil => intro hr; rw [hnil] at hr; cases hr
  | cons e es ih =>
    intro hr
    rw [hcons] at hr
    cases hs : step s e with
    | fail => rw [hs] at hr; cases hr
    | ub => exact ⟨h, s, e, by simp, hx, hs⟩
    | ok x =>
      obtain ⟨s1, o⟩ := x
      rw [hs] at hr
      cases hr1 : run s1 es with
      | ok y => simp only [Res.ok_bind, hr1] at hr; cases hr
      | fail => simp only [Res.ok_bind, hr1] at hr; cases hr
      | ub =>
        obtain ⟨h', s', e', he, h1, h2⟩ := ih (.snoc hx hs) hr1
        exact ⟨h', s', e', List.mem_cons_of_mem _ he, h1, h2⟩

/-- Every prefix of a history is a history. -/
theorem Exec.prefix {step : S → E → Res (S × O)} {s₀ : S} {h s} (hx : Exec step s₀ h s) :
    ∀ a b, h = a ++ b → ∃ s', Exec step s₀ a s' := by
  induction hx with
  | nil =>
    intro a b hab
    obtain ⟨rfl, rfl⟩ := List.append_eq_nil_iff.mp hab.symm
    exact ⟨s₀, .nil⟩
  | @snoc h s e o s' hx hs ih =>
    intro a b hab
    rcases List.eq_nil_or_concat b with rfl | ⟨b', x, rfl⟩
    · rw [List.append_nil] at hab
      subst hab
      exact ⟨s', .snoc hx hs⟩
    · rw [List.concat_eq_append, ← List.append_assoc] at hab
      exact ih a b' (List.append_inj_left' hab rfl)

/-- The step at any place of a history. -/
theorem Exec.at {step : S → E → Res (S × O)} {s₀ : S} {h s} (hx : Exec step s₀ h s) :
    ∀ a e o b, h = a ++ (e, o) :: b → ∃ s1 s2, Exec step s₀ a s1 ∧ step s1 e = .ok (s2, o) := by
  intro a e o b hab
  obtain ⟨s', hx'⟩ := hx.prefix (a ++ [(e, o)]) b (by simp [hab])
  generalize hg : a ++ [(e, o)] = g at hx'
  cases hx' with
  | nil => simp at hg
  | snoc hx' hs =>
    have h1 := List.append_inj_left' hg rfl
    have h2 := List.append_inj_right' hg rfl
    subst h1
    cases h2
    exact ⟨_, _, hx', hs⟩

end Verif
