import Verif.Spec.Routing

/-! # Checking the conditions on names for the examples -/

namespace Verif.Routing

open Verif Verif.Spec.Routing

/-- Two names agree about where there are tables. -/
def checkConv : Name → Name → Bool
  | x :: a, y :: b => (y ≠ rows || x = rows) && (x ≠ y || checkConv a b)
  | _, _ => true

theorem checkConv_spec {π : Name} {t : Bytes} {r r' : Name}
    (h : checkConv (π ++ t :: r) (π ++ rows :: r') = true) : t = rows := by
  induction π with
  | nil =>
    simp only [List.nil_append, checkConv, Bool.and_eq_true] at h
    simpa using h.1
  | cons x π ih =>
    simp only [List.cons_append, checkConv, Bool.and_eq_true] at h
    exact ih (by simpa using h.2)

instance (n : Name) : Decidable (Proper n) := inferInstanceAs (Decidable (_ ∧ _ ∧ _ ∧ _))

theorem conventional_of_check {P : List Name}
    (h1 : ∀ n ∈ P, Proper n ∧ ∀ t ∈ n, t.head? = some 123 → t = rows)
    (h2 : ∀ a ∈ P, ∀ b ∈ P, checkConv a b = true) : Conventional P :=
  ⟨h1, fun _ _ _ _ ha hb => checkConv_spec (h2 _ ha _ hb)⟩

/-- A name asked for has rows where a registered name has. -/
def checkAsk : Name → Name → Bool
  | r :: n, t :: q =>
    (r ≠ rows || t = rows || rowLike t) && (t.head? ≠ some 123 || t = r) &&
      (!(t = r ∨ (r = rows ∧ rowLike t = true)) || checkAsk n q)
  | _, _ => true

theorem checkAsk_spec {π : Name} {r : Bytes} {rest a : Name} {t : Bytes} {b : Name}
    (h : checkAsk (π ++ r :: rest) (a ++ t :: b) = true) (hc : covers π a = true) :
    (r = rows → t = rows ∨ rowLike t = true) ∧ (t.head? = some 123 → t = r) := by
  induction π generalizing a with
  | nil =>
    cases a with
    | cons y a => simp [covers] at hc
    | nil =>
      simp only [List.nil_append, checkAsk, Bool.and_eq_true, Bool.or_eq_true, decide_eq_true_eq] at h
      obtain ⟨⟨h1, h2⟩, -⟩ := h
      constructor
      · intro hr
        rcases h1 with (h1 | h1) | h1
        · exact absurd hr h1
        · exact Or.inl h1
        · exact Or.inr h1
      · intro ht
        rcases h2 with h2 | h2
        · exact absurd ht h2
        · exact h2
  | cons x π ih =>
    cases a with
    | nil => simp [covers] at hc
    | cons y a =>
      simp only [covers, Bool.and_eq_true, decide_eq_true_eq] at hc
      simp only [List.cons_append, checkAsk, Bool.and_eq_true, Bool.or_eq_true] at h
      rcases h.2 with h' | h'
      · simp only [Bool.not_eq_true', decide_eq_false_iff_not] at h'
        exact absurd hc.1 h'
      · exact ih h' hc.2

theorem askable_of_check {P : List Name} {q : Name} (h1 : Proper q)
    (h2 : ∀ n ∈ P, checkAsk n q = true)
    (h3 : ∀ n ∈ P, ∀ m ∈ P, covers n q = true → (n ++ [rows]).isPrefixOf m = false) : Askable P q := by
  refine ⟨h1, ?_, ?_⟩
  · rintro π r rest a t b hm rfl hc
    exact checkAsk_spec (h2 _ hm) hc
  · intro n hn hc rest hm
    have := h3 n hn _ hm hc
    have hp : (n ++ [rows]) <+: (n ++ rows :: rest) := ⟨rest, by simp⟩
    rw [← List.isPrefixOf_iff_prefix] at hp
    rw [hp] at this
    cases this

/-- All registrations are exclusive and of ordinary names. -/
def allExclusive (ops : List Op) : Bool :=
  ops.all (fun o => match o with
    | .register n _ x => x && n ≠ advisoryName
    | _ => true)

theorem noRepeats_of_check {ops : List Op} (h : allExclusive ops = true) : NoRepeats ops := by
  intro pre n w x post e hx
  exfalso
  unfold allExclusive at h
  rw [List.all_eq_true] at h
  have := h (.register n w x) (by rw [e]; simp)
  simp only [Bool.and_eq_true, decide_eq_true_eq] at this
  rcases hx with hx | hx
  · rw [hx] at this; cases this.1
  · exact this.2 hx

end Verif.Routing
