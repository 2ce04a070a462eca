import Verif.Spec.RouterCall

/-! # Checking that histories are in order, for the examples -/

namespace Verif.Router

open Verif

/-- Enough for a message to be in order. -/
def cleanB (removal : Bool) (m : Message) : Bool :=
  decide (Fits m.hdr.topic) && decide (m.hdr.topic.getLast? ≠ some 46) &&
  (!m.hdr.request || (decide (Fits m.hdr.reply) && decide (m.hdr.reply.getLast? ≠ some 46) && decide (Elsewhere m.hdr.reply))) &&
  decide (m.hdr.topic ≠ wildcardTopic) &&
  match m.body with
  | .bad => decide (m.hdr.topic ≠ subscribeTopic) && decide (m.hdr.topic ≠ diagTopic)
  | .json f =>
    decide (CleanSubscribe removal f) && (decide (m.hdr.topic ≠ diagTopic) || hasCommand f) &&
    decide (f.topic ≠ some (some Routing.advisory)) &&
    f.items.all (fun x => match x with
      | some y => decide (Fits y) && decide (y.getLast? ≠ some 46)
      | none => true)

theorem cleanB_spec {removal : Bool} {m : Message} (h : cleanB removal m = true) :
    Clean removal m ∧ ∀ pre c, NewAdvisory pre c m := by
  unfold cleanB at h
  simp only [Bool.and_eq_true, decide_eq_true_eq] at h
  obtain ⟨⟨⟨⟨h1, h2⟩, h3⟩, h4⟩, h5⟩ := h
  have hr : m.hdr.request = true → Fits m.hdr.reply ∧ m.hdr.reply.getLast? ≠ some 46 ∧ Elsewhere m.hdr.reply := by
    intro hq
    rw [hq] at h3
    simp only [Bool.not_true, Bool.false_or, Bool.and_eq_true, decide_eq_true_eq] at h3
    exact ⟨h3.1.1, h3.1.2, h3.2⟩
  cases hb : m.body with
  | bad =>
    rw [hb] at h5
    simp only [Bool.and_eq_true, decide_eq_true_eq] at h5
    refine ⟨⟨⟨h1, h2⟩, hr, fun e => absurd e h4, ?_⟩, ?_⟩
    · rw [hb]; exact h5
    · intro pre c f hf
      rw [hb] at hf; cases hf
  | json f =>
    rw [hb] at h5
    simp only [Bool.and_eq_true, decide_eq_true_eq, Bool.or_eq_true] at h5
    obtain ⟨⟨⟨k1, k2⟩, k3⟩, k4⟩ := h5
    refine ⟨⟨⟨h1, h2⟩, hr, fun e => absurd e h4, ?_⟩, ?_⟩
    · rw [hb]
      refine ⟨fun _ => k1, ?_, ?_, fun e => absurd e h4⟩
      · intro e
        rcases k2 with k2 | k2
        · exact absurd e k2
        · exact k2
      · rintro - x hx y rfl
        rw [List.all_eq_true] at k4
        have := k4 _ hx
        simp only [Bool.and_eq_true, decide_eq_true_eq] at this
        exact ⟨this.1, Or.inl this.2⟩
    · intro pre c f' hf _ ht
      rw [hb] at hf
      cases hf
      exact absurd ht k3

/-- Enough for an event to be allowed. -/
def allowedB (removal : Bool) (pre : List Event) : Event → Bool
  | .connect c => decide (c ∉ online pre)
  | .message c m => decide (c ∈ online pre) && cleanB removal m
  | .disconnect c => decide (c ∈ online pre)

/-- Enough for a history to be in order. -/
def orderlyB (removal : Bool) (pre : List Event) : List Event → Bool
  | [] => true
  | e :: es => allowedB removal pre e && orderlyB removal (pre ++ [e]) es

theorem allowedB_spec {removal : Bool} {pre : List Event} {e : Event} (h : allowedB removal pre e = true) :
    Allowed removal pre e := by
  cases e with
  | connect c => simp only [allowedB, decide_eq_true_eq] at h; exact h
  | disconnect c => simp only [allowedB, decide_eq_true_eq] at h; exact h
  | message c m =>
    simp only [allowedB, Bool.and_eq_true, decide_eq_true_eq] at h
    obtain ⟨h1, h2⟩ := cleanB_spec h.2
    exact ⟨h.1, h1, h2 pre c⟩

theorem orderlyB_spec {removal : Bool} (es : List Event) : ∀ pre, orderlyB removal pre es = true →
    ∀ a e b, es = a ++ e :: b → Allowed removal (pre ++ a) e := by
  induction es with
  | nil => intro pre _ a e b h; cases a <;> cases h
  | cons x es ih =>
    intro pre h a e b hab
    simp only [orderlyB, Bool.and_eq_true] at h
    cases a with
    | nil =>
      cases hab
      simpa using allowedB_spec h.1
    | cons y a =>
      cases hab
      have := ih _ h.2 a e b rfl
      simpa using this

theorem orderly_of_check {removal : Bool} {es : List Event} (h : orderlyB removal [] es = true) :
    Orderly removal es := by
  intro a e b hab
  simpa using orderlyB_spec es [] h a e b hab

end Verif.Router
