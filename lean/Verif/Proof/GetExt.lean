import Verif.Spec.GetExt

/-!
# Proofs about getting one query from several providers
-/

namespace Verif.GetExtProof

open Verif Verif.Params Verif.GetExt
open Verif.Spec.GetExt (contribution contributions collect)

theorem handle_wild {p : Provider} {n : Name} (h : isWildcard n = true) :
    handleGet p [n] = (p, ⟨(p.wild n).1, if (p.wild n).1 = 0 then (p.wild n).2 else []⟩) := by
  simp only [handleGet, getLoop, h, if_true, reduceCtorEq, if_false]
  rfl

theorem put_self (w : World) (c : Comp) : w.put c (w.at' c) = w := by
  unfold World.put
  cases w with
  | mk a r f ans =>
    simp only [World.mk.injEq, and_true]
    funext d
    by_cases h : d = c
    · simp [h]
    · simp [h]

/-- What a request brings: an error or values. -/
theorem invoke_wild {w : World} {c : Comp} {n : Name} (h : isWildcard n = true) :
    ∃ w', w'.at' = w.at' ∧ w'.fates = w.fates.tail ∧ w'.routes = w.routes ∧
      ((∃ e, invoke w c (fun p => handleGet p [n]) (·.code) = (w', .inl e) ∧
        contribution (w.fates.headD .answered) (w.at' c) n = (coreToRbus e, [])) ∨
      (∃ r, invoke w c (fun p => handleGet p [n]) (·.code) = (w', .inr r) ∧
        contribution (w.fates.headD .answered) (w.at' c) n =
          if isSuccess r.code then (0, r.props) else (readCode r.code, []))) := by
  have hput : ∀ w' : World, w'.at' = w.at' → w'.put c (w.at' c) = w' := by
    intro w' h'
    rw [← h']
    exact put_self w' c
  simp only [invoke, World.fate, handle_wild h]
  cases hf : w.fates.headD .answered with
  | answered =>
    simp only
    rw [hput { w with fates := w.fates.tail } rfl]
    refine ⟨_, ?_, ?_, ?_, .inr ⟨_, rfl, ?_⟩⟩
    · rfl
    · rfl
    · rfl
    simp only [contribution, readCode, isSuccess]
    by_cases h0 : ((w.at' c).wild n).1 = 0
    · simp [h0, eSuccess]
    · by_cases h1 : ((w.at' c).wild n).1 = 100
      · simp [h1, eSuccess, legacySuccess]
      · simp [h0, h1, eSuccess, legacySuccess]
  | lost e =>
    simp only
    refine ⟨_, ?_, ?_, ?_, .inl ⟨e, rfl, rfl⟩⟩ <;> rfl
  | unanswered e =>
    simp only
    rw [hput { w with fates := w.fates.tail } rfl]
    refine ⟨_, ?_, ?_, ?_, .inl ⟨e, rfl, rfl⟩⟩ <;> rfl

theorem ccsp_zero {e : Nat} (h : ccspToRbus e = 0) : e = 100 := by
  unfold ccspToRbus at h
  simp only [eSuccess, eOutOfResources, eTimeout, eDestinationNotFound, eNamespace, eParameterType, eParameterValue,
    eNotWritable, eBusError] at h
  repeat' split at h
  all_goals first | assumption | simp at h

theorem read_zero {c : Nat} : readCode c = 0 ↔ isSuccess c = true := by
  unfold readCode
  constructor
  · intro h
    split at h
    next h' => exact h'
    next h' =>
      split at h
      next h2 => have := ccsp_zero h; simp [this, isSuccess, legacySuccess] at h'
      next => simp [isSuccess, h, eSuccess] at h'
  · intro h; simp [h, eSuccess]

theorem core_ne (e : CoreErr) : coreToRbus e ≠ 0 := by cases e <;> decide

theorem contributions_congr {w w' : World} (h : w'.at' = w.at') (n : Name) : ∀ (cs : List Comp) (fs : List Fate),
    contributions w' n fs cs = contributions w n fs cs := by
  intro cs
  induction cs with
  | nil => intro fs; rfl
  | cons c cs ih => intro fs; simp only [contributions, h, ih]

/-- After the first values. -/
theorem loop_rest {n : Name} (h : isWildcard n = true) : ∀ (cs : List Comp) (num : Nat) (old : List Prop') (w : World),
    (wildLoop n cs false true num (.list old) w).2 =
      .ok ⟨(collect (contributions w n w.fates cs)).1, some (num + (collect (contributions w n w.fates cs)).2.length),
        .list (old ++ (collect (contributions w n w.fates cs)).2)⟩ := by
  intro cs
  induction cs with
  | nil => intro num old w; simp [wildLoop, contributions, collect, eSuccess]
  | cons c cs ih =>
    intro num old w
    obtain ⟨w', ha, hf, _, hc⟩ := invoke_wild (w := w) (c := c) h
    rcases hc with ⟨e, hi, hc⟩ | ⟨r, hi, hc⟩
    · simp only [wildLoop, hi, contributions, hc, collect, if_neg (core_ne e)]
      simp
    · by_cases hs : isSuccess r.code = true
      · rw [if_pos hs] at hc
        have ih := fun num old => ih num old w'
        simp only [contributions_congr ha, hf] at ih
        simp only [wildLoop, hi, if_pos hs, Bool.false_eq_true, if_false, contributions, hc, collect, if_true]
        by_cases hp : r.props = []
        · simp only [takeNext, if_pos hp, Bool.true_or, ih]
          simp [hp]
        · simp only [takeNext, if_neg hp, if_true, Bool.true_or, ih]
          simp [Nat.add_assoc]
      · rw [if_neg hs] at hc
        have hne : readCode r.code ≠ 0 := fun h0 => hs (read_zero.mp h0)
        simp only [wildLoop, hi, if_neg hs, contributions, hc, collect, if_neg hne]
        simp

/-- While there are no values. -/
theorem loop_empty {n : Name} (h : isWildcard n = true) : ∀ (cs : List Comp) (first : Bool) (num : Nat) (w : World),
    (∀ x ∈ contributions w n w.fates cs, x.2 = []) →
    (wildLoop n cs first false num .before w).2 = .ok ⟨(collect (contributions w n w.fates cs)).1, some num, .before⟩ := by
  intro cs
  induction cs with
  | nil => intro first num w _; simp [wildLoop, contributions, collect, eSuccess]
  | cons c cs ih =>
    intro first num w he
    obtain ⟨w', ha, hf, _, hc⟩ := invoke_wild (w := w) (c := c) h
    simp only [contributions, List.mem_cons, forall_eq_or_imp] at he
    rcases hc with ⟨e, hi, hc⟩ | ⟨r, hi, hc⟩
    · simp only [wildLoop, hi, contributions, hc, collect, if_neg (core_ne e)]
    · by_cases hs : isSuccess r.code = true
      · rw [if_pos hs] at hc
        have hp : r.props = [] := by have := he.1; rw [hc] at this; exact this
        have ih := fun first num => ih first num w'
        simp only [contributions_congr ha, hf] at ih
        have ih := fun first num => ih first num he.2
        have hx : (decide (r.props ≠ []) : Bool) = false := by simp [hp]
        cases first
        · simp only [wildLoop, hi, if_pos hs, Bool.false_eq_true, if_false, contributions, hc, collect, if_true, takeNext, if_pos hp,
            hx, Bool.or_self, ih]
          simp [hp]
        · simp only [wildLoop, hi, if_pos hs, contributions, hc, collect, if_true, takeFirst, if_pos hp,
            hx, ih]
          simp [hp]
      · rw [if_neg hs] at hc
        have hne : readCode r.code ≠ 0 := fun h0 => hs (read_zero.mp h0)
        simp only [wildLoop, hi, if_neg hs, contributions, hc, collect, if_neg hne]

end Verif.GetExtProof
