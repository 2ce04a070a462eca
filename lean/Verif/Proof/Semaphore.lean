import Verif.Spec.Semaphore
import Verif.Proof.Exec

/-!
# Proofs: a semaphore
-/

namespace Verif.Spec.Semaphore

open Verif Verif.Semaphore

theorem posts_snoc (h : History) (x) : posts (h ++ [x]) = posts h + if isPost x then 1 else 0 := by
  simp [posts, List.countP_append, List.countP_cons]

theorem passes_snoc (h : History) (x) : passes (h ++ [x]) = passes h + if isPass x then 1 else 0 := by
  simp [passes, List.countP_append, List.countP_cons]

structure Inv (h : History) (s : State) : Prop where
  count : posts h ≤ passes h + s.value
  wake : s.waiting ≠ [] → s.value ≤ s.woken.length + s.posting

theorem erase_len {l : List Nat} {i : Nat} (h : i ∈ l) : (l.erase i).length + 1 = l.length := by
  have := List.length_erase_of_mem h
  have := List.length_pos_of_mem h
  omega

theorem step_inv {h : History} {s s' : State} {e : Op} {o : Out} (i : Inv h s) (hs : step s e = .ok (s', o)) :
    Inv (h ++ [(e, o)]) s' := by
  have c := i.count
  have w := i.wake
  cases e with
  | wait j =>
    simp only [step] at hs
    split at hs
    · cases hs
    · split at hs
      · cases hs
      · split at hs
        · cases hs
          refine ⟨?_, fun hw => ?_⟩
          · rw [posts_snoc, passes_snoc]; simp [isPost, isPass]; omega
          · have := w hw
            simp only []
            omega
        · rename_i hv
          cases hs
          refine ⟨?_, fun _ => ?_⟩
          · rw [posts_snoc, passes_snoc]; simp [isPost, isPass]; omega
          · simp only []; omega
  | post =>
    simp only [step] at hs
    split at hs
    · cases hs
    · cases hs
      refine ⟨?_, fun hw => ?_⟩
      · rw [posts_snoc, passes_snoc]; simp [isPost, isPass]; omega
      · have := w hw
        simp only []
        omega
  | signal x =>
    simp only [step] at hs
    split at hs
    · cases hs
    · split at hs
      · cases hs
      · cases x with
        | some j =>
          simp only [] at hs
          split at hs
          · rename_i hj
            cases hs
            refine ⟨?_, fun _ => ?_⟩
            · rw [posts_snoc, passes_snoc]; simp [isPost, isPass]; omega
            · have := w (List.ne_nil_of_mem hj)
              simp only [List.length_cons]
              omega
          · cases hs
        | none =>
          simp only [] at hs
          split at hs
          · rename_i hw
            cases hs
            refine ⟨?_, fun hne => absurd hw hne⟩
            rw [posts_snoc, passes_snoc]; simp [isPost, isPass]; omega
          · cases hs
  | spurious j =>
    simp only [step] at hs
    split at hs
    · rename_i hj
      cases hs
      refine ⟨?_, fun _ => ?_⟩
      · rw [posts_snoc, passes_snoc]; simp [isPost, isPass]; omega
      · have := w (List.ne_nil_of_mem hj)
        simp only [List.length_cons]
        omega
    · cases hs
  | expire j =>
    simp only [step] at hs
    split at hs
    · rename_i hj
      cases hs
      refine ⟨?_, fun _ => ?_⟩
      · rw [posts_snoc, passes_snoc]; simp [isPost, isPass]; omega
      · exact w (List.ne_nil_of_mem hj)
    · cases hs
  | resume j =>
    simp only [step] at hs
    split at hs
    · rename_i hj
      split at hs
      · cases hs
      · cases hs
        have hl := erase_len hj
        refine ⟨?_, fun hw => ?_⟩
        · rw [posts_snoc, passes_snoc]; simp [isPost, isPass]; split <;> omega
        · have := w hw
          simp only []
          split <;> omega
    · split at hs
      · split at hs
        · cases hs
        · cases hs
          refine ⟨?_, w⟩
          rw [posts_snoc, passes_snoc]; simp [isPost, isPass]; omega
      · cases hs
  | destroy =>
    simp only [step] at hs
    split at hs
    · cases hs
    · cases hs
      refine ⟨?_, w⟩
      rw [posts_snoc, passes_snoc]; simp [isPost, isPass]; omega

theorem exec_inv {h : History} {s : State} (hx : Exec step .init h s) : Inv h s := by
  induction hx with
  | nil => exact ⟨Nat.le_refl _, fun h => absurd rfl h⟩
  | snoc _ hs ih => exact step_inv ih hs

/-! ## Orderly -/

structure Ord (h : History) (s : State) : Prop where
  count : posts h = passes h + s.value
  woken : s.woken.length + s.posting ≤ s.value

theorem orderly_ok {s : State} {e : Op} {r} (h : orderlyStep s e = .ok r) : step s e = .ok r := by
  cases e <;> simp only [orderlyStep] at h
  case spurious => cases h
  case signal => exact h
  all_goals
    split at h
    · cases h
    · exact h

theorem step_ord {h : History} {s s' : State} {e : Op} {o : Out} (i : Ord h s) (hs : orderlyStep s e = .ok (s', o)) :
    Ord (h ++ [(e, o)]) s' := by
  have c := i.count
  have w := i.woken
  have hs0 := hs
  replace hs := orderly_ok hs
  cases e with
  | wait j =>
    simp only [orderlyStep] at hs0
    split at hs0
    · cases hs0
    rename_i hq
    have h1 : s.posting = 0 := by
      refine Classical.byContradiction fun h => hq (.inl h)
    have h2 : s.woken = [] := by
      refine Classical.byContradiction fun h => hq (.inr h)
    simp only [step] at hs
    split at hs
    · cases hs
    · split at hs
      · cases hs
      · split at hs
        · cases hs
          refine ⟨?_, ?_⟩
          · rw [posts_snoc, passes_snoc]; simp [isPost, isPass]; omega
          · simp [h1, h2]
        · rename_i hv
          cases hs
          refine ⟨?_, ?_⟩
          · rw [posts_snoc, passes_snoc]; simp [isPost, isPass]; omega
          · exact w
  | post =>
    simp only [step] at hs
    split at hs
    · cases hs
    · cases hs
      refine ⟨?_, ?_⟩
      · rw [posts_snoc, passes_snoc]; simp [isPost, isPass]; omega
      · simp only []; omega
  | signal x =>
    simp only [step] at hs
    split at hs
    · cases hs
    · split at hs
      · cases hs
      · cases x with
        | some j =>
          simp only [] at hs
          split at hs
          · cases hs
            refine ⟨?_, ?_⟩
            · rw [posts_snoc, passes_snoc]; simp [isPost, isPass]; omega
            · simp only [List.length_cons]
              omega
          · cases hs
        | none =>
          simp only [] at hs
          split at hs
          · cases hs
            refine ⟨?_, ?_⟩
            · rw [posts_snoc, passes_snoc]; simp [isPost, isPass]; omega
            · simp only []; omega
          · cases hs
  | spurious j => cases hs0
  | expire j =>
    simp only [step] at hs
    split at hs
    · cases hs
      refine ⟨?_, w⟩
      rw [posts_snoc, passes_snoc]; simp [isPost, isPass]; omega
    · cases hs
  | resume j =>
    simp only [step] at hs
    split at hs
    · rename_i hj
      split at hs
      · cases hs
      · cases hs
        have hl := erase_len hj
        refine ⟨?_, ?_⟩
        · rw [posts_snoc, passes_snoc]; simp [isPost, isPass]; split <;> omega
        · simp only []
          split <;> omega
    · split at hs
      · split at hs
        · cases hs
        · cases hs
          refine ⟨?_, w⟩
          rw [posts_snoc, passes_snoc]; simp [isPost, isPass]; omega
      · cases hs
  | destroy =>
    simp only [step] at hs
    split at hs
    · cases hs
    · cases hs
      refine ⟨?_, w⟩
      rw [posts_snoc, passes_snoc]; simp [isPost, isPass]; omega

theorem exec_ord {h : History} {s : State} (hx : Exec orderlyStep .init h s) : Ord h s := by
  induction hx with
  | nil => exact ⟨rfl, Nat.le_refl _⟩
  | snoc _ hs ih => exact step_ord ih hs

theorem exec_unused {h : History} {s : State} (hx : Exec politeStep .init h s) : s.freed = true → Unused s := by
  induction hx with
  | nil => intro h; cases h
  | @snoc h s e o s' hx hs ih =>
    intro hf'
    unfold politeStep at hs
    split at hs
    · cases hs
    rename_i hd
    cases hf : s.freed with
    | true =>
      obtain ⟨u1, u2, u3, u4⟩ := ih hf
      cases e <;> simp [step, hf, u1, u2, u3, u4] at hs
    | false =>
      cases e with
      | destroy =>
        simp only [step, hf] at hs
        cases hs
        exact Classical.byContradiction fun hu => hd ⟨rfl, hu⟩
      | _ =>
        simp only [step, hf] at hs
        repeat' (split at hs)
        all_goals cases hs
        all_goals (simp only [hf] at hf'; cases hf')

end Verif.Spec.Semaphore
