import Verif.Spec.Log

namespace Verif.Log

open Verif Verif.Spec.Log

theorem takeWhile_zeros {t : Bytes} (h : (0 : UInt8) ∉ t) (k : Nat) :
    (t ++ List.replicate k 0).takeWhile (· ≠ 0) = t := by
  induction t with
  | nil => cases k <;> simp [List.replicate_succ]
  | cons c t ih =>
    simp only [List.mem_cons, not_or] at h
    rw [List.cons_append, List.takeWhile_cons_of_pos (by simpa using fun hc => h.1 hc.symm), ih h.2]

theorem shown_short {t : Bytes} (h : (0 : UInt8) ∉ t) (hl : t.length ≤ 1023) : shown t = t.take 1022 := by
  unfold shown buffer
  simp only []
  rw [if_neg (by omega)]
  have h0 : (0 : UInt8) ∉ t.take 1022 := fun hh => h (List.mem_of_mem_take hh)
  have hlen : (t.take 1022).length ≤ 1022 := by rw [List.length_take]; omega
  generalize t.take 1022 = u at h0 hlen
  have : (u ++ List.replicate (1024 - u.length) (0 : UInt8)).set 1023 0 =
      u ++ List.replicate (1024 - u.length) 0 := by
    rw [List.set_append_right _ _ (by omega)]
    congr 1
    apply List.ext_getElem
    · simp
    · intro i h1 h2
      rw [List.getElem_set]
      split <;> simp
  rw [this, takeWhile_zeros h0]

theorem set_three (a b c : UInt8) (u v : Bytes) (hu : u.length = 1020) (x y z : UInt8) :
    (((u ++ x :: y :: z :: v).set 1020 a).set 1021 b).set 1022 c = u ++ a :: b :: c :: v := by
  rw [List.set_append_right _ _ (by omega), List.set_append_right _ _ (by omega),
    List.set_append_right _ _ (by omega), hu]
  rfl

theorem shown_long {t : Bytes} (h : (0 : UInt8) ∉ t) (hl : 1023 < t.length) :
    shown t = t.take 1020 ++ [46, 46, 46] := by
  unfold shown buffer
  simp only []
  rw [if_pos hl]
  have h3 : t.take 1022 = t.take 1020 ++ [t[1020], t[1021]] := by
    rw [List.take_succ_eq_append_getElem (i := 1021) (by omega),
      List.take_succ_eq_append_getElem (i := 1020) (by omega), List.append_assoc]
    rfl
  have hlen : (t.take 1022).length = 1022 := by rw [List.length_take]; omega
  have h4 : t.take 1022 ++ List.replicate (1024 - (t.take 1022).length) (0 : UInt8) =
      t.take 1020 ++ t[1020] :: t[1021] :: 0 :: [0] := by
    rw [hlen, h3]
    simp [List.replicate_succ]
  rw [h4, set_three 46 46 46 _ _ (by rw [List.length_take]; omega)]
  have hu : (t.take 1020).length = 1020 := by rw [List.length_take]; omega
  rw [List.set_append_right _ _ (by omega), hu]
  have h0 : (0 : UInt8) ∉ t.take 1020 ++ [46, 46, 46] := by
    intro hh
    rw [List.mem_append] at hh
    rcases hh with hh | hh
    · exact h (List.mem_of_mem_take hh)
    · revert hh; decide
  have := takeWhile_zeros h0 1
  simpa using this

/-! ## States after histories -/

theorem run_fst (s : State) (es : List Event) :
    (run s es).1 = ⟨levelAfter s.level es, (handlerAfter es).or s.handler⟩ := by
  induction es generalizing s with
  | nil => simp [run, levelAfter, handlerAfter]
  | cons e es ih =>
    simp only [run]
    rw [ih]
    cases e with
    | setLevel n =>
      simp only [step]
      by_cases hn : n ≤ 4
      · simp only [hn, if_true, levelAfter, handlerAfter,
          List.filterMap_cons_some (f := asksLevel) (b := n) (a := .setLevel n) (by simp [asksLevel, hn]),
          List.filterMap_cons_none (f := asksHandler) (a := .setLevel n) rfl]
        rw [List.getLast?_cons]
        simp
      · simp only [hn, if_false, levelAfter, handlerAfter,
          List.filterMap_cons_none (f := asksLevel) (a := .setLevel n) (by simp [asksLevel, hn]),
          List.filterMap_cons_none (f := asksHandler) (a := .setLevel n) rfl]
    | register h =>
      cases h with
      | none =>
        simp only [step, levelAfter, handlerAfter,
          List.filterMap_cons_none (f := asksLevel) (a := .register none) rfl,
          List.filterMap_cons_none (f := asksHandler) (a := .register none) rfl]
      | some h =>
        simp only [step, levelAfter, handlerAfter,
          List.filterMap_cons_none (f := asksLevel) (a := .register (some h)) rfl,
          List.filterMap_cons_some (f := asksHandler) (a := .register (some h)) (b := h) rfl]
        rw [List.getLast?_cons]
        cases (es.filterMap asksHandler).getLast? <;> simp
    | log c =>
      simp only [step, levelAfter, handlerAfter,
        List.filterMap_cons_none (f := asksLevel) (a := .log c) rfl,
        List.filterMap_cons_none (f := asksHandler) (a := .log c) rfl]

theorem run_length (s : State) (es : List Event) : (run s es).2.length = es.length := by
  induction es generalizing s with
  | nil => rfl
  | cons e es ih => simp [run, ih]

theorem run_at (s : State) (es : List Event) (k : Nat) (e : Event) (h : es[k]? = some e) :
    (run s es).2[k]? = some (step (run s (es.take k)).1 e).2 := by
  induction es generalizing s k with
  | nil => simp at h
  | cons x es ih =>
    cases k with
    | zero =>
      simp only [List.getElem?_cons_zero, Option.some.injEq] at h
      subst h
      simp [run]
    | succ k =>
      simp only [List.getElem?_cons_succ] at h
      simp only [run, List.getElem?_cons_succ, List.take_succ_cons]
      exact ih _ k h

theorem trim_path {f b : Bytes} (h : Path f b) : trimPath f = b := by
  have tw : ∀ {b : Bytes}, (47 : UInt8) ∉ b → ∀ r : Bytes,
      (b.reverse ++ 47 :: r).takeWhile (· ≠ 47) = b.reverse := by
    intro b hb r
    have hb' : (47 : UInt8) ∉ b.reverse := fun hh => hb (List.mem_reverse.mp hh)
    generalize b.reverse = c at hb'
    induction c with
    | nil => simp
    | cons x c ih =>
      simp only [List.mem_cons, not_or] at hb'
      rw [List.cons_append, List.takeWhile_cons_of_pos (by simpa using fun hc => hb'.1 hc.symm), ih hb'.2]
  cases h with
  | base hb =>
    unfold trimPath
    have : f.reverse.takeWhile (· ≠ 47) = f.reverse := by
      have hb' : (47 : UInt8) ∉ f.reverse := fun hh => hb (List.mem_reverse.mp hh)
      generalize f.reverse = c at hb'
      induction c with
      | nil => rfl
      | cons x c ih =>
        simp only [List.mem_cons, not_or] at hb'
        rw [List.takeWhile_cons_of_pos (by simpa using fun hc => hb'.1 hc.symm), ih hb'.2]
    rw [this, List.reverse_reverse]
  | inside hb =>
    unfold trimPath
    rw [List.reverse_append, List.reverse_cons, List.append_assoc]
    rw [List.singleton_append, tw hb, List.reverse_reverse]

theorem sameText_iff (s : Bytes) (n : String) (hn : (bytes n).map Text.lower = bytes n) :
    sameText s (bytes n) = true ↔ Reads s n := by
  unfold sameText Reads
  rw [beq_iff_eq, hn]

end Verif.Log
