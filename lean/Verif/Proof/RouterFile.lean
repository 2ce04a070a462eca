import Verif.Spec.RouterFile

/-!
# Lemmas about the file with the broker's address
-/

namespace Verif.RouterFile

open Verif

theorem isspace_iff (b : UInt8) : isspace b = true ↔ Blank b := by
  have h : ∀ n : Fin 256, (isspace (UInt8.ofNat n.val) = true ↔ UInt8.ofNat n.val ∈ ([9, 10, 11, 12, 13, 32] : Bytes)) := by
    decide +kernel
  have := h ⟨b.toNat, b.toNat_lt⟩
  simpa [Blank] using this

/-- The same, byte after byte: `k` bytes fit into what is left of the buffer. -/
def auto : Nat → Bytes → Option Bytes
  | _, [] => none
  | 0, b :: s =>
    if b = 10 then auto 255 s
    else if isspace b then auto 254 s
    else some (b :: (s.take 254).takeWhile fun b => !isspace b)
  | k + 1, b :: s =>
    if b = 10 then auto 255 s
    else if isspace b then auto k s
    else some (b :: (s.take k).takeWhile fun b => !isspace b)

theorem auto_zero (s : Bytes) : auto 0 s = auto 255 s := by cases s <;> rfl

theorem chunk_solid (k : Nat) (s : Bytes) :
    (chunk k s).1.takeWhile (fun b => !isspace b) = (s.take k).takeWhile fun b => !isspace b := by
  fun_induction chunk k s with
  | case1 => simp
  | case2 => simp
  | case3 n s => simp [isspace]
  | case4 n b s hb c ih =>
    simp only [List.take_succ_cons, List.takeWhile_cons]
    split
    · rw [ih]
    · rfl

theorem chunk_mem (k : Nat) (s : Bytes) {b : UInt8} (h : b ∈ (chunk k s).1) : b ∈ s := by
  fun_induction chunk k s with
  | case1 => simp at h
  | case2 => simp at h
  | case3 n s => simp_all
  | case4 n b s hb c ih =>
    rcases List.mem_cons.1 h with h | h
    · simp [h]
    · exact List.mem_cons_of_mem _ (ih h)

theorem chunk_length (k : Nat) (s : Bytes) : (chunk k s).1.length ≤ k := by
  fun_induction chunk k s with
  | case1 => simp
  | case2 => simp
  | case3 => simp
  | case4 n b s hb c ih =>
    have h : c.1.length ≤ n := ih
    simp only [List.length_cons]
    omega

theorem chunk_rest (k : Nat) (s : Bytes) {b : UInt8} (h : b ∈ (chunk k s).2) : b ∈ s := by
  fun_induction chunk k s with
  | case1 => exact h
  | case2 => simp at h
  | case3 n s => exact List.mem_cons_of_mem _ h
  | case4 n b s hb c ih => exact List.mem_cons_of_mem _ (ih h)

theorem text_all {s : Bytes} (h : (0 : UInt8) ∉ s) : s.takeWhile (fun b => decide (b ≠ 0)) = s := by
  induction s with
  | nil => rfl
  | cons b s ih =>
    simp only [List.mem_cons, not_or] at h
    have : decide (b ≠ 0) = true := by simpa using fun hb => h.1 hb.symm
    rw [List.takeWhile_cons, if_pos this, ih h.2]

theorem word_nil : word [] = none := rfl

theorem word_space {b : UInt8} {s : Bytes} (hb : isspace b = true) (h0 : (0 : UInt8) ∉ b :: s) : word (b :: s) = word s := by
  have h1 : (0 : UInt8) ∉ s := fun h => h0 (List.mem_cons_of_mem _ h)
  unfold word
  rw [text_all h0, text_all h1, List.dropWhile_cons, if_pos hb]

theorem word_solid {b : UInt8} {s : Bytes} (hb : isspace b = false) (h0 : (0 : UInt8) ∉ b :: s) :
    word (b :: s) = some (b :: s.takeWhile fun b => !isspace b) := by
  unfold word
  rw [text_all h0, List.dropWhile_cons, if_neg (by simp [hb])]

/-- The rest of the buffer, then the loop. -/
def more (k : Nat) (s : Bytes) : Option Bytes :=
  match word (chunk k s).1 with
  | some w => some w
  | none => scan (chunk k s).2

theorem scan_more (s : Bytes) : scan s = more 255 s := by
  cases s with
  | nil => unfold scan more; simp [chunk, word_nil]; unfold scan; rfl
  | cons b s => rw [scan]; rfl

theorem more_auto (s : Bytes) : (0 : UInt8) ∉ s → ∀ k, more k s = auto k s := by
  induction s with
  | nil =>
    intro _ k
    have : ∀ k, chunk k ([] : Bytes) = ([], []) := by intro k; cases k <;> rfl
    unfold more
    rw [this, word_nil]
    show scan [] = _
    unfold scan
    cases k <;> rfl
  | cons b s ih =>
    intro h0
    have h1 : (0 : UInt8) ∉ s := fun h => h0 (List.mem_cons_of_mem _ h)
    have key : ∀ k, more (k + 1) (b :: s) = auto (k + 1) (b :: s) := by
      intro k
      unfold more auto
      simp only [chunk]
      by_cases hb : b = 10
      · simp only [if_pos hb]
        have hs : isspace b = true := by rw [hb]; decide
        have hw : word [b] = none := by rw [word_space hs (by rw [hb]; decide), word_nil]
        rw [hw, ← ih h1 255]
        exact scan_more s
      · simp only [if_neg hb]
        have hc : (0 : UInt8) ∉ b :: (chunk k s).1 := by
          intro h
          rcases List.mem_cons.1 h with h | h
          · exact h0 (h ▸ List.mem_cons_self ..)
          · exact h1 (chunk_mem _ _ h)
        by_cases hs : isspace b = true
        · rw [word_space hs hc, if_pos hs, ← ih h1 k]
          rfl
        · have hs : isspace b = false := by simpa using hs
          rw [word_solid hs hc, if_neg (by simp [hs]), chunk_solid]
    intro k
    cases k with
    | zero =>
      rw [auto_zero, ← key 254]
      show scan (b :: s) = _
      exact scan_more _
    | succ k => exact key k

theorem scan_auto {s : Bytes} (h : (0 : UInt8) ∉ s) : scan s = auto 255 s := by
  rw [scan_more, more_auto s h]

theorem solid_take {w rest : Bytes} (hw : ∀ b ∈ w, ¬ Blank b) (hr : ∀ b, rest.head? = some b → Blank b) (k : Nat) :
    ((w ++ rest).take k).takeWhile (fun b => !isspace b) = w.take k := by
  induction w generalizing k with
  | nil =>
    cases rest with
    | nil => simp
    | cons b r =>
      have : isspace b = true := (isspace_iff b).2 (hr b rfl)
      cases k <;> simp [this]
  | cons b w ih =>
    have : isspace b = false := by
      have h1 := hw b (List.mem_cons_self ..)
      rw [← isspace_iff b] at h1
      simpa using h1
    cases k with
    | zero => simp
    | succ k =>
      simp only [List.cons_append, List.take_succ_cons, List.takeWhile_cons, this, Bool.not_false, if_true]
      rw [ih fun c hc => hw c (List.mem_cons_of_mem _ hc)]

theorem auto_word {blanks w rest : Bytes} (h : FirstWord blanks w rest) :
    ∀ j, auto (255 - j % 255) (blanks ++ w ++ rest) =
      some (w.take (255 - blanks.foldl (fun n b => if b = 10 then 0 else n + 1) j % 255)) := by
  induction blanks with
  | nil =>
    intro j
    obtain ⟨b, w', rfl⟩ : ∃ b w', w = b :: w' := by
      cases w with
      | nil => exact absurd rfl h.some
      | cons b w' => exact ⟨b, w', rfl⟩
    have hn := h.solid b (List.mem_cons_self ..)
    have hb : isspace b = false := by
      rw [← isspace_iff b] at hn
      simpa using hn
    have h10 : b ≠ 10 := by
      rintro rfl
      exact hn (by simp [Blank])
    have hk : ∃ k, 255 - j % 255 = k + 1 := ⟨254 - j % 255, by omega⟩
    obtain ⟨k, hk⟩ := hk
    simp only [List.nil_append, List.foldl_nil, hk, List.cons_append, auto, if_neg h10, hb, Bool.false_eq_true, if_false,
      List.take_succ_cons]
    rw [solid_take (fun c hc => h.solid c (List.mem_cons_of_mem _ hc)) h.ends]
  | cons b blanks ih =>
    intro j
    have hi := ih ⟨fun c hc => h.blank c (List.mem_cons_of_mem _ hc), h.solid, h.some, h.ends⟩
    have hb : isspace b = true := (isspace_iff b).2 (h.blank b (List.mem_cons_self ..))
    obtain ⟨k, hk⟩ : ∃ k, 255 - j % 255 = k + 1 := ⟨254 - j % 255, by omega⟩
    simp only [List.cons_append, hk, auto, List.foldl_cons]
    by_cases h10 : b = 10
    · rw [if_pos h10, if_pos h10]
      exact hi 0
    · rw [if_neg h10, if_neg h10, if_pos hb]
      by_cases hz : k = 0
      · subst hz
        have hm : (j + 1) % 255 = 0 := by omega
        have := hi (j + 1)
        rw [hm] at this
        rw [auto_zero]
        exact this
      · have hm : 255 - (j + 1) % 255 = k := by omega
        have := hi (j + 1)
        rw [hm] at this
        exact this

theorem auto_blank {s : Bytes} (h : ∀ b ∈ s, Blank b) : ∀ k, auto k s = none := by
  induction s with
  | nil => intro k; cases k <;> rfl
  | cons b s ih =>
    have hb : isspace b = true := (isspace_iff b).2 (h b (List.mem_cons_self ..))
    have hi := ih fun c hc => h c (List.mem_cons_of_mem _ hc)
    intro k
    cases k <;> simp only [auto, hb, if_true, hi, ite_self]

theorem word_length {s w : Bytes} (h : word s = some w) : w.length ≤ s.length := by
  unfold word at h
  split at h
  · cases h
  · rename_i b r hr
    simp only [Option.some.injEq] at h
    have h1 := congrArg List.length hr
    have h2 : ((s.takeWhile fun b => decide (b ≠ 0)).dropWhile isspace).length ≤ (s.takeWhile fun b => decide (b ≠ 0)).length :=
      (List.dropWhile_suffix _).length_le
    have h3 : (s.takeWhile fun b => decide (b ≠ 0)).length ≤ s.length := (List.takeWhile_prefix _).length_le
    have h4 : (r.takeWhile fun b => !isspace b).length ≤ r.length := (List.takeWhile_prefix _).length_le
    rw [← h]
    simp only [List.length_cons] at h1 ⊢
    omega

theorem scan_length (s : Bytes) {w : Bytes} (h : scan s = some w) : w.length ≤ 255 := by
  fun_induction scan s with
  | case1 => cases h
  | case2 b s v hv =>
    cases h
    have h1 := word_length hv
    have h2 := chunk_length 255 (b :: s)
    exact Nat.le_trans h1 h2
  | case3 b s hv ih => exact ih h

end Verif.RouterFile
