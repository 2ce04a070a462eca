import Verif.Proof.RouterFile

/-!
# Where a process finds the broker (C110)
-/

namespace Verif.Props

open Verif Verif.RouterFile

private def rfText (s : String) : Bytes := s.toUTF8.data.toList

private theorem rfWord {blanks w rest : Bytes} (h : blanks.all isspace = true ∧ w.all (!isspace ·) = true ∧ w ≠ [] ∧
    rest.take 1 = (rest.take 1).filter isspace) : FirstWord blanks w rest := by
  refine ⟨fun b hb => (isspace_iff b).1 (List.all_eq_true.1 h.1 b hb), fun b hb hc => ?_, h.2.2.1, fun b hb => ?_⟩
  · have := List.all_eq_true.1 h.2.1 b hb
    simp [(isspace_iff b).2 hc] at this
  · cases rest with
    | nil => cases hb
    | cons c r =>
      cases hb
      have h2 := h.2.2.2
      simp only [List.take_succ_cons, List.take_zero, List.filter_cons, List.filter_nil] at h2
      split at h2
      · rename_i hs
        exact (isspace_iff b).1 hs
      · cases h2

/-- C110, the address. If the file has a word, the address is that word, cut to what fits into the buffer behind the blanks that
come before it on its line: of these, each 255 fill the buffer and are forgotten. -/
theorem C110_exact {blanks w rest : Bytes} (h : FirstWord blanks w rest) (h0 : (0 : UInt8) ∉ blanks ++ w ++ rest) (address : Bytes) :
    configure (some (blanks ++ w ++ rest)) address = w.take (255 - column blanks % 255) := by
  simp only [configure, scan_auto h0]
  rw [show auto 255 (blanks ++ w ++ rest) = auto (255 - 0 % 255) (blanks ++ w ++ rest) from rfl, auto_word h 0]
  rfl

example : configure (some (rfText "\n  \t" ++ rfText "tcp://10.0.0.1:10001" ++ rfText "\nother\n")) initial =
    (rfText "tcp://10.0.0.1:10001").take (255 - 3 % 255) :=
  C110_exact (rfWord (by decide +kernel)) (by decide +kernel) _

/-- C110, whole. If the first word of the file, together with the blanks before it on its line, has at most 255 bytes, the address is
that word, however many blank lines come before and whatever follows. (Missing: longer words, `C110_cut_fails`.) -/
theorem C110_word_partial {blanks w rest : Bytes} (h : FirstWord blanks w rest) (h0 : (0 : UInt8) ∉ blanks ++ w ++ rest)
    (hl : column blanks + w.length ≤ 255) (address : Bytes) : configure (some (blanks ++ w ++ rest)) address = w := by
  have hw : 0 < w.length := List.length_pos_iff.2 h.some
  rw [C110_exact h h0, Nat.mod_eq_of_lt (by omega)]
  exact List.take_of_length_le (by omega)

example : configure (some (rfText "\n  \t" ++ rfText "tcp://10.0.0.1:10001" ++ rfText "\nother\n")) initial =
    rfText "tcp://10.0.0.1:10001" :=
  C110_word_partial (rfWord (by decide +kernel)) (by decide +kernel) (by decide +kernel) _

/-- C110, no word. Without the file, or with nothing but blanks in it, the address is what it was. -/
theorem C110_default (address : Bytes) :
    configure none address = address ∧ ∀ s : Bytes, (∀ b ∈ s, Blank b) → configure (some s) address = address := by
  refine ⟨rfl, fun s hs => ?_⟩
  have h0 : (0 : UInt8) ∉ s := fun h => by
    have := hs 0 h
    simp [Blank] at this
  simp only [configure, scan_auto h0, auto_blank hs, Option.getD_none]

example : configure (some (rfText " \n\n\t\n")) initial = rfText "unix:///tmp/rtrouted" :=
  (C110_default initial).2 _ fun b hb => (isspace_iff b).1 (List.all_eq_true.1 (show (rfText " \n\n\t\n").all isspace = true by
    decide +kernel) b hb)

/-- C110, the default. A process whose file does not exist, or has nothing but blanks, connects to `unix:///tmp/rtrouted`. -/
theorem C110_initial : configure none initial = rfText "unix:///tmp/rtrouted" ∧
    ∀ s : Bytes, (∀ b ∈ s, Blank b) → configure (some s) initial = rfText "unix:///tmp/rtrouted" :=
  C110_default initial

example : configure (some []) initial = rfText "unix:///tmp/rtrouted" := C110_initial.2 [] (fun _ h => by cases h)

/-- C110, room. Whatever is in the file, the address has at most 255 bytes, so that it fits where it is copied to. -/
theorem C110_room (file : Option Bytes) (address : Bytes) (h : address.length ≤ 255) : (configure file address).length ≤ 255 := by
  cases file with
  | none => exact h
  | some f =>
    simp only [configure]
    cases hs : scan f with
    | none => exact h
    | some w => exact scan_length f hs

example : (configure (some (List.replicate 1000 120)) initial).length ≤ 255 := C110_room _ _ (by decide +kernel)

/-- C110: a word that does not fit is not refused but cut, and the process uses another address than the one in the file. This holds
for every word of more than 255 bytes, and for shorter ones behind blanks. -/
theorem C110_cut_fails {blanks w rest : Bytes} (h : FirstWord blanks w rest) (h0 : (0 : UInt8) ∉ blanks ++ w ++ rest)
    (hl : 255 < column blanks % 255 + w.length) (address : Bytes) :
    configure (some (blanks ++ w ++ rest)) address ≠ w ∧ ∃ x, x ≠ [] ∧ w = configure (some (blanks ++ w ++ rest)) address ++ x := by
  have hm : column blanks % 255 < 255 := Nat.mod_lt _ (by omega)
  rw [C110_exact h h0]
  constructor
  · intro he
    have := congrArg List.length he
    rw [List.length_take] at this
    omega
  · refine ⟨w.drop (255 - column blanks % 255), ?_, (List.take_append_drop ..).symm⟩
    intro he
    have := congrArg List.length he
    rw [List.length_drop] at this
    simp only [List.length_nil] at this
    omega

example : configure (some (List.replicate 250 32 ++ rfText "tcp://10.0.0.1:10001" ++ rfText "\n")) initial = rfText "tcp:/" := by
  rw [C110_exact (rfWord (by decide +kernel)) (by decide +kernel)]
  decide +kernel

/-- C110: a NUL in a line hides the rest of the line: the word behind it is not found, and the search goes on in the next line. -/
theorem C110_nul_fails (w v address : Bytes) (hw : w.length < 254) (hn : (10 : UInt8) ∉ w) (hv : FirstWord [] v [])
    (h0 : (0 : UInt8) ∉ v) (hl : v.length ≤ 255) : configure (some (0 :: w ++ 10 :: v)) address = v := by
  have hc : ∀ (n : Nat) (w : Bytes), w.length < n → (10 : UInt8) ∉ w → chunk n (w ++ 10 :: v) = (w ++ [10], v) := by
    intro n w
    induction w generalizing n with
    | nil =>
      intro hn _
      cases n with
      | zero => simp at hn
      | succ n => simp [chunk]
    | cons b w ih =>
      intro hn h10
      simp only [List.mem_cons, not_or] at h10
      cases n with
      | zero => simp at hn
      | succ n =>
        simp only [List.length_cons] at hn
        have hb : ¬ b = 10 := fun h => h10.1 h.symm
        simp only [List.cons_append, chunk, if_neg hb, ih n (by omega) h10.2]
  have hc' := hc 255 (0 :: w) (by simp only [List.length_cons]; omega) (by simp [hn])
  have hs : scan (0 :: w ++ 10 :: v) = scan v := by
    rw [scan_more]
    unfold more
    rw [hc']
    rfl
  have := C110_word_partial hv (by simpa using h0) (by simpa [column] using hl) address
  simp only [configure, List.nil_append, List.append_nil] at this ⊢
  rw [hs]
  exact this

example : configure (some (0 :: rfText "unix:///a" ++ 10 :: rfText "unix:///b")) initial = rfText "unix:///b" :=
  C110_nul_fails _ _ _ (by decide +kernel) (by decide +kernel) (rfWord (by decide +kernel)) (by decide +kernel) (by decide +kernel)

end Verif.Props
