import Verif.Proof.FloatText

/-!
# C79: floating-point numbers as text
-/

namespace Verif.Props

open Verif Verif.Value Verif.FloatText

/-- The text of a double, `rbusValue_ToString`: the decimal notation, with fifteen digits after the point, of a number
within half a unit of the last digit of the value. -/
theorem C79_double_text {b : BitVec 64} {n : Int} (h : Dbl.ofBits b = .fin n) :
    Close (FloatText.text double b) (signBit b) n 15 :=
  ⟨_, text_notation (F := double) h, text_close double_signed h⟩

/-- 2.5 and -0.1; the text of the second is off by less than half a unit of the last digit. -/
example : FloatText.text double 0x4004000000000000#64 = "2.500000000000000".toUTF8.toList ∧
    FloatText.text double 0xbfb999999999999a#64 = "-0.100000000000000".toUTF8.toList ∧
    Dbl.ofBits 0x4004000000000000#64 = .fin (5 * 2 ^ 1073) := by
  refine ⟨?_, ?_, ?_⟩ <;> decide +kernel

/-- The same for singles, with six digits after the point. -/
theorem C79_single_text {b : BitVec 32} {n : Int} (h : Dbl.ofSingle b = .fin n) :
    Close (FloatText.text single b) (signBit b) n 6 :=
  ⟨_, text_notation (F := single) h, text_close single_signed h⟩

/-- 1/3 and -1.5. -/
example : FloatText.text single 0x3eaaaaab#32 = "0.333333".toUTF8.toList ∧
    FloatText.text single 0xbfc00000#32 = "-1.500000".toUTF8.toList := by
  refine ⟨?_, ?_⟩ <;> decide +kernel

/-- A double of magnitude 8 or more, written as text and read back, is the same number, whatever the correct rounding of
the C library. Missing: smaller ones, for which it does not hold (`C79_double_back_fails`), except those of
`C79_double_exact`. -/
theorem C79_double_back_partial {rnd : Rounding double} (hr : Correct double tinyDouble rnd) {b : BitVec 64} {n : Int}
    (h : Dbl.ofBits b = .fin n) (h8 : 8 * scale ≤ n.natAbs) :
    ∃ b', fromText double rnd (FloatText.text double b) = some b' ∧ Dbl.ofBits b' = .fin n := by
  have e : 2 ^ 1077 = 8 * scale := by rw [scale_eq]; decide +kernel
  exact back_grid double_shape hr h (by rw [e]; exact h8) (by rw [e]; omega)

/-- A correct rounding exists, and 8.1 is such a double. -/
example : (∃ rnd, Correct double tinyDouble rnd) ∧
    ∃ n, Dbl.ofBits 0x4020333333333333#64 = .fin n ∧ 8 * scale ≤ n.natAbs :=
  ⟨double_correct, _, rfl, by decide +kernel⟩

/-- A single of magnitude 16 or more is the same number after the way through text. Missing: smaller ones
(`C79_single_back_fails`), except those of `C79_single_exact`. -/
theorem C79_single_back_partial {rnd : Rounding single} (hr : Correct single tinySingle rnd) {b : BitVec 32} {n : Int}
    (h : Dbl.ofSingle b = .fin n) (h16 : 16 * scale ≤ n.natAbs) :
    ∃ b', fromText single rnd (FloatText.text single b) = some b' ∧ Dbl.ofSingle b' = .fin n := by
  have e : 2 ^ 1078 = 16 * scale := by rw [scale_eq]; decide +kernel
  exact back_grid single_shape hr h (by rw [e]; exact h16) (by rw [e]; omega)

/-- A correct rounding exists, and -16.1 is such a single. -/
example : (∃ rnd, Correct single tinySingle rnd) ∧
    ∃ n, Dbl.ofSingle 0xc180cccd#32 = .fin n ∧ 16 * scale ≤ n.natAbs :=
  ⟨single_correct, _, rfl, by decide +kernel⟩

/-- A double that is a multiple of 10^-15, such as a whole number or 2.5, of any magnitude, comes back unchanged. -/
theorem C79_double_exact {rnd : Rounding double} (hr : Correct double tinyDouble rnd) {b : BitVec 64} {n : Int}
    (h : Dbl.ofBits b = .fin n) (hx : scale ∣ n.natAbs * 10 ^ 15) :
    ∃ b', fromText double rnd (FloatText.text double b) = some b' ∧ Dbl.ofBits b' = .fin n :=
  back_exact double_shape hr h hx

/-- 2.5 is such a double. -/
example : ∃ n, Dbl.ofBits 0x4004000000000000#64 = .fin n ∧ scale ∣ n.natAbs * 10 ^ 15 :=
  ⟨5 * 2 ^ 1073, by decide +kernel, 5 * 5 ^ 15 * 2 ^ 14, by decide +kernel⟩

/-- A single that is a multiple of 10^-6 comes back unchanged. -/
theorem C79_single_exact {rnd : Rounding single} (hr : Correct single tinySingle rnd) {b : BitVec 32} {n : Int}
    (h : Dbl.ofSingle b = .fin n) (hx : scale ∣ n.natAbs * 10 ^ 6) :
    ∃ b', fromText single rnd (FloatText.text single b) = some b' ∧ Dbl.ofSingle b' = .fin n :=
  back_exact single_shape hr h hx

/-- -1.5 is such a single. -/
example : ∃ n, Dbl.ofSingle 0xbfc00000#32 = .fin n ∧ scale ∣ n.natAbs * 10 ^ 6 :=
  ⟨-3 * 2 ^ 1073, by decide +kernel, 3 * 5 ^ 6 * 2 ^ 5, by decide +kernel⟩

/-- Infinities and NaN come back as what they are, for both types. -/
theorem C79_not_finite {rd : Rounding double} (hd : Correct double tinyDouble rd) {rs : Rounding single}
    (hs : Correct single tinySingle rs) :
    (∀ b, (∀ n, Dbl.ofBits b ≠ .fin n) →
      ∃ b', fromText double rd (FloatText.text double b) = some b' ∧ Dbl.ofBits b' = Dbl.ofBits b) ∧
    (∀ b, (∀ n, Dbl.ofSingle b ≠ .fin n) →
      ∃ b', fromText single rs (FloatText.text single b) = some b' ∧ Dbl.ofSingle b' = Dbl.ofSingle b) :=
  ⟨fun _ hb => back_word (F := double) hd hb, fun _ hb => back_word (F := single) hs hb⟩

/-- The infinity and a NaN of each type; the text of the single has blanks before it. -/
example : FloatText.text single 0x7f800000#32 = "   inf".toUTF8.toList ∧
    FloatText.text double 0xfff8000000000000#64 = "-nan".toUTF8.toList ∧
    (∀ n, Dbl.ofBits 0x7ff0000000000000#64 ≠ .fin n) ∧ ∀ n, Dbl.ofSingle 0x7fc00000#32 ≠ .fin n := by
  refine ⟨by decide +kernel, by decide +kernel, ?_, ?_⟩
  · intro n h
    rw [show Dbl.ofBits 0x7ff0000000000000#64 = .pinf from by decide +kernel] at h
    cases h
  · intro n h
    rw [show Dbl.ofSingle 0x7fc00000#32 = .nan from by decide +kernel] at h
    cases h

/-- `rbusValue_SetFromString`: a number in decimal notation, with or without an exponent, within the normal range of the
type, is accepted and gives a number of the type nearest to it. -/
theorem C79_reads {F : Format} {tiny : Nat} {rnd : Rounding F} (hr : Correct F tiny rnd) {s : Bytes} {neg : Bool}
    {num den hi : Nat} (h : Notation s neg num den) (hden : 0 < den) (hhi : F.Number hi)
    (hlo : tiny * den ≤ num * scale) (hle : num * scale ≤ hi * den) :
    ∃ b n, fromText F rnd s = some b ∧ F.val b = .fin n ∧
      ∀ m, F.Number m → distance n (signed neg num) den ≤ distance m (signed neg num) den := by
  obtain ⟨h1, n, h2, h3⟩ := hr.nearest neg num den hi hden hhi hlo hle
  refine ⟨_, n, ?_, h2, h3⟩
  unfold fromText
  rw [strtod_notation h]
  simp only [h1]
  rfl

/-- ` -12.5e-1` is decimal notation of -125/100, which is in the range of doubles. -/
example : Notation " -12.5e-1".toUTF8.toList true 125 100 ∧ double.Number (2 * scale : Nat) ∧
    tinyDouble * 100 ≤ 125 * scale ∧ 125 * scale ≤ 2 * scale * 100 := by
  refine ⟨⟨[32], [45], [49, 50, 46, 53], [101, 45, 49], 125, 1, by decide +kernel, by simp, .inr (.inr ⟨rfl, rfl⟩),
    ⟨[49, 50], [53], .inl rfl, by simp, ⟨[1, 2, 5], by decide, by decide, rfl⟩, rfl⟩,
    .inr ⟨101, [45], [49], true, 1, rfl, .inl rfl, .inr (.inr ⟨rfl, rfl⟩), by simp, ⟨[1], by decide, by decide, rfl⟩,
      by decide⟩⟩, ⟨0x4000000000000000#64, by decide +kernel⟩, by decide +kernel, by decide +kernel⟩

/-- Whatever is accepted is decimal notation of a number, or one of the words for infinities and NaN, as a whole, and is
not out of range; what it gives is what the C library rounds it to. Texts in hexadecimal notation are not considered. -/
theorem C79_accepted {F : Format} {rnd : Rounding F} {s : Bytes} {b : BitVec F.width} :
    fromText F rnd s = some b ↔
      ∃ l, ((∃ neg num den, l = .frac neg num den ∧ Notation s neg num den) ∨ ∃ neg, Word s neg l) ∧
        rnd l = (b, false) := by
  constructor
  · intro h
    unfold fromText at h
    split at h
    · cases h
    · rename_i l r hl
      split at h
      · cases h
      · rename_i hn
        have hr : r = [] := Classical.byContradiction fun hr => hn (.inl hr)
        have h2 : (rnd l).2 = false := by
          cases he : (rnd l).2
          · rfl
          · exact absurd (.inr he) hn
        subst hr
        injection h with h
        refine ⟨l, strtod_spec hl, ?_⟩
        rw [← h, ← h2]
  · intro ⟨l, hl, hb⟩
    have hs : strtod s = some (l, []) := by
      rcases hl with ⟨neg, num, den, rfl, hn⟩ | ⟨neg, hw⟩
      · exact strtod_notation hn
      · exact strtod_word hw
    unfold fromText
    rw [hs]
    simp [hb]

/-- `1.5x` is refused, `+Infinity` is not. -/
example (rnd : Rounding double) : fromText double rnd "1.5x".toUTF8.toList = none ∧
    Word "+Infinity".toUTF8.toList false (.inf false) := by
  constructor
  · unfold fromText
    rw [show strtod _ = some (.frac false 15 10, [120]) from by decide +kernel]
    rfl
  · exact ⟨[], [43], "Infinity".toUTF8.toList, by decide +kernel, by simp, .inr (.inl ⟨rfl, rfl⟩),
      .inr (.inl ⟨by decide +kernel, rfl⟩)⟩

/-- A buffer of `n` bytes is not overrun, and gets the front of the text, as much as it has room for, with the
terminating NUL. -/
theorem C79_buffer (F : Format) (b : BitVec F.width) (n : Nat) :
    (FloatText.toBuffer F b n).length ≤ n ∧
    (0 < n → FloatText.toBuffer F b n = (FloatText.text F b).take (n - 1) ++ [0]) := by
  unfold FloatText.toBuffer Text.snprintf
  cases n with
  | zero => simp
  | succ n => simp; omega

/-- Four bytes are enough for `2.5` only. -/
example : FloatText.toBuffer double 0x4004000000000000#64 4 = [50, 46, 53, 0] := by decide +kernel

/-- Two doubles between 4 and 8 have the same text, so one of them, at least, does not come back. Small numbers, such as
10^-20, are written as zero. -/
theorem C79_double_back_fails :
    (∃ b b' n n', Dbl.ofBits b = .fin n ∧ Dbl.ofBits b' = .fin n' ∧ n ≠ n' ∧ 4 * scale ≤ n.natAbs ∧
      FloatText.text double b = FloatText.text double b') ∧
    (∃ b n, Dbl.ofBits b = .fin n ∧ n ≠ 0 ∧ ∀ rnd, Correct double tinyDouble rnd →
      ∃ b', fromText double rnd (FloatText.text double b) = some b' ∧ Dbl.ofBits b' = .fin 0) := by
  refine ⟨⟨0x401c000000000004#64, 0x401c000000000005#64, _, _, rfl, rfl, by decide +kernel, by decide +kernel,
    by decide +kernel⟩, 0x3bc79ca10c924223#64, _, rfl, by decide +kernel, fun rnd hr => ?_⟩
  unfold fromText
  rw [show strtod _ = some (.frac false 0 (10 ^ 15), []) from by decide +kernel]
  obtain ⟨h1, h2⟩ := hr.zero false (10 ^ 15) (by decide)
  simp only [h1]
  exact ⟨_, rfl, h2⟩

/-- Two singles between 8 and 16 have the same text. Small numbers, such as 10^-7, are written as zero. -/
theorem C79_single_back_fails :
    (∃ b b' n n', Dbl.ofSingle b = .fin n ∧ Dbl.ofSingle b' = .fin n' ∧ n ≠ n' ∧ 8 * scale ≤ n.natAbs ∧
      FloatText.text single b = FloatText.text single b') ∧
    (∃ b n, Dbl.ofSingle b = .fin n ∧ n ≠ 0 ∧ ∀ rnd, Correct single tinySingle rnd →
      ∃ b', fromText single rnd (FloatText.text single b) = some b' ∧ Dbl.ofSingle b' = .fin 0) := by
  refine ⟨⟨0x4170000a#32, 0x4170000b#32, _, _, rfl, rfl, by decide +kernel, by decide +kernel, by decide +kernel⟩,
    0x33d6bf95#32, _, rfl, by decide +kernel, fun rnd hr => ?_⟩
  unfold fromText
  rw [show strtod _ = some (.frac false 0 (10 ^ 6), []) from by decide +kernel]
  obtain ⟨h1, h2⟩ := hr.zero false (10 ^ 6) (by decide)
  simp only [h1]
  exact ⟨_, rfl, h2⟩

end Verif.Props
