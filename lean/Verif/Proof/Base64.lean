import Verif.Model.Base64
import Verif.Spec.Base64

namespace Verif.Base64

open Verif

theorem lookup_digit : ∀ n, n < 64 → lookup n = digit n := by decide +kernel

theorem decodeChar_lookup : ∀ n, n < 64 → decodeChar (lookup n) = some n := by decide +kernel

theorem lookup_ne_pad : ∀ n, n < 64 → lookup n ≠ pad := by decide +kernel

theorem decodeChar_some {c : UInt8} {n : Nat} (h : decodeChar c = some n) : n < 64 ∧ lookup n = c := by
  have all : ∀ k, k < 256 → ∀ n, n ∈ decodeChar (UInt8.ofNat k) → n < 64 ∧ lookup n = UInt8.ofNat k := by
    decide +kernel
  have hc := c.toNat_lt
  have := all c.toNat hc n
  rw [UInt8.ofNat_toNat] at this
  exact this h

theorem decodeChar_isSome (c : UInt8) : (decodeChar c).isSome ↔ c ∈ alphabet := by
  have all : ∀ k, k < 256 → ((decodeChar (UInt8.ofNat k)).isSome = true ↔ UInt8.ofNat k ∈ alphabet) := by
    decide +kernel
  have := all c.toNat c.toNat_lt
  rwa [UInt8.ofNat_toNat] at this

theorem or_add {x y i : Nat} (h : y < 2 ^ i) : x <<< i ||| y = x * 2 ^ i + y := by
  rw [← Nat.shiftLeft_add_eq_or_of_lt h, Nat.shiftLeft_eq]

theorem e1 (a : UInt8) : a.toNat >>> 2 = a.toNat / 4 := by rw [Nat.shiftRight_eq_div_pow]

theorem e2 (a b : UInt8) : (a.toNat &&& 0x03) <<< 4 ||| b.toNat >>> 4 = a.toNat % 4 * 16 + b.toNat / 16 := by
  have hb := b.toNat_lt
  rw [Nat.shiftRight_eq_div_pow, or_add (by omega), show (0x03 : Nat) = 2 ^ 2 - 1 from rfl,
    Nat.and_two_pow_sub_one_eq_mod]

theorem e2' (a : UInt8) : (a.toNat &&& 0x03) <<< 4 = a.toNat % 4 * 16 := by
  rw [Nat.shiftLeft_eq, show (0x03 : Nat) = 2 ^ 2 - 1 from rfl, Nat.and_two_pow_sub_one_eq_mod]

theorem e3 (b c : UInt8) : (b.toNat &&& 0xF) <<< 2 ||| c.toNat >>> 6 = b.toNat % 16 * 4 + c.toNat / 64 := by
  have hc := c.toNat_lt
  rw [Nat.shiftRight_eq_div_pow, or_add (by omega), show (0xF : Nat) = 2 ^ 4 - 1 from rfl,
    Nat.and_two_pow_sub_one_eq_mod]

theorem e3' (b : UInt8) : (b.toNat &&& 0xF) <<< 2 = b.toNat % 16 * 4 := by
  rw [Nat.shiftLeft_eq, show (0xF : Nat) = 2 ^ 4 - 1 from rfl, Nat.and_two_pow_sub_one_eq_mod]

theorem e4 (c : UInt8) : c.toNat &&& 0x3F = c.toNat % 64 := by
  rw [show (0x3F : Nat) = 2 ^ 6 - 1 from rfl, Nat.and_two_pow_sub_one_eq_mod]

theorem d1 {a b : Nat} (hb : b < 64) : a <<< 2 ||| b >>> 4 = a * 4 + b / 16 := by
  rw [Nat.shiftRight_eq_div_pow, or_add (by omega)]

theorem d2 {b c : Nat} (hc : c < 64) : b <<< 4 ||| c >>> 2 = b * 16 + c / 4 := by
  rw [Nat.shiftRight_eq_div_pow, or_add (by omega)]

theorem d3 {c d : Nat} (hd : d < 64) : c <<< 6 ||| d &&& 0x3F = c * 64 + d := by
  rw [show (0x3F : Nat) = 2 ^ 6 - 1 from rfl, Nat.and_two_pow_sub_one_eq_mod, or_add (by omega)]
  omega

theorem ofNat_of_mod {a : UInt8} {n : Nat} (h : n % 256 = a.toNat) : UInt8.ofNat n = a := by
  apply UInt8.toNat_inj.mp
  simpa using h

theorem encodeGroups_standard (bs : Bytes) : encodeGroups bs = standard bs := by
  induction bs using encodeGroups.induct with
  | case1 a b c rest ih =>
    have ha := a.toNat_lt; have hb := b.toNat_lt; have hc := c.toNat_lt
    simp only [encodeGroups, standard, e1, e2, e3, e4]
    rw [lookup_digit _ (by omega), lookup_digit _ (by omega), lookup_digit _ (by omega),
      lookup_digit _ (by omega), ih]
    simp only [List.cons_append, List.nil_append]
    rw [show a.toNat / 4 = (a.toNat * 65536 + b.toNat * 256 + c.toNat) / 262144 by omega,
      show a.toNat % 4 * 16 + b.toNat / 16 = (a.toNat * 65536 + b.toNat * 256 + c.toNat) / 4096 % 64 by omega,
      show b.toNat % 16 * 4 + c.toNat / 64 = (a.toNat * 65536 + b.toNat * 256 + c.toNat) / 64 % 64 by omega,
      show c.toNat % 64 = (a.toNat * 65536 + b.toNat * 256 + c.toNat) % 64 by omega]
  | case2 a b =>
    have ha := a.toNat_lt; have hb := b.toNat_lt
    simp only [encodeGroups, standard, e1, e2, e3', pad]
    rw [lookup_digit _ (by omega), lookup_digit _ (by omega), lookup_digit _ (by omega)]
    rw [show a.toNat / 4 = (a.toNat * 65536 + b.toNat * 256) / 262144 by omega,
      show a.toNat % 4 * 16 + b.toNat / 16 = (a.toNat * 65536 + b.toNat * 256) / 4096 % 64 by omega,
      show b.toNat % 16 * 4 = (a.toNat * 65536 + b.toNat * 256) / 64 % 64 by omega]
  | case3 a =>
    have ha := a.toNat_lt
    simp only [encodeGroups, standard, e1, e2', pad]
    rw [lookup_digit _ (by omega), lookup_digit _ (by omega)]
    rw [show a.toNat / 4 = a.toNat * 65536 / 262144 by omega,
      show a.toNat % 4 * 16 = a.toNat * 65536 / 4096 % 64 by omega]
  | case4 => rfl

theorem encodeGroups_length (bs : Bytes) : (encodeGroups bs).length = (bs.length + 2) / 3 * 4 := by
  induction bs using encodeGroups.induct with
  | case1 a b c rest ih => simp only [encodeGroups, List.length_cons, ih]; omega
  | case2 a b => simp [encodeGroups]
  | case3 a => simp [encodeGroups]
  | case4 => rfl

/-- Number of padding characters for an input. -/
def pads (bs : Bytes) : Nat := (3 - bs.length % 3) % 3

theorem encodeGroups_ne {bs : Bytes} (h : bs ≠ []) : encodeGroups bs ≠ [] := by
  intro h0
  have := encodeGroups_length bs
  rw [h0] at this
  cases bs with
  | nil => exact h rfl
  | cons x t => simp at this; omega

theorem decodeGroups_encode (bs : Bytes) (p : Nat) (hp : bs ≠ [] → p = pads bs) :
    decodeGroups p (encodeGroups bs) = some bs := by
  induction bs using encodeGroups.induct with
  | case1 a b c rest ih =>
    have ha := a.toNat_lt; have hb := b.toNat_lt; have hc := c.toNat_lt
    have hpp := hp (by simp)
    have hrest : decodeGroups p (encodeGroups rest) = some rest := ih (fun hr => by
      rw [hpp]; unfold pads; simp only [List.length_cons]; omega)
    simp only [encodeGroups, e1, e2, e3, e4, decodeGroups]
    have hc : ¬ (encodeGroups rest = [] ∧ p = 2) := by
      rintro ⟨h1, h2⟩
      have : rest = [] := Classical.byContradiction fun h => encodeGroups_ne h h1
      subst this
      rw [hpp] at h2; simp [pads] at h2
    have hc2 : ¬ (encodeGroups rest = [] ∧ p = 1) := by
      rintro ⟨h1, h2⟩
      have : rest = [] := Classical.byContradiction fun h => encodeGroups_ne h h1
      subst this
      rw [hpp] at h2; simp [pads] at h2
    rw [if_neg hc, if_neg hc2, hrest]
    simp only [group3, decodeChar_lookup _ (show a.toNat / 4 < 64 by omega),
      decodeChar_lookup _ (show a.toNat % 4 * 16 + b.toNat / 16 < 64 by omega),
      decodeChar_lookup _ (show b.toNat % 16 * 4 + c.toNat / 64 < 64 by omega),
      decodeChar_lookup _ (show c.toNat % 64 < 64 by omega), Option.bind_eq_bind, Option.bind_some,
      Option.pure_def]
    rw [d1 (by omega), d2 (by omega), d3 (by omega)]
    rw [ofNat_of_mod (a := a) (by omega), ofNat_of_mod (a := b) (by omega), ofNat_of_mod (a := c) (by omega)]
    rfl
  | case2 a b =>
    have ha := a.toNat_lt; have hb := b.toNat_lt
    have hpp : p = 1 := by rw [hp (by simp)]; rfl
    subst hpp
    simp only [encodeGroups, e1, e2, e3', decodeGroups, group2,
      decodeChar_lookup _ (show a.toNat / 4 < 64 by omega),
      decodeChar_lookup _ (show a.toNat % 4 * 16 + b.toNat / 16 < 64 by omega),
      decodeChar_lookup _ (show b.toNat % 16 * 4 < 64 by omega), Option.bind_eq_bind, Option.bind_some,
      Option.pure_def]
    rw [d1 (by omega), d2 (by omega)]
    rw [ofNat_of_mod (a := a) (by omega), ofNat_of_mod (a := b) (by omega)]
    simp
  | case3 a =>
    have ha := a.toNat_lt
    have hpp : p = 2 := by rw [hp (by simp)]; rfl
    subst hpp
    simp only [encodeGroups, e1, e2', decodeGroups, group1,
      decodeChar_lookup _ (show a.toNat / 4 < 64 by omega),
      decodeChar_lookup _ (show a.toNat % 4 * 16 < 64 by omega), Option.bind_eq_bind, Option.bind_some,
      Option.pure_def]
    rw [d1 (by omega)]
    rw [ofNat_of_mod (a := a) (by omega)]
    simp
  | case4 => rfl

theorem padding_cons4 {w x y z : UInt8} {rest : Bytes} (h : 4 ≤ rest.length) :
    padding (w :: x :: y :: z :: rest) = padding rest := by
  have h1 : (w :: x :: y :: z :: rest).length - 2 = rest.length - 2 + 4 := by simp; omega
  have h2 : (w :: x :: y :: z :: rest).length - 1 = rest.length - 1 + 4 := by simp; omega
  unfold padding
  rw [h1, h2]
  simp

theorem padding_encode {bs : Bytes} (h : bs ≠ []) : padding (encodeGroups bs) = pads bs := by
  induction bs using encodeGroups.induct with
  | case1 a b c rest ih =>
    by_cases hr : rest = []
    · subst hr
      have hb := b.toNat_lt; have hc := c.toNat_lt
      simp only [encodeGroups, e1, e2, e3, e4]
      have n1 := lookup_ne_pad (b.toNat % 16 * 4 + c.toNat / 64) (by omega)
      have n2 := lookup_ne_pad (c.toNat % 64) (by omega)
      simp [padding, n1, n2, pads]
    · have hl := encodeGroups_length rest
      have hne : 0 < rest.length := List.length_pos_iff.mpr hr
      simp only [encodeGroups]
      rw [padding_cons4 (by omega), ih hr]
      unfold pads
      simp only [List.length_cons]
      omega
  | case2 a b =>
    have hb := b.toNat_lt
    simp only [encodeGroups, e1, e2, e3']
    have n1 := lookup_ne_pad (b.toNat % 16 * 4) (by omega)
    simp [padding, n1, pads]
  | case3 a => simp [encodeGroups, padding, pads]
  | case4 => exact absurd rfl h

theorem group3_isSome (w x y z : UInt8) :
    (∃ o, group3 w x y z = some o ∧ o.length = 3) ∧ (w ∈ alphabet ∧ x ∈ alphabet ∧ y ∈ alphabet ∧ z ∈ alphabet) ∨
    group3 w x y z = none ∧ ¬ (w ∈ alphabet ∧ x ∈ alphabet ∧ y ∈ alphabet ∧ z ∈ alphabet) := by
  rw [← decodeChar_isSome, ← decodeChar_isSome, ← decodeChar_isSome, ← decodeChar_isSome]
  unfold group3
  cases decodeChar w <;> cases decodeChar x <;> cases decodeChar y <;> cases decodeChar z <;> simp

theorem group2_isSome (w x y : UInt8) :
    (∃ o, group2 w x y = some o ∧ o.length = 2) ∧ (w ∈ alphabet ∧ x ∈ alphabet ∧ y ∈ alphabet) ∨
    group2 w x y = none ∧ ¬ (w ∈ alphabet ∧ x ∈ alphabet ∧ y ∈ alphabet) := by
  rw [← decodeChar_isSome, ← decodeChar_isSome, ← decodeChar_isSome]
  unfold group2
  cases decodeChar w <;> cases decodeChar x <;> cases decodeChar y <;> simp

theorem group1_isSome (w x : UInt8) :
    (∃ o, group1 w x = some o ∧ o.length = 1) ∧ (w ∈ alphabet ∧ x ∈ alphabet) ∨
    group1 w x = none ∧ ¬ (w ∈ alphabet ∧ x ∈ alphabet) := by
  rw [← decodeChar_isSome, ← decodeChar_isSome]
  unfold group1
  cases decodeChar w <;> cases decodeChar x <;> simp

/-- The decoding loop succeeds exactly if all characters but the padding are in the alphabet, and then
gives the expected number of bytes. -/
theorem decodeGroups_iff (p : Nat) (hp : p ≤ 2) (t : Bytes) (hlen : t.length % 4 = 0) (hne : t ≠ []) :
    (∃ o, decodeGroups p t = some o ∧ o.length = t.length * 3 / 4 - p) ∧
        (∀ c ∈ t.take (t.length - p), c ∈ alphabet) ∨
    decodeGroups p t = none ∧ ¬ (∀ c ∈ t.take (t.length - p), c ∈ alphabet) := by
  induction t using decodeGroups.induct p with
  | case1 w x y z rest hc =>
    obtain ⟨h1, rfl⟩ := hc
    subst h1
    simp only [decodeGroups, and_self, if_true]
    rcases group1_isSome w x with ⟨⟨o, h1, h2⟩, h3⟩ | ⟨h1, h2⟩
    · left; exact ⟨⟨o, h1, by simp [h2]⟩, by simpa using h3⟩
    · right; exact ⟨h1, by simpa using h2⟩
  | case2 w x y z rest hc1 hc =>
    obtain ⟨h1, rfl⟩ := hc
    subst h1
    simp only [decodeGroups, and_self, if_true]
    rcases group2_isSome w x y with ⟨⟨o, h1, h2⟩, h3⟩ | ⟨h1, h2⟩
    · left; exact ⟨⟨o, by simpa using h1, by simp [h2]⟩, by simpa using h3⟩
    · right; exact ⟨by simpa using h1, by simpa using h2⟩
  | case3 w x y z rest hc1 hc2 ih =>
    have hd : decodeGroups p (w :: x :: y :: z :: rest) =
        (group3 w x y z).bind fun g => (decodeGroups p rest).bind fun r => some (g ++ r) := by
      rw [decodeGroups, if_neg hc1, if_neg hc2]; rfl
    rw [hd]
    by_cases hr : rest = []
    · subst hr
      have hp0 : p = 0 := by
        have a1 : ¬ p = 2 := fun h => hc1 ⟨rfl, h⟩
        have a2 : ¬ p = 1 := fun h => hc2 ⟨rfl, h⟩
        omega
      subst hp0
      rcases group3_isSome w x y z with ⟨⟨o, h1, h2⟩, h3⟩ | ⟨h1, h2⟩
      · left; exact ⟨⟨o, by simp [h1, decodeGroups], by simp [h2]⟩, by simpa using h3⟩
      · right; exact ⟨by simp [h1], by simpa using h2⟩
    · have hrl : 4 ≤ rest.length := by
        have := List.length_pos_iff.mpr hr
        simp only [List.length_cons] at hlen
        omega
      have htake : (w :: x :: y :: z :: rest).take ((w :: x :: y :: z :: rest).length - p) =
          w :: x :: y :: z :: rest.take (rest.length - p) := by
        have : (w :: x :: y :: z :: rest).length - p = rest.length - p + 4 := by simp; omega
        rw [this]; simp
      rw [htake]
      have ih := ih (by simp only [List.length_cons] at hlen; omega) hr
      rcases group3_isSome w x y z with ⟨⟨o, h1, h2⟩, h3⟩ | ⟨h1, h2⟩
      · rcases ih with ⟨⟨o', h1', h2'⟩, h3'⟩ | ⟨h1', h2'⟩
        · left
          refine ⟨⟨o ++ o', by simp [h1, h1'], ?_⟩, ?_⟩
          · simp only [List.length_append, h2, h2', List.length_cons]
            omega
          · intro c hc
            simp only [List.mem_cons] at hc
            rcases hc with rfl | rfl | rfl | rfl | hc
            · exact h3.1
            · exact h3.2.1
            · exact h3.2.2.1
            · exact h3.2.2.2
            · exact h3' c hc
        · right
          exact ⟨by simp [h1, h1'], fun hall => h2' fun c hc => hall c (by simp [hc])⟩
      · right
        exact ⟨by simp [h1], fun hall => h2 ⟨hall w (by simp), hall x (by simp), hall y (by simp), hall z (by simp)⟩⟩
  | case4 t hno =>
    exfalso
    match t, hne, hlen, hno with
    | [_], _, hl, _ => simp at hl
    | [_, _], _, hl, _ => simp at hl
    | [_, _, _], _, hl, _ => simp at hl
    | w :: x :: y :: z :: rest, _, _, hno => exact hno w x y z rest rfl

theorem padding_le (t : Bytes) : padding t ≤ 2 := by unfold padding; split <;> (try split) <;> omega

theorem decode_cases (t : Bytes) (hl : t.length ≤ b64Limit) (h4 : t.length % 4 = 0) (hne : t ≠ []) :
    (∃ o, decode t = .ok (o, o.length) ∧ o.length = t.length * 3 / 4 - padding t) ∧
        (∀ c ∈ t.take (t.length - padding t), c ∈ alphabet) ∨
    decode t = .fail ∧ ¬ (∀ c ∈ t.take (t.length - padding t), c ∈ alphabet) := by
  have h0 : t.length ≠ 0 := fun h => hne (List.length_eq_zero_iff.mp h)
  have hd : decode t = match decodeGroups (padding t) t with
      | none => .fail
      | some out => if out.length ≤ t.length * 3 / 4 - padding t then .ok (out, t.length * 3 / 4 - padding t) else .ub := by
    unfold decode
    rw [if_neg (by omega), if_neg (by omega), if_neg h0]
    rfl
  rcases decodeGroups_iff (padding t) (padding_le t) t h4 hne with ⟨⟨o, h1, h2⟩, h3⟩ | ⟨h1, h2⟩
  · left
    refine ⟨⟨o, ?_, h2⟩, h3⟩
    rw [hd, h1]
    simp only [h2, Nat.le_refl, if_true]
  · right
    refine ⟨?_, h2⟩
    rw [hd, h1]

end Verif.Base64
