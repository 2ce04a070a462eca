import Verif.Spec.Text

/-!
# Lemmas about numbers as text
-/

namespace Verif.Text

open Verif Verif.Value Verif.Spec.Text

theorem isspace_iff (b : UInt8) : isspace b = true ↔ Blank b := by
  simp only [isspace, Blank, Bool.or_eq_true, Bool.and_eq_true, decide_eq_true_eq, UInt8.le_iff_toNat_le,
    ← UInt8.toNat_inj, UInt8.reduceToNat]
  omega

theorem digit_iff (b : UInt8) (d : Nat) : (digitVal b = some d ∧ d < 16) ↔ digitOf b = some d := by
  have hb := b.toNat_lt
  simp only [digitVal, digitOf, UInt8.le_iff_toNat_le, UInt8.reduceToNat]
  by_cases h1 : 48 ≤ b.toNat ∧ b.toNat ≤ 57
  · rw [if_pos h1, if_pos h1]
    simp only [Option.some.injEq]
    omega
  · rw [if_neg h1, if_neg h1]
    by_cases h2 : 97 ≤ b.toNat ∧ b.toNat ≤ 122
    · rw [if_pos h2]
      by_cases h3 : 97 ≤ b.toNat ∧ b.toNat ≤ 102
      · rw [if_pos h3]
        simp only [Option.some.injEq]
        omega
      · rw [if_neg h3, if_neg (by omega)]
        simp only [Option.some.injEq, reduceCtorEq, iff_false]
        omega
    · rw [if_neg h2, if_neg (by omega : ¬ (97 ≤ b.toNat ∧ b.toNat ≤ 102))]
      by_cases h4 : 65 ≤ b.toNat ∧ b.toNat ≤ 90
      · rw [if_pos h4]
        by_cases h5 : 65 ≤ b.toNat ∧ b.toNat ≤ 70
        · rw [if_pos h5]
          simp only [Option.some.injEq]
          omega
        · rw [if_neg h5]
          simp only [Option.some.injEq, reduceCtorEq, iff_false]
          omega
      · rw [if_neg h4, if_neg (by omega)]
        simp

theorem isDigit_iff {base : Nat} (hb : base ≤ 16) (b : UInt8) :
    isDigit base b = true ↔ ∃ d, digitOf b = some d ∧ d < base := by
  unfold isDigit
  constructor
  · intro h
    cases hd : digitVal b with
    | none => rw [hd] at h; cases h
    | some d =>
      rw [hd] at h
      simp only [decide_eq_true_eq] at h
      exact ⟨d, (digit_iff b d).1 ⟨hd, by omega⟩, h⟩
  · rintro ⟨d, h1, h2⟩
    rw [((digit_iff b d).2 h1).1]
    simpa using h2

theorem scan_sound {base : Nat} (hb : base ≤ 16) : ∀ s a n, scan base a s = (n, []) →
    ∃ vs : List Nat, s.map digitOf = vs.map some ∧ (∀ v ∈ vs, v < base) ∧ n = vs.foldl (fun a v => a * base + v) a := by
  intro s
  induction s with
  | nil =>
    intro a n h
    simp only [scan, Prod.mk.injEq, and_true] at h
    exact ⟨[], rfl, by simp, by simp [h]⟩
  | cons b s ih =>
    intro a n h
    unfold scan at h
    cases hd : digitVal b with
    | none => rw [hd] at h; simp at h
    | some d =>
      rw [hd] at h
      simp only [] at h
      split at h
      · rename_i hlt
        obtain ⟨vs, h1, h2, h3⟩ := ih _ _ h
        have := (digit_iff b d).1 ⟨hd, by omega⟩
        exact ⟨d :: vs, by simp [this, h1], by simpa [hlt] using h2, by simpa using h3⟩
      · simp at h

theorem scan_complete {base : Nat} : ∀ s a (vs : List Nat), s.map digitOf = vs.map some → (∀ v ∈ vs, v < base) →
    scan base a s = (vs.foldl (fun a v => a * base + v) a, []) := by
  intro s
  induction s with
  | nil =>
    intro a vs h _
    cases vs with
    | nil => rfl
    | cons v vs => simp at h
  | cons b s ih =>
    intro a vs h hv
    cases vs with
    | nil => simp at h
    | cons v vs =>
      rw [List.map_cons, List.map_cons, List.cons.injEq] at h
      have hd := ((digit_iff b v).2 h.1).1
      unfold scan
      rw [hd]
      simp only [hv v List.mem_cons_self, if_true, List.foldl_cons]
      exact ih _ vs h.2 fun x hx => hv x (List.mem_cons_of_mem _ hx)

theorem numeral_head {base : Nat} {s : Bytes} {n : Nat} (h : Numeral base s n) (hb : base ≤ 16) :
    ∃ b r, s = b :: r ∧ isDigit base b = true := by
  obtain ⟨h1, vs, h2, h3, _⟩ := h
  cases s with
  | nil => exact absurd rfl h1
  | cons b r =>
    cases vs with
    | nil => simp at h2
    | cons v vs =>
      simp only [List.map_cons, List.cons.injEq] at h2
      exact ⟨b, r, rfl, (isDigit_iff hb b).2 ⟨v, h2.1, h3 v List.mem_cons_self⟩⟩

theorem scan_numeral {base : Nat} {s : Bytes} {n : Nat} (h : Numeral base s n) : scan base 0 s = (n, []) := by
  obtain ⟨_, vs, h2, h3, rfl⟩ := h
  exact scan_complete s 0 vs h2 h3

theorem numeral_scan {base : Nat} (hb : base ≤ 16) {s : Bytes} {n : Nat} (hs : s ≠ []) (h : scan base 0 s = (n, [])) :
    Numeral base s n := by
  obtain ⟨vs, h1, h2, h3⟩ := scan_sound hb s 0 n h
  exact ⟨hs, vs, h1, h2, h3⟩

theorem magnitude_iff (auto : Bool) (s : Bytes) (n : Nat) :
    magnitude auto s = some (n, []) ↔ Unsigned auto s n := by
  have plain : ∀ b r, (if isDigit 10 b then some (scan 10 0 (b :: r)) else none) = some (n, []) ↔ Numeral 10 (b :: r) n := by
    intro b r
    constructor
    · intro h
      split at h
      · exact numeral_scan (by omega) (by simp) (Option.some.inj h)
      · cases h
    · intro h
      obtain ⟨b', r', he, hd⟩ := numeral_head h (by omega)
      cases he
      rw [if_pos hd, scan_numeral h]
  have octal : ∀ r, some (scan 8 0 (48 :: r)) = some (n, []) ↔ Numeral 8 (48 :: r) n := by
    intro r
    constructor
    · intro h; exact numeral_scan (by omega) (by simp) (Option.some.inj h)
    · intro h; rw [scan_numeral h]
  cases auto with
  | false =>
    simp only [Unsigned, Bool.false_eq_true, if_false]
    cases s with
    | nil => simp [magnitude, Numeral]
    | cons b r =>
      have : magnitude false (b :: r) = if isDigit 10 b then some (scan 10 0 (b :: r)) else none := by
        unfold magnitude
        split <;> simp_all
      rw [this]
      exact plain b r
  | true =>
    simp only [Unsigned, if_true]
    cases s with
    | nil => simp [magnitude, Numeral]
    | cons b r =>
      by_cases hb : b = 48
      · subst hb
        have noX : ∀ x h, (x = 120 ∨ x = 88) → ¬ Numeral 8 (48 :: x :: h) n := by
          intro x h hx hN
          obtain ⟨_, vs, h2, _⟩ := hN
          rcases vs with _ | ⟨v, _ | ⟨w, vs⟩⟩
          · simp at h2
          · simp at h2
          · simp only [List.map_cons, List.cons.injEq] at h2
            have h3 := h2.2.1
            rcases hx with rfl | rfl <;> simp [digitOf] at h3
        match r with
        | [] =>
          have : magnitude true [48] = some (scan 8 0 [48]) := rfl
          rw [this, octal]
          constructor
          · intro h; exact Or.inr (Or.inl ⟨rfl, h⟩)
          · rintro (⟨x, h, hx, he, hN⟩ | ⟨_, h⟩ | ⟨h, _⟩)
            · simp at he
            · exact h
            · simp at h
        | [p] =>
          have : magnitude true [48, p] = some (scan 8 0 [48, p]) := rfl
          rw [this, octal]
          constructor
          · intro h; exact Or.inr (Or.inl ⟨rfl, h⟩)
          · rintro (⟨x, h, hx, he, hN⟩ | ⟨_, h⟩ | ⟨h, _⟩)
            · simp only [List.cons.injEq, true_and] at he
              exact absurd he.2.symm hN.1
            · exact h
            · simp at h
        | p :: d :: r =>
          have hm : magnitude true (48 :: p :: d :: r) =
              if (p = 120 ∨ p = 88) ∧ isDigit 16 d then some (scan 16 0 (d :: r)) else some (scan 8 0 (48 :: p :: d :: r)) :=
            rfl
          rw [hm]
          split
          · rename_i hc
            constructor
            · intro h
              exact Or.inl ⟨p, d :: r, hc.1, rfl, numeral_scan (by omega) (by simp) (Option.some.inj h)⟩
            · rintro (⟨x, h, hx, he, hN⟩ | ⟨_, h⟩ | ⟨h, _⟩)
              · simp only [List.cons.injEq, true_and] at he
                obtain ⟨_, rfl⟩ := he
                rw [scan_numeral hN]
              · exact absurd h (noX p _ hc.1)
              · simp at h
          · rename_i hc
            rw [octal]
            constructor
            · intro h; exact Or.inr (Or.inl ⟨rfl, h⟩)
            · rintro (⟨x, h, hx, he, hN⟩ | ⟨_, h⟩ | ⟨h, _⟩)
              · simp only [List.cons.injEq, true_and] at he
                obtain ⟨rfl, rfl⟩ := he
                obtain ⟨b', r', he, hd⟩ := numeral_head hN (by omega)
                cases he
                exact absurd ⟨hx, hd⟩ hc
              · exact h
              · simp at h
      · have : magnitude true (b :: r) = if isDigit 10 b then some (scan 10 0 (b :: r)) else none := by
          unfold magnitude
          split <;> simp_all
        rw [this, plain]
        constructor
        · intro h; exact Or.inr (Or.inr ⟨by simpa using hb, h⟩)
        · rintro (⟨x, h, hx, he, hN⟩ | ⟨h, _⟩ | ⟨_, h⟩)
          · simp only [List.cons.injEq] at he; exact absurd he.1 hb
          · simp only [List.head?_cons, Option.some.injEq] at h; exact absurd h hb
          · exact h

/-- The first byte of a number. -/
theorem unsigned_head {auto : Bool} {s : Bytes} {n : Nat} (h : Unsigned auto s n) :
    ∃ b r, s = b :: r ∧ b ≠ 45 ∧ b ≠ 43 ∧ isspace b = false := by
  have key : ∀ base, base ≤ 16 → ∀ b, isDigit base b = true → b ≠ 45 ∧ b ≠ 43 ∧ isspace b = false := by
    intro base hb b hd
    obtain ⟨d, h1, _⟩ := (isDigit_iff hb b).1 hd
    refine ⟨?_, ?_, ?_⟩
    · rintro rfl; simp [digitOf] at h1
    · rintro rfl; simp [digitOf] at h1
    · cases hs : isspace b with
      | false => rfl
      | true =>
        rcases (isspace_iff b).1 hs with rfl | rfl | rfl | rfl | rfl | rfl <;> simp [digitOf] at h1
  have fin : ∀ base, base ≤ 16 → Numeral base s n → ∃ b r, s = b :: r ∧ b ≠ 45 ∧ b ≠ 43 ∧ isspace b = false := by
    intro base hb hN
    obtain ⟨b, r, he, hd⟩ := numeral_head hN hb
    exact ⟨b, r, he, key base hb b hd⟩
  unfold Unsigned at h
  split at h
  · rcases h with ⟨x, h, hx, rfl, hN⟩ | ⟨_, h⟩ | ⟨_, h⟩
    · exact ⟨48, _, rfl, by decide, by decide, by decide⟩
    · exact fin 8 (by omega) h
    · exact fin 10 (by omega) h
  · exact fin 10 (by omega) h

/-- What `strto` converts. -/
theorem strto_iff (auto : Bool) (s : Bytes) (neg : Bool) (n : Nat) :
    strto auto s = some (neg, n, []) ↔ ∃ blanks sign digits, s = blanks ++ sign ++ digits ∧ (∀ c ∈ blanks, Blank c) ∧
      Unsigned auto digits n ∧ (if neg then sign = [45] else sign = [] ∨ sign = [43]) := by
  constructor
  · intro h
    unfold strto at h
    have hs : s = s.takeWhile isspace ++ s.dropWhile isspace := (List.takeWhile_append_dropWhile).symm
    have hb : ∀ c ∈ s.takeWhile isspace, Blank c := by
      intro c hc
      have : isspace c = true := by
        have := List.all_takeWhile (p := isspace) (l := s)
        exact List.all_eq_true.1 this c hc
      exact (isspace_iff c).1 this
    generalize s.takeWhile isspace = bl at hs hb
    generalize s.dropWhile isspace = t at hs h
    split at h
    · rename_i r
      simp only [Option.map_eq_some_iff, Prod.mk.injEq, Prod.exists] at h
      obtain ⟨a, b, h1, rfl, rfl, rfl⟩ := h
      exact ⟨bl, [45], r, by simp [hs], hb, (magnitude_iff _ _ _).1 h1, rfl⟩
    · rename_i r
      simp only [Option.map_eq_some_iff, Prod.mk.injEq, Prod.exists] at h
      obtain ⟨a, b, h1, rfl, rfl, rfl⟩ := h
      exact ⟨bl, [43], r, by simp [hs], hb, (magnitude_iff _ _ _).1 h1, Or.inr rfl⟩
    · simp only [Option.map_eq_some_iff, Prod.mk.injEq, Prod.exists] at h
      obtain ⟨a, b, h1, rfl, rfl, rfl⟩ := h
      exact ⟨bl, [], _, by rw [hs, List.append_nil], hb, (magnitude_iff _ _ _).1 h1, Or.inl rfl⟩
  · rintro ⟨bl, sg, ds, rfl, hb, hu, hg⟩
    have hd : ∀ t : Bytes, (∀ b r, t = b :: r → isspace b = false) → List.dropWhile isspace (bl ++ t) = t := by
      intro t ht
      rw [List.dropWhile_append_of_pos]
      · cases t with
        | nil => rfl
        | cons b r => rw [List.dropWhile_cons_of_neg (by simp [ht b r rfl])]
      · intro c hc; exact (isspace_iff c).2 (hb c hc)
    have hm := (magnitude_iff auto ds n).2 hu
    obtain ⟨b, r, hds, h1, h2, h3⟩ := unsigned_head hu
    unfold strto
    rw [List.append_assoc]
    cases neg with
    | true =>
      simp only [if_true] at hg
      subst hg
      rw [hd _ (by intro b r h; cases h; decide)]
      simp [hm]
    | false =>
      simp only [Bool.false_eq_true, if_false] at hg
      rcases hg with rfl | rfl
      · rw [List.nil_append, hd _ (by intro b' r' h; rw [hds] at h; cases h; exact h3), hds]
        split
        · rename_i h; cases h; exact absurd rfl h1
        · rename_i h; cases h; exact absurd rfl h2
        · rw [← hds, hm]; rfl
      · rw [hd _ (by intro b r h; cases h; decide)]
        simp [hm]

theorem strto_denotes {auto : Bool} {s : Bytes} {neg : Bool} {n : Nat} (h : strto auto s = some (neg, n, [])) :
    Denotes auto s (if neg then -(n : Int) else n) := by
  obtain ⟨bl, sg, ds, h1, h2, h3, h4⟩ := (strto_iff _ _ _ _).1 h
  refine ⟨bl, sg, ds, n, h1, h2, h3, ?_⟩
  cases neg with
  | true => exact Or.inr ⟨by simpa using h4, by simp⟩
  | false => exact Or.inl ⟨by simpa using h4, by simp⟩

theorem denotes_strto {auto : Bool} {s : Bytes} {z : Int} (h : Denotes auto s z) :
    ∃ neg n, strto auto s = some (neg, n, []) ∧ z = if neg then -(n : Int) else n := by
  obtain ⟨bl, sg, ds, n, h1, h2, h3, h4⟩ := h
  rcases h4 with ⟨h4, h5⟩ | ⟨h4, h5⟩
  · exact ⟨false, n, (strto_iff _ _ _ _).2 ⟨bl, sg, ds, h1, h2, h3, by simpa using h4⟩, by simp [h5]⟩
  · exact ⟨true, n, (strto_iff _ _ _ _).2 ⟨bl, sg, ds, h1, h2, h3, by simpa using h4⟩, by simp [h5]⟩

/-- The value of a sign and a magnitude. -/
def val (neg : Bool) (n : Nat) : Int := if neg then -n else n

theorem toSigned_spec (w : Nat) (neg : Bool) (n : Nat) :
    (toSigned w neg n = (val neg n, false) ∧ -2 ^ (w - 1) ≤ val neg n ∧ val neg n ≤ 2 ^ (w - 1) - 1) ∨
    (toSigned w neg n = (2 ^ (w - 1) - 1, true) ∧ 2 ^ (w - 1) - 1 < val neg n) ∨
    (toSigned w neg n = (-2 ^ (w - 1), true) ∧ val neg n < -2 ^ (w - 1)) := by
  show ((if val neg n > 2 ^ (w - 1) - 1 then ((2 : Int) ^ (w - 1) - 1, true)
    else if val neg n < -2 ^ (w - 1) then (-2 ^ (w - 1), true) else (val neg n, false)) = _ ∧ _) ∨ 
    ((if val neg n > 2 ^ (w - 1) - 1 then ((2 : Int) ^ (w - 1) - 1, true)
    else if val neg n < -2 ^ (w - 1) then (-2 ^ (w - 1), true) else (val neg n, false)) = _ ∧ _) ∨ 
    ((if val neg n > 2 ^ (w - 1) - 1 then ((2 : Int) ^ (w - 1) - 1, true)
    else if val neg n < -2 ^ (w - 1) then (-2 ^ (w - 1), true) else (val neg n, false)) = _ ∧ _)
  generalize (2 : Int) ^ (w - 1) = p
  generalize val neg n = x
  by_cases h1 : x > p - 1
  · simp only [if_pos h1]; exact Or.inr (Or.inl ⟨trivial, h1⟩)
  · by_cases h2 : x < -p
    · simp only [if_neg h1, if_pos h2]; exact Or.inr (Or.inr ⟨trivial, h2⟩)
    · simp only [if_neg h1, if_neg h2]; exact Or.inl ⟨trivial, by omega, by omega⟩

theorem parseSigned_iff {auto : Bool} {w : Nat} {lo hi : Int} (hlo : -2 ^ (w - 1) ≤ lo)
    (hhi : hi ≤ 2 ^ (w - 1) - 1) (s : Bytes) (v : Int) :
    parseSigned auto w lo hi s = some v ↔ Denotes auto s v ∧ lo ≤ v ∧ v ≤ hi := by
  have key : ∀ neg n, strto auto s = some (neg, n, []) →
      (parseSigned auto w lo hi s = some v ↔ (if neg then -(n : Int) else n) = v ∧ lo ≤ v ∧ v ≤ hi) := by
    intro neg n h
    unfold parseSigned
    rw [h]
    have hsp := toSigned_spec w neg n
    show _ ↔ val neg n = v ∧ _
    generalize val neg n = x at hsp
    generalize (2 : Int) ^ (w - 1) = p at *
    rcases hsp with ⟨h1, h2, h3⟩ | ⟨h1, h2⟩ | ⟨h1, h2⟩ <;> simp only [h1, ne_eq, not_true, if_false]
    · by_cases hc : x > hi ∨ x < lo
      · simp only [hc, Bool.false_eq_true, false_and, if_false, if_true, reduceCtorEq, false_iff]; omega
      · simp only [hc, Bool.false_eq_true, false_and, if_false, Option.some.injEq]; omega
    · simp; omega
    · simp; omega
  constructor
  · intro h
    cases hs : strto auto s with
    | none => simp [parseSigned, hs] at h
    | some x =>
      obtain ⟨neg, n, rest⟩ := x
      have hr : rest = [] := by
        cases rest with
        | nil => rfl
        | cons => simp [parseSigned, hs] at h
      subst hr
      obtain ⟨h1, h2⟩ := (key _ _ hs).1 h
      exact ⟨h1 ▸ strto_denotes hs, h2⟩
  · rintro ⟨h1, h2⟩
    obtain ⟨neg, n, h3, h4⟩ := denotes_strto h1
    exact (key _ _ h3).2 ⟨h4.symm, h2⟩

theorem parseUnsigned_iff {auto : Bool} {w : Nat} {hi : Int}
    (hhi : hi ≤ 2 ^ w - 1) (s : Bytes) (v : Int) :
    parseUnsigned auto w hi s = some v ↔ ∃ neg n, strto auto s = some (neg, n, []) ∧ n < 2 ^ w ∧ v ≤ hi ∧
      (v : Int) = (if neg then (2 ^ w - n) % 2 ^ w else n : Nat) ∧ (s.head? = some 45 → v = 0) := by
  have hp : 0 < 2 ^ w := Nat.two_pow_pos w
  have hhi' : hi ≤ ((2 ^ w : Nat) : Int) - 1 := by simpa using hhi
  have hsp : ∀ neg n, (n < 2 ^ w ∧ toUnsigned w neg n = (if neg then (2 ^ w - n) % 2 ^ w else n, false)) ∨
      (2 ^ w ≤ n ∧ toUnsigned w neg n = (2 ^ w - 1, true)) := by
    intro neg n
    unfold toUnsigned
    by_cases h : n > 2 ^ w - 1
    · rw [if_pos h]; exact Or.inr ⟨by omega, rfl⟩
    · rw [if_neg h]; exact Or.inl ⟨by omega, by split <;> rfl⟩
  have key : ∀ neg n, strto auto s = some (neg, n, []) →
      (parseUnsigned auto w hi s = some v ↔ n < 2 ^ w ∧ v ≤ hi ∧
        (v : Int) = (if neg then (2 ^ w - n) % 2 ^ w else n : Nat) ∧ (s.head? = some 45 → v = 0)) := by
    intro neg n h
    unfold parseUnsigned
    rw [h]
    rcases hsp neg n with ⟨h1, h2⟩ | ⟨h1, h2⟩ <;> simp only [h2, ne_eq, not_true, if_false]
    · generalize (if neg then (2 ^ w - n) % 2 ^ w else n : Nat) = x
      by_cases hc : s.head? = some 45 ∧ ¬ x = 0
      · simp only [hc, true_and, not_false_eq_true, if_true, reduceCtorEq, false_iff]
        rintro ⟨_, _, h3, h4⟩
        have := h4 trivial
        omega
      · simp only [hc, if_false, Bool.false_eq_true, false_and]
        by_cases hc2 : (x : Int) > hi
        · simp only [hc2, if_true, reduceCtorEq, false_iff]; omega
        · simp only [hc2, if_false, Option.some.injEq]
          constructor
          · rintro rfl
            refine ⟨h1, by omega, rfl, ?_⟩
            intro h5
            have : x = 0 := by
              by_cases hx : x = 0
              · exact hx
              · exact absurd ⟨h5, hx⟩ hc
            simp [this]
          · rintro ⟨_, _, h3, _⟩
            exact h3.symm
    · simp; omega
  constructor
  · intro h
    cases hs : strto auto s with
    | none => simp [parseUnsigned, hs] at h
    | some x =>
      obtain ⟨neg, n, rest⟩ := x
      have hr : rest = [] := by
        cases rest with
        | nil => rfl
        | cons => simp [parseUnsigned, hs] at h
      subst hr
      exact ⟨neg, n, rfl, (key _ _ hs).1 h⟩
  · rintro ⟨neg, n, h1, h2⟩
    exact (key _ _ h1).2 h2

/-- The digits of a number. -/
theorem digitOf_digitChar (d : Nat) (h : d < 16) : digitOf (UInt8.ofNat (Nat.digitChar d).toNat) = some d := by
  have : ∀ d : Fin 16, digitOf (UInt8.ofNat (Nat.digitChar d.1).toNat) = some d.1 := by decide
  exact this ⟨d, h⟩

theorem toDigits_numeral {base : Nat} (hb : 1 < base) (hb2 : base ≤ 16) (n : Nat) :
    Numeral base ((Nat.toDigits base n).map fun c => UInt8.ofNat c.toNat) n := by
  induction n using Nat.strongRecOn with
  | ind n ih =>
    rw [Nat.toDigits_eq_if hb]
    split
    · rename_i h
      refine ⟨by simp, [n], ?_, by simpa using h, by simp [number]⟩
      simp [digitOf_digitChar n (by omega)]
    · rename_i h
      obtain ⟨h1, vs, h2, h3, h4⟩ := ih (n / base) (Nat.div_lt_self (by omega) hb)
      have hm : n % base < base := Nat.mod_lt _ (by omega)
      refine ⟨by simp, vs ++ [n % base], ?_, ?_, ?_⟩
      · rw [List.map_append, List.map_append, h2, List.map_append]
        simp [digitOf_digitChar (n % base) (by omega)]
      · intro v hv
        rcases List.mem_append.1 hv with hv | hv
        · exact h3 v hv
        · simp only [List.mem_singleton] at hv; omega
      · unfold number at h4 ⊢
        rw [List.foldl_append, ← h4]
        simp only [List.foldl_cons, List.foldl_nil]
        exact (Nat.div_add_mod' n base).symm

theorem decimal_numeral (n : Nat) : Numeral 10 (Element.decimal n) n := toDigits_numeral (by omega) (by omega) n

theorem decimal_zero : Element.decimal 0 = [48] := by simp [Element.decimal]

/-- The first digit of a number that is not zero. -/
theorem decimal_head {n : Nat} (h : n ≠ 0) : (Element.decimal n).head? ≠ some 48 := by
  induction n using Nat.strongRecOn with
  | ind n ih =>
    unfold Element.decimal
    rw [Nat.toDigits_eq_if (by omega)]
    split
    · rename_i hlt
      have : ∀ d : Fin 10, d.1 ≠ 0 → ([Nat.digitChar d.1].map fun c => UInt8.ofNat c.toNat).head? ≠ some 48 := by decide
      exact this ⟨n, hlt⟩ h
    · rename_i hlt
      have h := ih (n / 10) (Nat.div_lt_self (by omega) (by omega)) (by omega)
      have hne := (decimal_numeral (n / 10)).1
      unfold Element.decimal at h hne
      rw [List.map_append]
      cases hd : (Nat.toDigits 10 (n / 10)).map fun c => UInt8.ofNat c.toNat with
      | nil => exact absurd hd hne
      | cons a l => rw [hd] at h; simpa using h

theorem decimal_unsigned (auto : Bool) (n : Nat) : Unsigned auto (Element.decimal n) n := by
  unfold Unsigned
  split
  · by_cases h : n = 0
    · subst h
      rw [decimal_zero]
      exact Or.inr (Or.inl ⟨rfl, by simp, [0], by simp [digitOf], by simp, rfl⟩)
    · exact Or.inr (Or.inr ⟨decimal_head h, decimal_numeral n⟩)
  · exact decimal_numeral n

theorem signed_denotes (auto : Bool) (v : Int) : Denotes auto (signedText v) v := by
  unfold signedText
  split
  · exact ⟨[], [45], _, v.natAbs, rfl, by simp, decimal_unsigned _ _, Or.inr ⟨rfl, by omega⟩⟩
  · exact ⟨[], [], _, v.natAbs, rfl, by simp, decimal_unsigned _ _, Or.inl ⟨Or.inl rfl, by omega⟩⟩

theorem unsigned_denotes (auto : Bool) (n : Nat) : Denotes auto (Element.decimal n) n :=
  ⟨[], [], _, n, rfl, by simp, decimal_unsigned _ _, Or.inl ⟨Or.inl rfl, rfl⟩⟩

theorem hexByte_length (b : UInt8) : (hexByte b).length = 2 := rfl

theorem hex_length (s : Bytes) : (s.flatMap hexByte).length = 2 * s.length := by
  induction s with
  | nil => rfl
  | cons a l ih => rw [List.flatMap_cons, List.length_append, ih, hexByte_length, List.length_cons]; omega

/-- A value of an integer type. -/
def put : IntTy → Int → Value.Scalar
  | .int8, v => .int8 (BitVec.ofInt _ v)
  | .uint8, v => .uint8 (BitVec.ofInt _ v)
  | .int16, v => .int16 (BitVec.ofInt _ v)
  | .uint16, v => .uint16 (BitVec.ofInt _ v)
  | .int32, v => .int32 (BitVec.ofInt _ v)
  | .uint32, v => .uint32 (BitVec.ofInt _ v)
  | .int64, v => .int64 (BitVec.ofInt _ v)
  | .uint64, v => .uint64 (BitVec.ofInt _ v)

theorem set_iff {w : Nat} (ty : IntTy) {s : Bytes} {v : Value.Scalar} :
    setFromString w (tyOf ty) s = some v ↔ ∃ z, parse w ty s = some z ∧ v = put ty z := by
  cases ty <;> simp only [setFromString, tyOf, Option.map_eq_some_iff, put] <;>
    exact ⟨fun ⟨z, a, b⟩ => ⟨z, a, b.symm⟩, fun ⟨z, a, b⟩ => ⟨z, a, b.symm⟩⟩

theorem held_put {ty : IntTy} {z : Int} (h1 : least ty ≤ z) (h2 : z ≤ greatest ty) : held ty (put ty z) = some z := by
  cases ty <;> simp only [least, greatest] at h1 h2 <;>
    simp only [put, held, Option.some.injEq, BitVec.toInt_ofInt, BitVec.toNat_ofInt, Int.bmod_def] <;> omega

theorem blankMinus_of {auto : Bool} {s : Bytes} {n : Nat} (h : strto auto s = some (true, n, []))
    (hs : s.head? ≠ some 45) : BlankMinus s := by
  obtain ⟨bl, sg, ds, h1, h2, h3, h4⟩ := (strto_iff _ _ _ _).1 h
  simp only [if_true] at h4
  subst h4
  refine ⟨bl, ds, by rw [h1]; simp, ?_, h2⟩
  rintro rfl
  rw [h1] at hs
  exact hs rfl

theorem parseUnsigned_denotes {auto : Bool} {w : Nat} {hi : Int} (hhi : hi ≤ 2 ^ w - 1) (s : Bytes) (v : Int)
    (hs : ¬ BlankMinus s) : parseUnsigned auto w hi s = some v ↔ Denotes auto s v ∧ 0 ≤ v ∧ v ≤ hi := by
  rw [parseUnsigned_iff hhi]
  have hp : 0 < 2 ^ w := Nat.two_pow_pos w
  have hhi' : hi ≤ ((2 ^ w : Nat) : Int) - 1 := by simpa using hhi
  constructor
  · rintro ⟨neg, n, h1, h2, h3, h4, h5⟩
    have hd := strto_denotes h1
    cases neg with
    | false =>
      simp only [Bool.false_eq_true, if_false] at h4 hd
      rw [h4]
      exact ⟨hd, by omega, by omega⟩
    | true =>
      simp only [if_true] at h4 hd
      have hh : s.head? = some 45 := by
        by_cases hh : s.head? = some 45
        · exact hh
        · exact absurd (blankMinus_of h1 hh) hs
      have hv := h5 hh
      have hn : n = 0 := by
        by_cases hn : n = 0
        · exact hn
        · rw [Nat.mod_eq_of_lt (by omega)] at h4; omega
      subst hn
      subst hv
      exact ⟨by simpa using hd, by omega, by omega⟩
  · rintro ⟨h1, h2, h3⟩
    obtain ⟨neg, n, h4, h5⟩ := denotes_strto h1
    refine ⟨neg, n, h4, ?_⟩
    cases neg with
    | false =>
      simp only [Bool.false_eq_true, if_false] at h5 ⊢
      refine ⟨by omega, h3, h5, ?_⟩
      intro hh
      exfalso
      obtain ⟨bl, sg, ds, g1, g2, g3, g4⟩ := (strto_iff _ _ _ _).1 h4
      obtain ⟨b, r, e1, e2, e3, e4⟩ := unsigned_head g3
      cases bl with
      | cons c l =>
        rw [g1] at hh
        simp only [List.cons_append, List.head?_cons, Option.some.injEq] at hh
        have := g2 c (by simp)
        subst hh
        simp [Blank] at this
      | nil =>
        simp only [Bool.false_eq_true, if_false] at g4
        rcases g4 with rfl | rfl <;> rw [g1] at hh
        · rw [e1] at hh; simp at hh; exact e2 hh
        · simp at hh
    | true =>
      simp only [if_true] at h5 ⊢
      have : n = 0 := by omega
      subst this
      refine ⟨by omega, h3, by simpa using h5, fun _ => by simpa using h5⟩

theorem parse_iff {w : Nat} (hw : w = 32 ∨ w = 64) (ty : IntTy) (s : Bytes) (z : Int)
    (hs : noSign ty = true → ¬ BlankMinus s) :
    parse w ty s = some z ↔ Denotes (prefixes ty) s z ∧ least ty ≤ z ∧ z ≤ greatest ty := by
  rcases hw with rfl | rfl <;> cases ty <;> unfold parse <;>
    first
    | exact parseSigned_iff (by omega) (by omega) s z
    | exact parseUnsigned_denotes (by omega) s z (hs rfl)

theorem unsigned_unique {auto : Bool} {s : Bytes} {n m : Nat} (h1 : Unsigned auto s n) (h2 : Unsigned auto s m) :
    n = m := by
  have := (magnitude_iff _ _ _).2 h1
  rw [(magnitude_iff _ _ _).2 h2] at this
  simpa using this.symm

theorem denotes_unique {auto : Bool} {s : Bytes} {x y : Int} (h1 : Denotes auto s x) (h2 : Denotes auto s y) : x = y := by
  obtain ⟨a, n, h3, rfl⟩ := denotes_strto h1
  obtain ⟨b, m, h4, rfl⟩ := denotes_strto h2
  rw [h3] at h4
  cases h4
  rfl

/-- Numbers of the type are accepted, also by types without sign after blanks and a minus sign (zero). -/
theorem parse_complete {w : Nat} (hw : w = 32 ∨ w = 64) (ty : IntTy) (s : Bytes) (z : Int)
    (h : Denotes (prefixes ty) s z) (h1 : least ty ≤ z) (h2 : z ≤ greatest ty) : parse w ty s = some z := by
  by_cases hs : noSign ty = true → ¬ BlankMinus s
  · exact (parse_iff hw ty s z hs).2 ⟨h, h1, h2⟩
  · have hu : ∀ w hi, 0 ≤ z → z ≤ hi → hi ≤ 2 ^ w - 1 → BlankMinus s → parseUnsigned (prefixes ty) w hi s = some z := by
      intro w hi h0 h2 hhi hb
      have hp : 0 < 2 ^ w := Nat.two_pow_pos w
      have hhi' : hi ≤ ((2 ^ w : Nat) : Int) - 1 := by simpa using hhi
      obtain ⟨neg, n, h3, h4⟩ := denotes_strto h
      refine (parseUnsigned_iff hhi s z).2 ⟨neg, n, h3, ?_⟩
      have hh : s.head? ≠ some 45 := by
        obtain ⟨b, r, e1, e2, e3⟩ := hb
        cases b with
        | nil => exact absurd rfl e2
        | cons c l =>
          rw [e1]
          intro e
          simp only [List.cons_append, List.head?_cons, Option.some.injEq] at e
          have := e3 c (by simp)
          subst e
          simp [Blank] at this
      cases neg with
      | false =>
        simp only [Bool.false_eq_true, if_false] at h4 ⊢
        exact ⟨by omega, h2, h4, fun e => absurd e hh⟩
      | true =>
        simp only [if_true] at h4 ⊢
        have : n = 0 := by omega
        subst this
        exact ⟨by omega, h2, by simpa using h4, fun e => absurd e hh⟩
    simp only [Classical.not_imp, Classical.not_not] at hs
    obtain ⟨hn, hb⟩ := hs
    rcases hw with rfl | rfl <;> cases ty <;> first | exact absurd hn (by decide) | exact hu _ _ h1 h2 (by omega) hb

end Verif.Text
