import Verif.Spec.FloatText
import Verif.Proof.Compare
import Verif.Proof.Text

/-!
# Lemmas for floating-point numbers as text
-/

namespace Verif.FloatText

open Verif Verif.Value Verif.Text Verif.DateText

/-! ## Digits -/

theorem Digits.snoc {s : Bytes} {n v : Nat} (h : Digits s n) (hv : v < 10) :
    Digits (s ++ [UInt8.ofNat (48 + v)]) (n * 10 + v) := by
  obtain ⟨vs, h1, h2, h3⟩ := h
  refine ⟨vs ++ [v], by simp [h1], ?_, by rw [List.foldl_append, ← h3]; rfl⟩
  intro x hx
  rcases List.mem_append.1 hx with hx | hx
  · exact h2 x hx
  · simp only [List.mem_singleton] at hx; omega

theorem digitChar_digit (d : Nat) (h : d < 10) : UInt8.ofNat (Nat.digitChar d).toNat = UInt8.ofNat (48 + d) := by
  have : ∀ d : Fin 10, UInt8.ofNat (Nat.digitChar d.1).toNat = UInt8.ofNat (48 + d.1) := by decide
  exact this ⟨d, h⟩

theorem decimal_digits (n : Nat) : Digits (Element.decimal n) n := by
  unfold Element.decimal
  induction n using Nat.strongRecOn with
  | ind n ih =>
    rw [Nat.toDigits_eq_if (by omega)]
    split
    · rename_i h
      refine ⟨[n], by simp [digitChar_digit n h], by simpa using h, by simp⟩
    · rename_i h
      have := (ih (n / 10) (by omega)).snoc (v := n % 10) (by omega)
      rw [Nat.div_add_mod' n 10] at this
      rw [List.map_append, List.map_cons, List.map_nil, digitChar_digit _ (by omega)]
      exact this

theorem decimal_ne (n : Nat) : Element.decimal n ≠ [] := (Text.decimal_numeral n).1

theorem padded_digits {d : Bytes} {a : Nat} (h : Digits d a) : ∀ (p r : Nat), r < 10 ^ p →
    Digits (d ++ padded p r) (a * 10 ^ p + r)
  | 0, r, hr => by
    have : r = 0 := by simpa using hr
    subst this
    simpa [padded] using h
  | p + 1, r, hr => by
    have hr' : r / 10 < 10 ^ p := by rw [Nat.pow_succ] at hr; omega
    have := (padded_digits h p (r / 10) hr').snoc (v := r % 10) (by omega)
    rw [List.append_assoc] at this
    have e : (a * 10 ^ p + r / 10) * 10 + r % 10 = a * 10 ^ (p + 1) + r := by
      rw [Nat.pow_succ, ← Nat.mul_assoc]; omega
    rw [e] at this
    exact this

theorem padded_length : ∀ (p r : Nat), r < 10 ^ p → (padded p r).length = p
  | 0, r, hr => by
    have : r = 0 := by simpa using hr
    subst this; rfl
  | p + 1, r, hr => by
    have hr' : r / 10 < 10 ^ p := by rw [Nat.pow_succ] at hr; omega
    simp [padded, padded_length p _ hr']

theorem digit_isDec {v : Nat} (h : v < 10) : isDec (UInt8.ofNat (48 + v)) = true := by
  have : ∀ d : Fin 10, isDec (UInt8.ofNat (48 + d.1)) = true := by decide
  exact this ⟨v, h⟩

theorem digit_toNat {v : Nat} (h : v < 10) : (UInt8.ofNat (48 + v)).toNat - 48 = v := by
  have : ∀ d : Fin 10, (UInt8.ofNat (48 + d.1)).toNat - 48 = d.1 := by decide
  exact this ⟨v, h⟩

theorem Digits.isDec {s : Bytes} {n : Nat} (h : Digits s n) : ∀ c ∈ s, isDec c = true := by
  obtain ⟨vs, rfl, h2, _⟩ := h
  intro c hc
  obtain ⟨v, hv, rfl⟩ := List.mem_map.1 hc
  exact digit_isDec (h2 v hv)

theorem Digits.number {s : Bytes} {n : Nat} (h : Digits s n) : number s = n := by
  obtain ⟨vs, rfl, h2, rfl⟩ := h
  unfold FloatText.number
  generalize 0 = a
  induction vs generalizing a with
  | nil => rfl
  | cons v vs ih =>
    rw [List.map_cons, List.foldl_cons, List.foldl_cons, digit_toNat (h2 v List.mem_cons_self)]
    exact ih (fun x hx => h2 x (List.mem_cons_of_mem _ hx)) _

/-! ## Reading -/

/-- What follows does not begin with a digit. -/
def Ends (r : Bytes) : Prop := ∀ c t, r = c :: t → isDec c = false

theorem take_digits {s r : Bytes} (hs : ∀ c ∈ s, isDec c = true) (hr : Ends r) :
    (s ++ r).takeWhile isDec = s ∧ (s ++ r).dropWhile isDec = r := by
  induction s with
  | nil =>
    cases r with
    | nil => exact ⟨rfl, rfl⟩
    | cons c t => simp [hr c t rfl]
  | cons c s ih =>
    have := ih fun x hx => hs x (List.mem_cons_of_mem _ hx)
    simp [hs c List.mem_cons_self, this.1, this.2]

theorem ends_nil : Ends [] := fun _ _ h => by cases h

theorem digit_not_sign {c : UInt8} (h : isDec c = true) : c ≠ 45 ∧ c ≠ 43 ∧ c ≠ 46 ∧ isspace c = false := by
  have : ∀ n : Fin 256, isDec (UInt8.ofNat n.1) = true →
      UInt8.ofNat n.1 ≠ 45 ∧ UInt8.ofNat n.1 ≠ 43 ∧ UInt8.ofNat n.1 ≠ 46 ∧ isspace (UInt8.ofNat n.1) = false := by
    decide +kernel
  have h2 := this ⟨c.toNat, c.toNat_lt⟩
  simp only [UInt8.ofNat_toNat] at h2
  exact h2 h

theorem exponent_some {c : UInt8} {sg ds : Bytes} {up : Bool} {e : Nat} (hc : c = 101 ∨ c = 69) (hs : Sign sg up)
    (hd : ds ≠ []) (hn : Digits ds e) : exponent (c :: (sg ++ ds)) = some (up, e, []) := by
  have ht := take_digits hn.isDec ends_nil
  rw [List.append_nil] at ht
  unfold exponent
  simp only [hc, if_true]
  rcases hs with ⟨rfl, rfl⟩ | ⟨rfl, rfl⟩ | ⟨rfl, rfl⟩
  · obtain ⟨d, ds, rfl⟩ := List.exists_cons_of_ne_nil hd
    obtain ⟨h1, h2, _⟩ := digit_not_sign (hn.isDec d List.mem_cons_self)
    simp only [List.nil_append]
    split
    · rename_i heq; cases heq; exact absurd rfl h1
    · rename_i heq; cases heq; exact absurd rfl h2
    · rw [ht.1, ht.2, if_neg hd, hn.number]
  · simp only [List.cons_append, List.nil_append]
    rw [ht.1, ht.2, if_neg hd, hn.number]
  · simp only [List.cons_append, List.nil_append]
    rw [ht.1, ht.2, if_neg hd, hn.number]

theorem decimals_mantissa {m ex : Bytes} {a k : Nat} (hm : Mantissa m a k) (hex : Ends ex)
    (hp : ∀ t, ex ≠ 46 :: t) :
    decimals (m ++ ex) = match exponent ex with
      | some (false, e, r) => some (a * 10 ^ e, 10 ^ k, r)
      | some (true, e, r) => some (a, 10 ^ k * 10 ^ e, r)
      | none => some (a, 10 ^ k, ex) := by
  obtain ⟨ip, fp, hm, hne, hd, rfl⟩ := hm
  have hip : ∀ c ∈ ip, isDec c = true := fun c hc => hd.isDec c (List.mem_append_left _ hc)
  have hfp : ∀ c ∈ fp, isDec c = true := fun c hc => hd.isDec c (List.mem_append_right _ hc)
  have hne' : ¬(ip = [] ∧ fp = []) := fun h => hne (by rw [h.1, h.2]; rfl)
  unfold decimals
  rcases hm with rfl | ⟨rfl, rfl⟩
  · have h1 := take_digits (r := 46 :: (fp ++ ex)) hip fun c t h => by cases h; decide
    have h2 := take_digits hfp hex
    have e : ip ++ 46 :: fp ++ ex = ip ++ 46 :: (fp ++ ex) := by simp
    rw [e]
    simp only [h1.1, h1.2, h2.1, h2.2, if_neg hne', hd.number]
    rfl
  · have h1 := take_digits hip hex
    simp only [h1.1, h1.2]
    have hne'' : ¬(m = [] ∧ True) := fun h => hne' ⟨h.1, rfl⟩
    have hd' := hd.number
    simp only [if_neg hne'', hd']
    rfl

theorem strtod_head {c : UInt8} (hc : isDec c = true ∨ c = 46) (p : Bytes) (s : Bytes)
    (hp : p.head? = some 105 ∨ p.head? = some 110) : isPrefixI p (c :: s) = false := by
  have hl : lower c ≠ 105 ∧ lower c ≠ 110 := by
    have : ∀ n : Fin 256, isDec (UInt8.ofNat n.1) = true ∨ UInt8.ofNat n.1 = 46 →
        lower (UInt8.ofNat n.1) ≠ 105 ∧ lower (UInt8.ofNat n.1) ≠ 110 := by
      decide +kernel
    have h2 := this ⟨c.toNat, c.toNat_lt⟩
    simp only [UInt8.ofNat_toNat] at h2
    exact h2 hc
  cases p with
  | nil => rcases hp with hp | hp <;> cases hp
  | cons b p =>
    unfold isPrefixI
    rw [List.length_cons, List.take_succ_cons, List.map_cons]
    refine decide_eq_false fun h => ?_
    injection h with h _
    rcases hp with hp | hp <;> injection hp with hp
    · exact hl.1 (h.trans hp)
    · exact hl.2 (h.trans hp)

theorem drop_blanks {bl s : Bytes} (hb : ∀ c ∈ bl, c = 32 ∨ 9 ≤ c ∧ c ≤ 13)
    (hs : ∀ c t, s = c :: t → isspace c = false) : (bl ++ s).dropWhile isspace = s := by
  induction bl with
  | nil =>
    cases s with
    | nil => rfl
    | cons c t => simp [hs c t rfl]
  | cons c bl ih =>
    have h1 : isspace c = true := by
      rcases hb c List.mem_cons_self with rfl | ⟨h1, h2⟩
      · rfl
      · simp [isspace, h1, h2]
    rw [List.cons_append, List.dropWhile_cons, h1, if_pos rfl]
    exact ih fun x hx => hb x (List.mem_cons_of_mem _ hx)

theorem Mantissa.head {m : Bytes} {a k : Nat} (h : Mantissa m a k) :
    ∃ c t, m = c :: t ∧ (isDec c = true ∨ c = 46) := by
  obtain ⟨ip, fp, hm, hne, hd, rfl⟩ := h
  cases ip with
  | nil =>
    rcases hm with rfl | ⟨rfl, rfl⟩
    · exact ⟨_, _, rfl, .inr rfl⟩
    · exact absurd rfl hne
  | cons c ip =>
    have := hd.isDec c (by simp)
    rcases hm with rfl | ⟨rfl, rfl⟩
    · exact ⟨_, _, rfl, .inl this⟩
    · exact ⟨_, _, rfl, .inl this⟩

theorem strtod_notation {s : Bytes} {neg : Bool} {num den : Nat} (h : Notation s neg num den) :
    strtod s = some (.frac neg num den, []) := by
  obtain ⟨bl, sg, m, ex, a, k, rfl, hb, hsg, hm, hx⟩ := h
  obtain ⟨c, t, rfl, hc⟩ := hm.head
  have hns : c ≠ 45 ∧ c ≠ 43 ∧ isspace c = false := by
    rcases hc with hc | rfl
    · exact ⟨(digit_not_sign hc).1, (digit_not_sign hc).2.1, (digit_not_sign hc).2.2.2⟩
    · decide
  have hdec : decimals ((c :: t) ++ ex) = some (num, den, []) := by
    rcases hx with ⟨rfl, rfl, rfl⟩ | ⟨x, sg', ds, up, e, rfl, hx, hs', hne, hd, hv⟩
    · rw [decimals_mantissa hm ends_nil (by simp)]
      rfl
    · rw [decimals_mantissa hm, exponent_some hx hs' hne hd]
      · cases up
        · simp only [Bool.false_eq_true, if_false] at hv
          rw [hv.1, hv.2]
        · simp only [if_true] at hv
          rw [hv.1, hv.2]
      · intro c t h; cases h; rcases hx with rfl | rfl <;> decide
      · intro t h; cases h; rcases hx with hx | hx <;> exact absurd hx (by decide)
  have hspace : ∀ d t', sg ++ ((c :: t) ++ ex) = d :: t' → isspace d = false := by
    intro d t' h
    rcases hsg with ⟨rfl, _⟩ | ⟨rfl, _⟩ | ⟨rfl, _⟩
    · cases h; exact hns.2.2
    · cases h; rfl
    · cases h; rfl
  have key : ∀ neg : Bool, (if isPrefixI [105, 110, 102, 105, 110, 105, 116, 121] ((c :: t) ++ ex)
        then some (Lit.inf neg, ((c :: t) ++ ex).drop 8)
      else if isPrefixI [105, 110, 102] ((c :: t) ++ ex) then some (.inf neg, ((c :: t) ++ ex).drop 3)
      else if isPrefixI [110, 97, 110] ((c :: t) ++ ex) then some (.nan neg, ((c :: t) ++ ex).drop 3)
      else (decimals ((c :: t) ++ ex)).map fun (num, den, r) => (.frac neg num den, r)) =
      some (.frac neg num den, []) := by
    intro neg
    rw [hdec, List.cons_append, strtod_head hc _ _ (.inl rfl), strtod_head hc _ _ (.inl rfl),
      strtod_head hc _ _ (.inr rfl)]
    rfl
  unfold strtod
  rw [drop_blanks hb hspace]
  rcases hsg with ⟨rfl, rfl⟩ | ⟨rfl, rfl⟩ | ⟨rfl, rfl⟩
  · rw [List.nil_append]
    split
    rename_i heq
    split at heq
    · rename_i h; cases h; exact absurd rfl hns.1
    · rename_i h; cases h; exact absurd rfl hns.2.1
    · cases heq; exact key false
  · exact key false
  · exact key true

/-! ## Writing -/

theorem divRound_close (a b : Nat) (hb : 0 < b) :
    2 * ((a : Int) - divRound a b * b).natAbs ≤ b := by
  unfold divRound
  have h := Nat.div_add_mod' a b
  have hr := Nat.mod_lt a hb
  generalize a / b = q at *
  generalize a % b = r at *
  subst h
  simp only
  split
  · rename_i h
    have : (((q * b + r : Nat) : Int) - ((q + 1 : Nat) : Int) * b) = (r : Int) - b := by
      push_cast; rw [Int.add_mul]; omega
    rw [this]; omega
  · rename_i h
    have : (((q * b + r : Nat) : Int) - (q : Int) * b) = (r : Int) := by push_cast; omega
    rw [this]; omega

theorem divRound_exact (c b : Nat) (hb : 0 < b) : divRound (c * b) b = c := by
  unfold divRound
  simp only [Nat.mul_mod_left, Nat.mul_div_cancel _ hb]
  rw [if_neg (by omega)]

/-- What is printed for a number of units of the last digit. -/
theorem fixed_mantissa (p q : Nat) : Mantissa (fixed p q) q p := by
  have hr : q % 10 ^ p < 10 ^ p := Nat.mod_lt _ (Nat.pow_pos (by decide))
  refine ⟨Element.decimal (q / 10 ^ p), padded p (q % 10 ^ p), .inl (by simp [fixed]), ?_, ?_, padded_length p _ hr⟩
  · intro h; exact decimal_ne _ (List.append_eq_nil_iff.1 h).1
  · have := padded_digits (decimal_digits (q / 10 ^ p)) p _ hr
    rw [Nat.div_add_mod'] at this
    exact this

theorem text_notation {F : Format} {b : BitVec F.width} {n : Int} (h : F.val b = .fin n) :
    Notation (text F b) (signBit b) (divRound (n.natAbs * 10 ^ F.digits) scale) (10 ^ F.digits) := by
  unfold text
  simp only [h]
  refine ⟨_, if signBit b then [45] else [], _, [], _, _, by rw [List.append_nil], ?_, ?_, fixed_mantissa _ _, .inl ⟨rfl, rfl, rfl⟩⟩
  · intro c hc; exact .inl (List.eq_of_mem_replicate hc)
  · unfold Sign
    cases signBit b <;> simp

/-- The sign bit is the sign. -/
def Signed (F : Format) : Prop := ∀ b n, F.val b = .fin n → n = signed (signBit b) n.natAbs

theorem signed_distance {n : Int} {neg : Bool} (h : n = signed neg n.natAbs) (q den : Nat) :
    distance n (signed neg q) den = ((n.natAbs * den : Nat) - (q : Int) * scale).natAbs := by
  unfold distance
  generalize n.natAbs = a at *
  subst h
  cases neg
  · simp only [signed, Bool.false_eq_true, if_false]
    push_cast; rfl
  · simp only [signed, if_true]
    rw [Int.neg_mul, Int.neg_mul, ← Int.natAbs_neg]
    congr 1
    push_cast; omega

theorem text_close {F : Format} (hF : Signed F) {b : BitVec F.width} {n : Int} (h : F.val b = .fin n) :
    2 * distance n (signed (signBit b) (divRound (n.natAbs * 10 ^ F.digits) scale)) (10 ^ F.digits) ≤ scale := by
  rw [signed_distance (hF b n h)]
  exact divRound_close _ _ (by have := scale_pos; omega)

/-- Reading what is written gives a number at least as near to the text as the original. -/
theorem read_back {F : Format} (hF : Signed F) {tiny : Nat} {rnd : Rounding F} (hc : Correct F tiny rnd)
    (ht : tiny * 10 ^ F.digits ≤ scale) {b : BitVec F.width} {n : Int} (h : F.val b = .fin n) {hi : Nat}
    (hhi : F.Number hi) (hle : divRound (n.natAbs * 10 ^ F.digits) scale * scale ≤ hi * 10 ^ F.digits)
    (hq : divRound (n.natAbs * 10 ^ F.digits) scale ≠ 0 ∨ n = 0) :
    ∃ b' m, fromText F rnd (text F b) = some b' ∧ F.val b' = .fin m ∧
      distance m (signed (signBit b) (divRound (n.natAbs * 10 ^ F.digits) scale)) (10 ^ F.digits) ≤
        distance n (signed (signBit b) (divRound (n.natAbs * 10 ^ F.digits) scale)) (10 ^ F.digits) := by
  unfold fromText
  rw [strtod_notation (text_notation h)]
  generalize divRound (n.natAbs * 10 ^ F.digits) scale = q at *
  have hp : 0 < 10 ^ F.digits := Nat.pow_pos (by decide)
  by_cases h0 : q = 0
  · subst h0
    obtain ⟨h1, h2⟩ := hc.zero (signBit b) _ hp
    simp only [h1]
    refine ⟨_, 0, rfl, h2, ?_⟩
    rcases hq with hq | rfl
    · exact absurd rfl hq
    · exact Nat.le_refl _
  · have h3 : scale ≤ q * scale := Nat.le_mul_of_pos_left _ (by omega)
    obtain ⟨h1, m, h2, h4⟩ := hc.nearest (signBit b) q _ hi hp hhi (by omega) hle
    simp only [h1]
    exact ⟨_, m, rfl, h2, h4 n ⟨b, h⟩⟩

/-! ## The way back -/

/-- What the two types have in common: the sign; `tiny` is small; the numbers of `top` units and beyond are
whole, and `top` is one; from `low` on they are multiples of `grid`, which is more
than a unit of the last digit. -/
structure Shape (F : Format) (tiny top low grid : Nat) : Prop where
  sign : Signed F
  small : tiny * 10 ^ F.digits ≤ scale
  whole : ∀ n, F.Number n → top ≤ n.natAbs → scale ∣ n.natAbs
  topNumber : F.Number top
  topWhole : scale ∣ top
  abs : ∀ n, F.Number n → F.Number (n.natAbs : Nat)
  onGrid : ∀ n, F.Number n → low ≤ n.natAbs → grid ∣ n.natAbs
  lowGrid : grid ∣ low
  lowWhole : scale ∣ low
  coarse : scale < grid * 10 ^ F.digits

/-- The text does not exceed a number of the type. -/
theorem Shape.upper {F : Format} {tiny top low grid : Nat} (hS : Shape F tiny top low grid) {n : Int}
    (h : F.Number n) : ∃ hi : Nat, F.Number hi ∧
      divRound (n.natAbs * 10 ^ F.digits) scale * scale ≤ hi * 10 ^ F.digits := by
  have hs : 0 < scale := by have := scale_pos; omega
  by_cases ht : top ≤ n.natAbs
  · refine ⟨n.natAbs, hS.abs n h, ?_⟩
    obtain ⟨c, hc⟩ := hS.whole n h ht
    rw [hc, show scale * c * 10 ^ F.digits = c * 10 ^ F.digits * scale by ac_rfl, divRound_exact _ _ hs]
    exact Nat.le_refl _
  · refine ⟨top, hS.topNumber, ?_⟩
    obtain ⟨c, hc⟩ := hS.topWhole
    have h1 := divRound_close (n.natAbs * 10 ^ F.digits) scale hs
    generalize divRound (n.natAbs * 10 ^ F.digits) scale = q at *
    have h2 : n.natAbs * 10 ^ F.digits < top * 10 ^ F.digits :=
      Nat.mul_lt_mul_of_pos_right (by omega) (Nat.pow_pos (by decide))
    rw [hc, show scale * c * 10 ^ F.digits = (c * 10 ^ F.digits) * scale by ac_rfl] at h2 ⊢
    generalize c * 10 ^ F.digits = t at *
    generalize n.natAbs * 10 ^ F.digits = x at *
    refine Nat.mul_le_mul_right _ ?_
    refine Nat.le_of_lt_succ ?_
    refine Nat.lt_of_mul_lt_mul_right (a := scale) ?_
    rw [Nat.succ_mul]
    have : ((q * scale : Nat) : Int) = (q : Int) * scale := by push_cast; rfl
    rw [← this] at h1
    omega

theorem distance_zero {n m z : Int} {den : Nat} (hd : 0 < den) (h : distance m z den ≤ distance n z den)
    (h0 : distance n z den = 0) : m = n := by
  unfold distance at *
  have h1 : m * den = n * den := by omega
  exact Int.eq_of_mul_eq_mul_right (by omega) h1

theorem back_exact {F : Format} {tiny top low grid : Nat} (hS : Shape F tiny top low grid) {rnd : Rounding F}
    (hc : Correct F tiny rnd) {b : BitVec F.width} {n : Int} (h : F.val b = .fin n)
    (hx : scale ∣ n.natAbs * 10 ^ F.digits) :
    ∃ b', fromText F rnd (text F b) = some b' ∧ F.val b' = .fin n := by
  have hs : 0 < scale := by have := scale_pos; omega
  have hp : 0 < 10 ^ F.digits := Nat.pow_pos (by decide)
  obtain ⟨hi, hhi, hle⟩ := hS.upper ⟨b, h⟩
  obtain ⟨c, hx⟩ := hx
  have hx := hx.trans (Nat.mul_comm _ _)
  have hq := divRound_exact c scale hs
  rw [← hx] at hq
  obtain ⟨b', m, h1, h2, h3⟩ := read_back hS.sign hc hS.small h hhi hle (by
    rw [hq]
    by_cases h0 : c = 0
    · right
      subst h0
      have : n.natAbs = 0 := by
        rcases Nat.mul_eq_zero.1 (hx.trans (Nat.zero_mul _)) with h | h
        · exact h
        · omega
      omega
    · exact .inl h0)
  have := distance_zero hp h3 (by
    rw [signed_distance (hS.sign b n h), hq, hx]; push_cast; simp)
  rw [← this]
  exact ⟨b', h1, h2⟩

theorem back_grid {F : Format} {tiny top low grid : Nat} (hS : Shape F tiny top low grid) {rnd : Rounding F}
    (hc : Correct F tiny rnd) {b : BitVec F.width} {n : Int} (h : F.val b = .fin n) (hl : low ≤ n.natAbs)
    (hlow : scale ≤ low) :
    ∃ b', fromText F rnd (text F b) = some b' ∧ F.val b' = .fin n := by
  have hs : 0 < scale := by have := scale_pos; omega
  have hp : 0 < 10 ^ F.digits := Nat.pow_pos (by decide)
  by_cases hx : scale ∣ n.natAbs * 10 ^ F.digits
  · exact back_exact hS hc h hx
  obtain ⟨hi, hhi, hle⟩ := hS.upper ⟨b, h⟩
  have hclose := text_close hS.sign h
  have hne : divRound (n.natAbs * 10 ^ F.digits) scale ≠ 0 := by
    intro h0
    have h1 := divRound_close (n.natAbs * 10 ^ F.digits) scale hs
    rw [h0] at h1
    have : n.natAbs * 1 ≤ n.natAbs * 10 ^ F.digits := Nat.mul_le_mul_left _ hp
    omega
  obtain ⟨b', m, h1, h2, h3⟩ := read_back hS.sign hc hS.small h hhi hle (.inl hne)
  have hnm : m = n := by
    generalize signed (signBit b) (divRound (n.natAbs * 10 ^ F.digits) scale) = z at *
    have hd : ((m - n) * (10 ^ F.digits : Nat)).natAbs ≤ scale := by
      unfold distance at h3 hclose
      rw [Int.sub_mul]; omega
    rw [Int.natAbs_mul, Int.natAbs_natCast] at hd
    have hlt : (m - n).natAbs < grid := by
      refine Nat.lt_of_mul_lt_mul_right (a := 10 ^ F.digits) ?_
      exact Nat.lt_of_le_of_lt hd hS.coarse
    obtain ⟨cn, hcn⟩ := hS.onGrid n ⟨b, h⟩ hl
    obtain ⟨cl, hcl⟩ := hS.lowGrid
    by_cases hm : low ≤ m.natAbs
    · obtain ⟨cm, hcm⟩ := hS.onGrid m ⟨b', h2⟩ hm
      have hgn : (grid : Int) ∣ n := Int.ofNat_dvd_left.2 ⟨cn, hcn⟩
      have hgm : (grid : Int) ∣ m := Int.ofNat_dvd_left.2 ⟨cm, hcm⟩
      obtain ⟨k, hk⟩ := Int.dvd_sub hgm hgn
      rw [hk, Int.natAbs_mul, Int.natAbs_natCast] at hlt
      have : k.natAbs = 0 := by
        by_cases h0 : k.natAbs = 0
        · exact h0
        · have : grid * 1 ≤ grid * k.natAbs := Nat.mul_le_mul_left _ (by omega)
          omega
      have hk0 : k = 0 := by omega
      rw [hk0, Int.mul_zero] at hk
      omega
    · -- the original number would be `low` itself
      have hlt2 : n.natAbs < low + grid := by omega
      rw [hcn, hcl] at hlt2
      rw [hcn, hcl] at hl
      have hg : 0 < grid := by omega
      have h4 : cn < cl + 1 := Nat.lt_of_mul_lt_mul_left (a := grid) (by rw [Nat.mul_succ]; exact hlt2)
      have h5 : cl ≤ cn := Nat.le_of_mul_le_mul_left hl hg
      have : cn = cl := by omega
      subst this
      obtain ⟨w, hw⟩ := hS.lowWhole
      exact absurd ⟨w * 10 ^ F.digits, by rw [hcn, ← hcl, hw, Nat.mul_assoc]⟩ hx
  rw [← hnm]
  exact ⟨b', h1, h2⟩

/-! ## The two types -/

theorem signed_of {neg : Bool} {mag : Nat} (c : Bool) (h : c = neg) :
    (if neg then -(mag : Int) else mag) = signed c (if neg then -(mag : Int) else mag).natAbs := by
  subst h
  cases c <;> simp [signed]

theorem double_signed : Signed double := by
  intro b n h
  have hm : signBit b = decide (b.toNat / 2 ^ 63 = 1) := by
    have := b.isLt
    unfold signBit
    rw [BitVec.msb_eq_decide]
    simp only [double] at *
    congr 1
    refine propext ?_
    omega
  simp only [double, Dbl.ofBits] at h
  split at h
  · split at h
    · cases h
    · split at h <;> cases h
  · injection h with h
    rw [← h]
    exact signed_of _ hm

theorem single_signed : Signed single := by
  intro b n h
  have hm : signBit b = decide (b.toNat / 2 ^ 31 = 1) := by
    have := b.isLt
    unfold signBit
    rw [BitVec.msb_eq_decide]
    simp only [single] at *
    congr 1
    refine propext ?_
    omega
  simp only [single, Dbl.ofSingle] at h
  split at h
  · split at h
    · cases h
    · split at h <;> cases h
  · injection h with h
    rw [← h]
    exact signed_of _ hm

/-- Numbers with at most `w` significant bits. -/
def Sig (w : Nat) (n : Int) : Prop := ∃ m k : Nat, m < 2 ^ w ∧ n.natAbs = m * 2 ^ k

theorem double_sig {n : Int} (h : double.Number n) : Sig 53 n := by
  obtain ⟨b, h⟩ := h
  exact ofBits_rep h

theorem ofSingle_sig {b : BitVec 32} {n : Int} (h : Dbl.ofSingle b = .fin n) : Sig 24 n := by
  simp only [Dbl.ofSingle] at h
  have hfrac : b.toNat % 2 ^ 23 < 2 ^ 23 := Nat.mod_lt _ (Nat.two_pow_pos _)
  generalize b.toNat % 2 ^ 23 = frac at *
  generalize b.toNat / 2 ^ 23 % 2 ^ 8 = exp at *
  generalize decide (b.toNat / 2 ^ 31 = 1) = neg at *
  split at h
  · split at h
    · cases h
    · split at h <;> cases h
  · simp only [Dbl.fin.injEq] at h
    subst h
    by_cases he : exp = 0
    · refine ⟨frac, 925, by omega, ?_⟩
      rw [if_pos he]
      generalize frac * 2 ^ 925 = z
      cases neg <;> simp
    · refine ⟨2 ^ 23 + frac, exp + 924, by omega, ?_⟩
      rw [if_neg he]
      generalize (2 ^ 23 + frac) * 2 ^ (exp + 924) = z
      cases neg <;> simp

theorem single_sig {n : Int} (h : single.Number n) : Sig 24 n := by
  obtain ⟨b, h⟩ := h
  exact ofSingle_sig h

theorem Sig.dvd {w : Nat} {n : Int} (h : Sig w n) {g : Nat} (hg : 2 ^ (w + g) ≤ n.natAbs) : 2 ^ (g + 1) ∣ n.natAbs := by
  obtain ⟨m, k, hm, hk⟩ := h
  have hlt : 2 ^ (w + g) < 2 ^ (w + k) := by
    refine Nat.lt_of_le_of_lt hg ?_
    rw [hk, Nat.pow_add]
    exact Nat.mul_lt_mul_of_pos_right hm (Nat.two_pow_pos _)
  have := (Nat.pow_lt_pow_iff_right (by decide)).1 hlt
  rw [hk]
  exact Nat.dvd_mul_left_of_dvd (Nat.pow_dvd_pow 2 (by omega)) m

theorem natAbs_ofBits {b : BitVec 64} {n : Int} (h : Dbl.ofBits b = .fin n) :
    Dbl.ofBits (BitVec.ofNat 64 (b.toNat % 2 ^ 63)) = .fin (n.natAbs : Nat) := by
  have hb := b.isLt
  simp only [Dbl.ofBits] at *
  rw [BitVec.toNat_ofNat]
  have e1 : b.toNat % 2 ^ 63 % 2 ^ 64 % 2 ^ 52 = b.toNat % 2 ^ 52 := by omega
  have e2 : b.toNat % 2 ^ 63 % 2 ^ 64 / 2 ^ 52 % 2 ^ 11 = b.toNat / 2 ^ 52 % 2 ^ 11 := by omega
  have e3 : ¬(b.toNat % 2 ^ 63 % 2 ^ 64 / 2 ^ 63 = 1) := by omega
  rw [e1, e2]
  simp only [e3, decide_false]
  split at h
  · split at h
    · cases h
    · split at h <;> cases h
  · rename_i h0
    injection h with h
    rw [if_neg h0, ← h, if_neg (by decide)]
    have e : ∀ (c : Bool) (x : Nat), (if c then -(x : Int) else x).natAbs = x := by intro c x; cases c <;> simp
    rw [e]

theorem natAbs_ofSingle {b : BitVec 32} {n : Int} (h : Dbl.ofSingle b = .fin n) :
    Dbl.ofSingle (BitVec.ofNat 32 (b.toNat % 2 ^ 31)) = .fin (n.natAbs : Nat) := by
  have hb := b.isLt
  simp only [Dbl.ofSingle] at *
  rw [BitVec.toNat_ofNat]
  have e1 : b.toNat % 2 ^ 31 % 2 ^ 32 % 2 ^ 23 = b.toNat % 2 ^ 23 := by omega
  have e2 : b.toNat % 2 ^ 31 % 2 ^ 32 / 2 ^ 23 % 2 ^ 8 = b.toNat / 2 ^ 23 % 2 ^ 8 := by omega
  have e3 : ¬(b.toNat % 2 ^ 31 % 2 ^ 32 / 2 ^ 31 = 1) := by omega
  rw [e1, e2]
  simp only [e3, decide_false]
  split at h
  · split at h
    · cases h
    · split at h <;> cases h
  · rename_i h0
    injection h with h
    rw [if_neg h0, ← h, if_neg (by decide)]
    have e : ∀ (c : Bool) (x : Nat), (if c then -(x : Int) else x).natAbs = x := by intro c x; cases c <;> simp
    rw [e]

theorem natAbs_number_double {n : Int} (h : double.Number n) : double.Number (n.natAbs : Nat) :=
  ⟨_, natAbs_ofBits h.choose_spec⟩

theorem natAbs_number_single {n : Int} (h : single.Number n) : single.Number (n.natAbs : Nat) :=
  ⟨_, natAbs_ofSingle h.choose_spec⟩

theorem double_shape : Shape double tinyDouble (2 ^ 1127) (2 ^ 1077) (2 ^ 1025) where
  sign := double_signed
  small := by rw [scale_eq]; decide +kernel
  whole n h ht := by
    rw [scale_eq]
    exact (double_sig h).dvd (g := 1073) (Nat.le_trans (Nat.pow_le_pow_right (by decide) (by decide)) ht)
  topNumber := ⟨0x4340000000000000#64, by decide +kernel⟩
  topWhole := by rw [scale_eq]; exact Nat.pow_dvd_pow 2 (by decide)
  abs _ := natAbs_number_double
  onGrid n h hl := (double_sig h).dvd (g := 1024) hl
  lowGrid := Nat.pow_dvd_pow 2 (by decide)
  lowWhole := by rw [scale_eq]; exact Nat.pow_dvd_pow 2 (by decide)
  coarse := by rw [scale_eq]; decide +kernel

theorem single_shape : Shape single tinySingle (2 ^ 1127) (2 ^ 1078) (2 ^ 1055) where
  sign := single_signed
  small := by rw [scale_eq]; decide +kernel
  whole n h ht := by
    rw [scale_eq]
    exact (single_sig h).dvd (g := 1073) (Nat.le_trans (Nat.pow_le_pow_right (by decide) (by decide)) ht)
  topNumber := ⟨0x5a000000#32, by decide +kernel⟩
  topWhole := by rw [scale_eq]; exact Nat.pow_dvd_pow 2 (by decide)
  abs _ := natAbs_number_single
  onGrid n h hl := (single_sig h).dvd (g := 1054) hl
  lowGrid := Nat.pow_dvd_pow 2 (by decide)
  lowWhole := by rw [scale_eq]; exact Nat.pow_dvd_pow 2 (by decide)
  coarse := by rw [scale_eq]; decide +kernel

/-! ## There is such a rounding -/

theorem least {F : Format} (z : Int) (den : Nat) (h0 : F.Number 0) :
    ∃ b n, F.val b = .fin n ∧ ∀ m, F.Number m → distance n z den ≤ distance m z den := by
  have key : ∀ (k : Nat) (x : Int), F.Number x → distance x z den ≤ k →
      ∃ b n, F.val b = .fin n ∧ ∀ m, F.Number m → distance n z den ≤ distance m z den := by
    intro k
    induction k with
    | zero =>
      intro x hx hk
      obtain ⟨b, hb⟩ := hx
      exact ⟨b, x, hb, fun m _ => by omega⟩
    | succ k ih =>
      intro x hx hk
      by_cases h : ∃ y, F.Number y ∧ distance y z den < distance x z den
      · obtain ⟨y, hy, hlt⟩ := h
        exact ih y hy (by omega)
      · obtain ⟨b, hb⟩ := hx
        refine ⟨b, x, hb, fun m hm => ?_⟩
        by_cases hle : distance x z den ≤ distance m z den
        · exact hle
        · exact absurd ⟨m, hm, by omega⟩ h
  exact key _ 0 h0 (Nat.le_refl _)

theorem correct_exists (F : Format) (tiny : Nat) (h0 : F.Number 0) (hn : ∃ b, F.val b = .nan)
    (hi : ∃ b, F.val b = .ninf) (hp : ∃ b, F.val b = .pinf) : ∃ rnd, Correct F tiny rnd := by
  refine ⟨fun l => match l with
    | .nan _ => (hn.choose, false)
    | .inf neg => (if neg then hi.choose else hp.choose, false)
    | .frac neg num den => (if num = 0 then h0.choose else (least (signed neg num) den h0).choose, false), ?_, ?_, ?_, ?_⟩
  · intro neg num den hi _ _ _ _
    refine ⟨rfl, ?_⟩
    simp only
    split
    · rename_i h
      subst h
      refine ⟨0, h0.choose_spec, fun m _ => ?_⟩
      unfold distance signed
      cases neg <;> simp
    · obtain ⟨n, h1, h2⟩ := (least (signed neg num) den h0).choose_spec
      exact ⟨n, h1, h2⟩
  · intro neg den _
    exact ⟨rfl, h0.choose_spec⟩
  · intro neg
    refine ⟨rfl, ?_⟩
    cases neg
    · exact hp.choose_spec
    · exact hi.choose_spec
  · intro neg
    exact ⟨rfl, hn.choose_spec⟩

theorem double_correct : ∃ rnd, Correct double tinyDouble rnd :=
  correct_exists double _ ⟨0#64, by decide +kernel⟩ ⟨0x7ff8000000000000#64, by decide +kernel⟩
    ⟨0xfff0000000000000#64, by decide +kernel⟩ ⟨0x7ff0000000000000#64, by decide +kernel⟩

theorem single_correct : ∃ rnd, Correct single tinySingle rnd :=
  correct_exists single _ ⟨0#32, by decide +kernel⟩ ⟨0x7fc00000#32, by decide +kernel⟩
    ⟨0xff800000#32, by decide +kernel⟩ ⟨0x7f800000#32, by decide +kernel⟩

/-! ## What is accepted -/

theorem dec_digits : ∀ {s : Bytes}, (∀ c ∈ s, isDec c = true) → Digits s (number s) := by
  intro s hs
  refine ⟨s.map (fun c => c.toNat - 48), ?_, ?_, ?_⟩
  · rw [List.map_map]
    have : ∀ n : Fin 256, isDec (UInt8.ofNat n.1) = true →
        UInt8.ofNat n.1 = UInt8.ofNat (48 + ((UInt8.ofNat n.1).toNat - 48)) := by decide +kernel
    conv => lhs; rw [← List.map_id s]
    refine List.map_congr_left fun c hc => ?_
    have h2 := this ⟨c.toNat, c.toNat_lt⟩
    simp only [UInt8.ofNat_toNat] at h2
    exact h2 (hs c hc)
  · intro v hv
    obtain ⟨c, hc, rfl⟩ := List.mem_map.1 hv
    have := hs c hc
    simp only [isDec, Bool.and_eq_true, decide_eq_true_eq] at this
    have h2 : c.toNat ≤ 57 := this.2
    omega
  · rw [List.foldl_map]; rfl

theorem takeWhile_dec (s : Bytes) : ∀ c ∈ s.takeWhile isDec, isDec c = true := by
  induction s with
  | nil => intro c hc; cases hc
  | cons a s ih =>
    intro c hc
    rw [List.takeWhile_cons] at hc
    split at hc
    · rename_i h
      rcases List.mem_cons.1 hc with rfl | hc
      · exact h
      · exact ih c hc
    · cases hc

theorem exponent_spec {s r : Bytes} {up : Bool} {e : Nat} (h : exponent s = some (up, e, r)) :
    ∃ c sg ds, s = c :: (sg ++ ds ++ r) ∧ (c = 101 ∨ c = 69) ∧ Sign sg up ∧ ds ≠ [] ∧ Digits ds e := by
  unfold exponent at h
  split at h
  · rename_i c t
    split at h
    · rename_i hc
      have key : ∀ (up' : Bool) (u : Bytes) (sg : Bytes), t = sg ++ u → Sign sg up' →
          (if u.takeWhile isDec = [] then none
            else some (up', number (u.takeWhile isDec), u.dropWhile isDec)) = some (up, e, r) →
          ∃ c' sg ds, c :: t = c' :: (sg ++ ds ++ r) ∧ (c' = 101 ∨ c' = 69) ∧ Sign sg up ∧ ds ≠ [] ∧ Digits ds e := by
        intro up' u sg ht hs h
        split at h
        · cases h
        · rename_i hne
          cases h
          refine ⟨c, sg, u.takeWhile isDec, ?_, hc, hs, hne, dec_digits (takeWhile_dec u)⟩
          rw [List.append_assoc, List.takeWhile_append_dropWhile, ht]
      split at h
      rename_i heq
      split at heq
      · cases heq; exact key true _ [45] rfl (.inr (.inr ⟨rfl, rfl⟩)) h
      · cases heq; exact key false _ [43] rfl (.inr (.inl ⟨rfl, rfl⟩)) h
      · cases heq; exact key false _ [] rfl (.inl ⟨rfl, rfl⟩) h
    · cases h
  · cases h

theorem decimals_spec {s : Bytes} {num den : Nat} (h : decimals s = some (num, den, [])) :
    ∃ m ex a k, s = m ++ ex ∧ Mantissa m a k ∧
      ((ex = [] ∧ num = a ∧ den = 10 ^ k) ∨
       ∃ c sg ds up e, ex = c :: (sg ++ ds) ∧ (c = 101 ∨ c = 69) ∧ Sign sg up ∧ ds ≠ [] ∧ Digits ds e ∧
        if up then num = a ∧ den = 10 ^ k * 10 ^ e else num = a * 10 ^ e ∧ den = 10 ^ k) := by
  have key : ∀ (m ip fp r : Bytes), s = m ++ r → (m = ip ++ 46 :: fp ∨ (m = ip ∧ fp = [])) →
      (∀ c ∈ ip, isDec c = true) → (∀ c ∈ fp, isDec c = true) →
      (if ip = [] ∧ fp = [] then none
        else match exponent r with
          | some (false, e, r) => some (number (ip ++ fp) * 10 ^ e, 10 ^ fp.length, r)
          | some (true, e, r) => some (number (ip ++ fp), 10 ^ fp.length * 10 ^ e, r)
          | none => some (number (ip ++ fp), 10 ^ fp.length, r)) = some (num, den, []) →
      ∃ m ex a k, s = m ++ ex ∧ Mantissa m a k ∧
        ((ex = [] ∧ num = a ∧ den = 10 ^ k) ∨
         ∃ c sg ds up e, ex = c :: (sg ++ ds) ∧ (c = 101 ∨ c = 69) ∧ Sign sg up ∧ ds ≠ [] ∧ Digits ds e ∧
          if up then num = a ∧ den = 10 ^ k * 10 ^ e else num = a * 10 ^ e ∧ den = 10 ^ k) := by
    intro m ip fp r hs hm hip hfp h
    split at h
    · cases h
    · rename_i hne
      have hM : Mantissa m (number (ip ++ fp)) fp.length := by
        refine ⟨ip, fp, hm, fun h => hne (List.append_eq_nil_iff.1 h), dec_digits ?_, rfl⟩
        intro c hc
        rcases List.mem_append.1 hc with hc | hc
        · exact hip c hc
        · exact hfp c hc
      refine ⟨m, r, _, _, hs, hM, ?_⟩
      split at h
      · rename_i e r' he
        cases h
        obtain ⟨c, sg, ds, h1, h2, h3, h4, h5⟩ := exponent_spec he
        exact .inr ⟨c, sg, ds, false, e, by simpa using h1, h2, h3, h4, h5, by simp⟩
      · rename_i e r' he
        cases h
        obtain ⟨c, sg, ds, h1, h2, h3, h4, h5⟩ := exponent_spec he
        exact .inr ⟨c, sg, ds, true, e, by simpa using h1, h2, h3, h4, h5, by simp⟩
      · cases h
        exact .inl ⟨rfl, rfl, rfl⟩
  have hs := List.takeWhile_append_dropWhile (p := isDec) (l := s)
  unfold decimals at h
  simp only at h
  split at h
  · rename_i r' hr
    by_cases hc : s.takeWhile isDec = [] ∧ r'.takeWhile isDec = []
    · simp only [if_pos hc] at h
      rw [if_pos ⟨hc.1, trivial⟩] at h
      cases h
    · simp only [if_neg hc] at h
      refine key (s.takeWhile isDec ++ 46 :: r'.takeWhile isDec) _ _ _ ?_ (.inl rfl) (takeWhile_dec s) (takeWhile_dec r')
        (by rw [if_neg hc]; exact h)
      rw [List.append_assoc, List.cons_append, List.takeWhile_append_dropWhile, ← hr, hs]
  · exact key (s.takeWhile isDec) _ [] _ hs.symm (.inr ⟨rfl, rfl⟩) (takeWhile_dec s) (by simp) h

theorem prefixI_full {p s : Bytes} (h : isPrefixI p s = true) (hd : s.drop p.length = []) : s.map lower = p := by
  have h1 : (s.take p.length).map lower = p := by simpa [isPrefixI] using h
  have h2 := List.take_append_drop p.length s
  rw [hd, List.append_nil] at h2
  rw [h2] at h1
  exact h1

theorem isspace_blank {c : UInt8} (h : isspace c = true) : c = 32 ∨ 9 ≤ c ∧ c ≤ 13 := by
  simpa [isspace] using h

theorem strtod_spec {s : Bytes} {l : Lit} (h : strtod s = some (l, [])) :
    (∃ neg num den, l = .frac neg num den ∧ Notation s neg num den) ∨ ∃ neg, Word s neg l := by
  have hsp : ∀ c ∈ s.takeWhile isspace, c = 32 ∨ 9 ≤ c ∧ c ≤ 13 := by
    intro c hc
    refine isspace_blank ?_
    clear h
    induction s with
    | nil => cases hc
    | cons a s ih =>
      rw [List.takeWhile_cons] at hc
      split at hc
      · rename_i h
        rcases List.mem_cons.1 hc with rfl | hc
        · exact h
        · exact ih hc
      · cases hc
  have hs := List.takeWhile_append_dropWhile (p := isspace) (l := s)
  have key : ∀ (neg : Bool) (sg t : Bytes), s.dropWhile isspace = sg ++ t → Sign sg neg →
      (if isPrefixI [105, 110, 102, 105, 110, 105, 116, 121] t then some (Lit.inf neg, t.drop 8)
      else if isPrefixI [105, 110, 102] t then some (.inf neg, t.drop 3)
      else if isPrefixI [110, 97, 110] t then some (.nan neg, t.drop 3)
      else (decimals t).map fun (num, den, r) => (.frac neg num den, r)) = some (l, []) →
      (∃ neg num den, l = .frac neg num den ∧ Notation s neg num den) ∨ ∃ neg, Word s neg l := by
    intro neg sg t ht hsg h
    rw [ht] at hs
    split at h
    · rename_i hp
      simp only [Option.some.injEq, Prod.mk.injEq] at h
      obtain ⟨rfl, hdr⟩ := h
      exact .inr ⟨neg, _, sg, t, hs.symm, hsp, hsg, .inr (.inl ⟨prefixI_full hp hdr, rfl⟩)⟩
    · split at h
      · rename_i hp
        simp only [Option.some.injEq, Prod.mk.injEq] at h
        obtain ⟨rfl, hdr⟩ := h
        exact .inr ⟨neg, _, sg, t, hs.symm, hsp, hsg, .inl ⟨prefixI_full hp hdr, rfl⟩⟩
      · split at h
        · rename_i hp
          simp only [Option.some.injEq, Prod.mk.injEq] at h
          obtain ⟨rfl, hdr⟩ := h
          exact .inr ⟨neg, _, sg, t, hs.symm, hsp, hsg, .inr (.inr ⟨prefixI_full hp hdr, rfl⟩)⟩
        · obtain ⟨⟨num, den, r⟩, hd, he⟩ := Option.map_eq_some_iff.1 h
          simp only [Prod.mk.injEq] at he
          obtain ⟨rfl, rfl⟩ := he
          obtain ⟨m, ex, a, k, rfl, hm, hx⟩ := decimals_spec hd
          exact .inl ⟨neg, num, den, rfl, _, sg, m, ex, a, k, hs.symm, hsp, hsg, hm, hx⟩
  unfold strtod at h
  split at h
  rename_i heq
  split at heq
  · rename_i ht; cases heq; exact key true [45] _ ht (.inr (.inr ⟨rfl, rfl⟩)) h
  · rename_i ht; cases heq; exact key false [43] _ ht (.inr (.inl ⟨rfl, rfl⟩)) h
  · cases heq; exact key false [] _ rfl (.inl ⟨rfl, rfl⟩) h

theorem strtod_word {s : Bytes} {neg : Bool} {l : Lit} (h : Word s neg l) : strtod s = some (l, []) := by
  obtain ⟨bl, sg, w, rfl, hb, hsg, hw⟩ := h
  have hlow : ∀ n : Fin 256, (lower (UInt8.ofNat n.1) = 105 ∨ lower (UInt8.ofNat n.1) = 110) →
      UInt8.ofNat n.1 ≠ 45 ∧ UInt8.ofNat n.1 ≠ 43 ∧ isspace (UInt8.ofNat n.1) = false := by decide +kernel
  obtain ⟨c, t, rfl, hc⟩ : ∃ c t, w = c :: t ∧ (lower c = 105 ∨ lower c = 110) := by
    cases w with
    | nil => rcases hw with ⟨h, _⟩ | ⟨h, _⟩ | ⟨h, _⟩ <;> cases h
    | cons c t =>
      refine ⟨c, t, rfl, ?_⟩
      rcases hw with ⟨h, _⟩ | ⟨h, _⟩ | ⟨h, _⟩ <;> injection h with h _
      · exact .inl h
      · exact .inl h
      · exact .inr h
  have hns : c ≠ 45 ∧ c ≠ 43 ∧ isspace c = false := by
    have h2 := hlow ⟨c.toNat, c.toNat_lt⟩
    simp only [UInt8.ofNat_toNat] at h2
    exact h2 hc
  have hspace : ∀ d t', sg ++ (c :: t) = d :: t' → isspace d = false := by
    intro d t' h
    rcases hsg with ⟨rfl, _⟩ | ⟨rfl, _⟩ | ⟨rfl, _⟩
    · cases h; exact hns.2.2
    · cases h; rfl
    · cases h; rfl
  have hp : ∀ p : Bytes, isPrefixI p (c :: t) = decide (((c :: t).map lower).take p.length = p) := by
    intro p; unfold isPrefixI; rw [List.map_take]
  have hlen : ((c :: t).map lower).length = (c :: t).length := List.length_map _
  have key : (if isPrefixI [105, 110, 102, 105, 110, 105, 116, 121] (c :: t) then some (Lit.inf neg, (c :: t).drop 8)
      else if isPrefixI [105, 110, 102] (c :: t) then some (.inf neg, (c :: t).drop 3)
      else if isPrefixI [110, 97, 110] (c :: t) then some (.nan neg, (c :: t).drop 3)
      else (decimals (c :: t)).map fun (num, den, r) => (.frac neg num den, r)) = some (l, []) := by
    rw [hp, hp, hp]
    rcases hw with ⟨h, rfl⟩ | ⟨h, rfl⟩ | ⟨h, rfl⟩ <;> rw [h] at hlen ⊢
    · have : (c :: t).drop 3 = [] := List.drop_eq_nil_of_le (by rw [← hlen]; decide)
      rw [if_neg (by decide), if_pos (by decide), this]
    · have : (c :: t).drop 8 = [] := List.drop_eq_nil_of_le (by rw [← hlen]; decide)
      rw [if_pos (by decide), this]
    · have : (c :: t).drop 3 = [] := List.drop_eq_nil_of_le (by rw [← hlen]; decide)
      rw [if_neg (by decide), if_neg (by decide), if_pos (by decide), this]
  unfold strtod
  rw [drop_blanks hb hspace]
  rcases hsg with ⟨rfl, rfl⟩ | ⟨rfl, rfl⟩ | ⟨rfl, rfl⟩
  · rw [List.nil_append]
    split
    rename_i heq
    split at heq
    · rename_i h; cases h; exact absurd rfl hns.1
    · rename_i h; cases h; exact absurd rfl hns.2.1
    · cases heq; exact key
  · exact key
  · exact key

/-- The texts of the infinities and NaN come back as what they are. -/
theorem back_word {F : Format} {tiny : Nat} {rnd : Rounding F} (hc : Correct F tiny rnd) {b : BitVec F.width}
    (hb : ∀ n, F.val b ≠ .fin n) : ∃ b', fromText F rnd (text F b) = some b' ∧ F.val b' = F.val b := by
  have hbl : ∀ k, ∀ c ∈ List.replicate k (32 : UInt8), c = 32 ∨ 9 ≤ c ∧ c ≤ 13 :=
    fun k c hc => .inl (List.eq_of_mem_replicate hc)
  have key : ∀ {neg : Bool} {l : Lit}, Word (text F b) neg l → (rnd l).2 = false → F.val (rnd l).1 = F.val b →
      ∃ b', fromText F rnd (text F b) = some b' ∧ F.val b' = F.val b := by
    intro neg l hw h1 h2
    unfold fromText
    rw [strtod_word hw]
    simp only [h1]
    exact ⟨_, rfl, h2⟩
  cases h : F.val b with
  | fin n => exact absurd h (hb n)
  | ninf =>
    rw [← h]
    refine key (neg := true) (l := .inf true) ?_ (hc.inf true).1 ((hc.inf true).2.trans h.symm)
    unfold text
    simp only [h]
    exact ⟨_, [45], [105, 110, 102], rfl, hbl _, .inr (.inr ⟨rfl, rfl⟩), .inl ⟨by decide, rfl⟩⟩
  | pinf =>
    rw [← h]
    refine key (neg := false) (l := .inf false) ?_ (hc.inf false).1 ((hc.inf false).2.trans h.symm)
    unfold text
    simp only [h]
    exact ⟨_, [], [105, 110, 102], rfl, hbl _, .inl ⟨rfl, rfl⟩, .inl ⟨by decide, rfl⟩⟩
  | nan =>
    rw [← h]
    refine key (neg := signBit b) (l := .nan (signBit b)) ?_ (hc.nan _).1 ((hc.nan _).2.trans h.symm)
    unfold text
    simp only [h]
    refine ⟨_, if signBit b then [45] else [], [110, 97, 110], rfl, hbl _, ?_, .inr (.inr ⟨by decide, rfl⟩)⟩
    unfold Sign
    cases signBit b <;> simp

end Verif.FloatText
