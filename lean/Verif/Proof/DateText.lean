import Verif.Spec.DateText
import Verif.Proof.Text

/-!
# Lemmas for times as text
-/

namespace Verif.DateText

open Verif Verif.Value Verif.Text

theorem padded_two (v : Nat) (h : v < 100) : padded 2 v = two v := by
  have e : v / 10 / 10 = 0 := by omega
  simp [padded, two, digitAt, e]

theorem padded_four (v : Nat) (h : v < 10000) : padded 4 v = four v := by
  have e : v / 10 / 10 / 10 / 10 = 0 := by omega
  have e2 : v / 10 / 10 = v / 100 := by omega
  have e3 : v / 100 / 10 = v / 1000 := by omega
  simp only [padded, e, four, digitAt, Int.toNat_natCast]
  simp [e2, e3]

theorem pad_two (v : Int) (h0 : 0 ≤ v) (h : v < 100) : pad 2 v = two v := by
  obtain ⟨n, rfl⟩ := Int.eq_ofNat_of_zero_le h0
  simp only [pad, show ¬ (n : Int) < 0 from by omega, if_false, Int.natAbs_natCast]
  exact padded_two n (by omega)

theorem pad_four (v : Int) (h0 : 0 ≤ v) (h : v < 10000) : pad 4 v = four v := by
  obtain ⟨n, rfl⟩ := Int.eq_ofNat_of_zero_le h0
  simp only [pad, show ¬ (n : Int) < 0 from by omega, if_false, Int.natAbs_natCast]
  exact padded_four n (by omega)

theorem digit_toNat (d : Nat) (h : d < 10) : (UInt8.ofNat (48 + d)).toNat - 48 = d ∧
    isDec (UInt8.ofNat (48 + d)) = true ∧ isspace (UInt8.ofNat (48 + d)) = false := by
  have key : ∀ d : Fin 10, (UInt8.ofNat (48 + d)).toNat - 48 = d ∧
    isDec (UInt8.ofNat (48 + d)) = true ∧ isspace (UInt8.ofNat (48 + d)) = false := by decide
  exact key ⟨d, h⟩

theorem digitAt_toNat (p : Nat) (v : Int) : (digitAt p v).toNat - 48 = v.toNat / 10 ^ p % 10 :=
  (digit_toNat _ (Nat.mod_lt _ (by omega))).1

theorem digitAt_dec (p : Nat) (v : Int) : isDec (digitAt p v) = true :=
  (digit_toNat _ (Nat.mod_lt _ (by omega))).2.1

theorem digitAt_space (p : Nat) (v : Int) : isspace (digitAt p v) = false :=
  (digit_toNat _ (Nat.mod_lt _ (by omega))).2.2

theorem getNumber_two (lo hi : Nat) (v : Int) (r : Bytes) (h0 : (lo : Int) ≤ v) (h1 : v ≤ hi)
    (hh : hi < 100) (hp : 0 ≤ v) : getNumber lo hi 2 (two v ++ r) = some (v.toNat, r) := by
  simp only [two, List.cons_append, List.nil_append, getNumber]
  rw [List.dropWhile_cons_of_neg (by simp [digitAt_space])]
  simp only [digitAt_dec, if_true]
  simp only [show (2 - 1 : Nat) = 1 from rfl, more]
  simp only [digitAt_toNat, digitAt_dec, and_true]
  have e : v.toNat / 10 ^ 1 % 10 * 10 + v.toNat / 10 ^ 0 % 10 = v.toNat := by omega
  rw [if_pos (show v.toNat / 10 ^ 1 % 10 * 10 ≤ hi by omega)]
  simp only [e]
  rw [if_pos (by omega)]

theorem getNumber_four (v : Int) (r : Bytes) (hp : 0 ≤ v) (h1 : v ≤ 9999) :
    getNumber 0 9999 4 (four v ++ r) = some (v.toNat, r) := by
  simp only [four, List.cons_append, List.nil_append, getNumber]
  rw [List.dropWhile_cons_of_neg (by simp [digitAt_space])]
  simp only [digitAt_dec, if_true]
  simp only [show (4 - 1 : Nat) = 3 from rfl, more]
  simp only [digitAt_toNat, digitAt_dec, and_true]
  have e : ((v.toNat / 10 ^ 3 % 10 * 10 + v.toNat / 10 ^ 2 % 10) * 10 + v.toNat / 10 ^ 1 % 10) * 10 +
    v.toNat / 10 ^ 0 % 10 = v.toNat := by omega
  rw [if_pos (show v.toNat / 10 ^ 3 % 10 * 10 ≤ 9999 by omega),
    if_pos (show (v.toNat / 10 ^ 3 % 10 * 10 + v.toNat / 10 ^ 2 % 10) * 10 ≤ 9999 by omega),
    if_pos (show ((v.toNat / 10 ^ 3 % 10 * 10 + v.toNat / 10 ^ 2 % 10) * 10 + v.toNat / 10 ^ 1 % 10) * 10 ≤ 9999
      by omega)]
  simp only [e]
  rw [if_pos (by omega)]

theorem literal_self {c : UInt8} (r : Bytes) (h : isspace c = false) : literal c (c :: r) = some r := by
  simp [literal, h]

/-- Reading the date and time of day of a moment. -/
theorem strptime_iso {sep : UInt8} (hs : sep = 84 ∨ sep = 32) (m : Moment) (hm : m.Valid) (r : Bytes) :
    strptime sep (isoTime sep m ++ r) =
      some (⟨m.year.toNat, m.month.toNat, m.day.toNat, m.hour.toNat, m.minute.toNat, m.second.toNat⟩, r) := by
  obtain ⟨hy, hmo, hd, hh, hmi, hse, _, _, _⟩ := hm
  have hsep : ∀ r', literal sep (sep :: (two m.hour ++ r')) = some (two m.hour ++ r') := by
    intro r'
    rcases hs with rfl | rfl
    · exact literal_self _ rfl
    · simp only [literal]
      rw [if_pos (by decide)]
      rw [List.dropWhile_cons_of_pos (by decide)]
      simp only [two, List.cons_append]
      rw [List.dropWhile_cons_of_neg (by simp [digitAt_space])]
  simp only [isoTime, List.append_assoc, strptime]
  rw [getNumber_four _ _ (by omega) (by omega)]
  simp only [Option.bind_eq_bind, Option.bind_some, List.cons_append, List.nil_append]
  rw [literal_self _ rfl, Option.bind_some, getNumber_two 1 12 _ _ (by omega) (by omega) (by omega) (by omega)]
  simp only [Option.bind_some]
  rw [literal_self _ rfl, Option.bind_some, getNumber_two 1 31 _ _ (by omega) (by omega) (by omega) (by omega)]
  simp only [Option.bind_some]
  rw [hsep, Option.bind_some, getNumber_two 0 23 _ _ (by omega) (by omega) (by omega) (by omega)]
  simp only [Option.bind_some]
  rw [literal_self _ rfl, Option.bind_some, getNumber_two 0 59 _ _ (by omega) (by omega) (by omega) (by omega)]
  simp only [Option.bind_some]
  rw [literal_self _ rfl, Option.bind_some, getNumber_two 0 61 _ _ (by omega) (by omega) (by omega) (by omega)]
  rfl

theorem digitAt_ne {p : Nat} {v : Int} {c : UInt8} (h : isDec c = false) : digitAt p v ≠ c := by
  intro e
  rw [← e, digitAt_dec] at h
  cases h

theorem toInt_small (n : Nat) (h : n < 2 ^ 31) : (BitVec.ofNat 32 n).toInt = n := by
  rw [BitVec.toInt_eq_toNat_cond, BitVec.toNat_ofNat]
  rw [Nat.mod_eq_of_lt (by omega), if_pos (by omega)]

theorem toInt_year (v : Int) (h1 : 1 ≤ v) (h2 : v ≤ 9999) : (BitVec.ofInt 32 (v - 1900)).toInt = v - 1900 := by
  rw [BitVec.toInt_ofInt]
  exact Int.bmod_eq_of_le (by omega) (by omega)

theorem zone_offset (m : Moment) (hm : m.Valid) :
    zone (isoOffset m) = (m.west, m.zoneHour.toNat, m.zoneMinute.toNat) := by
  obtain ⟨_, _, _, _, _, _, hh, hmi, _⟩ := hm
  have e1 : m.zoneHour.toNat / 10 ^ 1 % 10 * 10 + m.zoneHour.toNat / 10 ^ 0 % 10 = m.zoneHour.toNat := by omega
  have e2 : m.zoneMinute.toNat / 10 ^ 1 % 10 * 10 + m.zoneMinute.toNat / 10 ^ 0 % 10 = m.zoneMinute.toNat := by
    omega
  simp only [isoOffset, two, List.cons_append, List.nil_append, zone, digitAt_dec, Bool.and_self, if_true,
    digitAt_toNat, e1, e2]
  cases m.west <;> simp

theorem isoTime_no_T {m : Moment} : (84 : UInt8) ∉ isoTime 32 m := by
  simp only [isoTime, four, two, List.cons_append, List.nil_append, List.mem_cons, List.not_mem_nil, or_false,
    not_or]
  refine ⟨?_, ?_, ?_, ?_, by decide, ?_, ?_, by decide, ?_, ?_, by decide, ?_, ?_, by decide, ?_, ?_, by decide, ?_, ?_⟩ <;>
    exact fun h => digitAt_ne (c := 84) rfl h.symm

theorem offset_no_T {m : Moment} : (84 : UInt8) ∉ isoOffset m := by
  simp only [isoOffset, two, List.cons_append, List.nil_append, List.mem_cons, List.not_mem_nil, or_false, not_or]
  refine ⟨by cases m.west <;> decide, ?_, ?_, by decide, ?_, ?_⟩ <;>
    exact fun h => digitAt_ne (c := 84) rfl h.symm

/-- The value read from the date and time of day of a moment, with a zone. -/
def value (x : Rest) (m : Moment) (z : Bool × Nat × Nat) : DateTime :=
  let f : Fields := ⟨m.year.toNat, m.month.toNat, m.day.toNat, m.hour.toNat, m.minute.toNat, m.second.toNat⟩
  { sec := BitVec.ofNat 32 f.sec, min := BitVec.ofNat 32 f.min, hour := BitVec.ofNat 32 f.hour,
    mday := BitVec.ofNat 32 f.mday, mon := BitVec.ofNat 32 (f.mon - 1),
    year := BitVec.ofInt 32 (f.year - 1900), wday := (x.days f).1, yday := (x.days f).2, isdst := x.isdst,
    tzhour := BitVec.ofNat 32 z.2.1, tzmin := BitVec.ofNat 32 z.2.2, isWest := z.1 }

theorem moment_value (x : Rest) (m : Moment) (hm : m.Valid) (z : Bool × Nat × Nat) (h1 : z.2.1 < 100)
    (h2 : z.2.2 < 100) :
    moment (value x m z) = { m with west := z.1, zoneHour := z.2.1, zoneMinute := z.2.2 } := by
  obtain ⟨hy, hmo, hd, hh, hmi, hse, _, _, _⟩ := hm
  have hyy : ((m.year.toNat : Nat) : Int) = m.year := by omega
  simp only [moment, value, hyy]
  rw [toInt_year _ (by omega) (by omega), toInt_small _ (by omega), toInt_small _ (by omega),
    toInt_small _ (by omega), toInt_small _ (by omega), toInt_small _ (by omega), toInt_small _ (by omega),
    toInt_small _ (by omega)]
  simp only [Moment.mk.injEq, and_true, true_and]
  omega

theorem not_zero_year (m : Moment) (hm : m.Valid) (sep : UInt8) (z : Bytes) :
    (isoTime sep m ++ z).take 5 ≠ [48, 48, 48, 48, 45] := by
  obtain ⟨hy, _⟩ := hm
  simp only [isoTime, four, List.cons_append, List.nil_append, List.take_succ_cons, List.take_zero]
  intro h
  have d : ∀ p, digitAt p m.year = 48 → m.year.toNat / 10 ^ p % 10 = 0 := by
    intro p e
    have := digitAt_toNat p m.year
    rw [e] at this
    exact this.symm
  simp only [List.cons.injEq] at h
  have h3 := d 3 h.1
  have h2 := d 2 h.2.1
  have h1 := d 1 h.2.2.1
  have h0 := d 0 h.2.2.2.1
  omega

theorem fromText_iso (x : Rest) (m : Moment) (hm : m.Valid) (sep : UInt8) (z : Bytes)
    (hs : sep = 84 ∨ (sep = 32 ∧ 84 ∉ z)) :
    fromText x (isoTime sep m ++ z) = some (value x m (zone z)) := by
  have hsep : (if 84 ∈ isoTime sep m ++ z then (84 : UInt8) else 32) = sep := by
    rcases hs with rfl | ⟨rfl, hz⟩
    · exact if_pos (by simp [isoTime])
    · exact if_neg (by simpa [hz] using isoTime_no_T)
  have hs' : sep = 84 ∨ sep = 32 := hs.imp id And.left
  simp only [fromText, if_neg (not_zero_year m hm sep z), hsep, strptime_iso hs' m hm z]
  rfl

/-! ## Writing -/

theorem toInt_eq_zero {b : BitVec 32} : b.toInt = 0 ↔ b = 0 := by
  constructor
  · intro h
    exact BitVec.eq_of_toInt_eq (by simpa using h)
  · rintro rfl; rfl

theorem zoneText_eq (d : DateTime) (hm : (moment d).Valid) :
    zoneText d = isoOffset (moment d) ∨
      (zoneText d = [90] ∧ (moment d).zoneHour = 0 ∧ (moment d).zoneMinute = 0) := by
  obtain ⟨_, _, _, _, _, _, hh, hmi, _⟩ := hm
  simp only [moment] at hh hmi ⊢
  by_cases h : d.tzhour ≠ 0 ∨ d.tzmin ≠ 0
  · left
    simp only [zoneText, if_pos h, isoOffset, pad_two _ hh.1 (by omega), pad_two _ hmi.1 (by omega)]
    cases d.isWest <;> rfl
  · right
    simp only [zoneText, if_neg h]
    simp only [ne_eq, not_or, Decidable.not_not] at h
    exact ⟨trivial, toInt_eq_zero.2 h.1, toInt_eq_zero.2 h.2⟩

theorem text_eq (d : DateTime) (hm : (moment d).Valid) (h0 : d.year ≠ 0) :
    text d = .ok (isoTime 84 (moment d) ++ zoneText d) := by
  obtain ⟨hy, hmo, hd, hh, hmi, hse, _, _, _⟩ := hm
  simp only [moment] at *
  simp only [text, if_neg h0]
  rw [if_pos (by omega)]
  simp only [fields, isoTime]
  rw [pad_four _ (by omega) (by omega), pad_two _ (by omega) (by omega), pad_two _ (show 0 ≤ d.mday.toInt by omega) (by omega),
    pad_two _ hh.1 (by omega), pad_two _ hmi.1 (by omega), pad_two _ hse.1 (by omega)]

theorem zoneText_length (d : DateTime) (hm : (moment d).Valid) : (zoneText d).length ≤ 6 := by
  rcases zoneText_eq d hm with h | ⟨h, _⟩ <;> rw [h] <;> simp [isoOffset, two]

theorem isoTime_length (sep : UInt8) (m : Moment) : (isoTime sep m).length = 19 := by
  simp [isoTime, four, two]

/-! ## Ranges of what is read -/

theorem getNumber_range {lo hi n v : Nat} {s r : Bytes} (h : getNumber lo hi n s = some (v, r)) : lo ≤ v ∧ v ≤ hi := by
  simp only [getNumber] at h
  split at h
  · cases h
  · split at h
    · split at h
      · next hr => cases h; exact hr
      · cases h
    · cases h

theorem strptime_range {sep : UInt8} {s r : Bytes} {f : Fields} (h : strptime sep s = some (f, r)) :
    f.year ≤ 9999 ∧ (1 ≤ f.mon ∧ f.mon ≤ 12) ∧ (1 ≤ f.mday ∧ f.mday ≤ 31) ∧ f.hour ≤ 23 ∧ f.min ≤ 59 ∧ f.sec ≤ 61 := by
  simp only [strptime, Option.bind_eq_bind, Option.bind_eq_some_iff, Prod.exists, Option.pure_def,
    Option.some.injEq, Prod.mk.injEq] at h
  obtain ⟨y, _, hy, _, _, mo, _, hmo, _, _, d, _, hd, _, _, ho, _, hho, _, _, mi, _, hmi, _, _, se, _, hse, rfl, _⟩ := h
  exact ⟨(getNumber_range hy).2, getNumber_range hmo, getNumber_range hd, (getNumber_range hho).2,
    (getNumber_range hmi).2, (getNumber_range hse).2⟩

theorem zone_range (s : Bytes) : (zone s).2.1 < 100 ∧ (zone s).2.2 < 100 := by
  have key : ∀ c : UInt8, isDec c = true → c.toNat - 48 < 10 := by
    intro c hc
    simp only [isDec, Bool.and_eq_true, decide_eq_true_eq] at hc
    have := UInt8.le_iff_toNat_le.1 hc.2
    simp at this
    omega
  unfold zone
  split
  · next sign a b colon c d =>
    split
    · next h =>
      simp only [Bool.and_eq_true] at h
      have := key a h.1.1.1
      have := key b h.1.1.2
      have := key c h.1.2
      have := key d h.2
      refine ⟨show (a.toNat - 48) * 10 + (b.toNat - 48) < 100 by omega, ?_⟩
      show (if colon = 58 then _ else _) < 100
      split <;> omega
    · exact ⟨by decide, by decide⟩
  · exact ⟨by decide, by decide⟩

end Verif.DateText
