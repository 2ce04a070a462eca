import Verif.Proof.DateText

/-!
# C78: times as text

`DateText.fromText x s` is what reading the text `s` gives; `x` stands for what the text does not say.
`DateText.toText d` is the text of a value in a buffer of its own.
-/

namespace Verif.Props

open Verif Verif.Value Verif.DateText

/-- C78 (reading). Every notation of a moment of the years 1 to 9999 is read as that moment. -/
theorem C78_reads (x : Rest) (s : Bytes) (m : Moment) (hm : m.Valid) (h : Writes s m) :
    ∃ d, fromText x s = some d ∧ moment d = m := by
  obtain ⟨sep, z, hsep, rfl, hz⟩ := h
  have hT : (84 : UInt8) ∉ z := by
    rcases hz with rfl | ⟨rfl | rfl, _⟩
    · exact offset_no_T
    · decide
    · decide
  refine ⟨_, fromText_iso x m hm sep z (hsep.imp id fun h => ⟨h, hT⟩), ?_⟩
  rw [moment_value x m hm _ (zone_range z).1 (zone_range z).2]
  have hv := hm
  obtain ⟨_, _, _, _, _, _, hh, hmi, hw⟩ := hv
  rcases hz with rfl | ⟨hz, h1, h2⟩
  · rw [zone_offset m hm]
    have e1 : ((m.zoneHour.toNat : Nat) : Int) = m.zoneHour := by omega
    have e2 : ((m.zoneMinute.toNat : Nat) : Int) = m.zoneMinute := by omega
    simp only [e1, e2]
  · have hwest : m.west = false := by
      cases hc : m.west with
      | false => rfl
      | true => exact absurd (hw hc) (by simp [h1, h2])
    have hzone : zone z = (false, 0, 0) := by rcases hz with rfl | rfl <;> rfl
    rw [hzone, ← hwest]
    cases m
    simp_all

/-- C78 (writing). The text of a value is a notation of its moment, for the years 1 to 9999 other than 1900. -/
theorem C78_writes_partial (d : DateTime) (hm : (moment d).Valid) (h0 : (moment d).year ≠ 1900) :
    ∃ s, toText d = .ok s ∧ Writes s (moment d) := by
  have h0' : d.year ≠ 0 := by
    intro h
    apply h0
    show d.year.toInt + 1900 = 1900
    rw [h]
    rfl
  refine ⟨isoTime 84 (moment d) ++ zoneText d, ?_, 84, zoneText d, Or.inl rfl, rfl, ?_⟩
  · simp only [toText, text_eq d hm h0', Res.ok_bind, Res.pure_eq]
    rw [List.take_of_length_le]
    have := zoneText_length d hm
    simp only [List.length_append, isoTime_length]
    omega
  · rcases zoneText_eq d hm with h | ⟨h, h'⟩
    · exact Or.inl h
    · exact Or.inr ⟨Or.inl h, h'⟩

/-- C78 (round trip). A value written as text and read back is the same moment. Partial: false for the year 1900, for
years from 10000, and for times without a date. -/
theorem C78_round_trip_partial (x : Rest) (d : DateTime) (hm : (moment d).Valid) (h0 : (moment d).year ≠ 1900) :
    ∃ s d', toText d = .ok s ∧ fromText x s = some d' ∧ moment d' = moment d := by
  obtain ⟨s, hs, hw⟩ := C78_writes_partial d hm h0
  obtain ⟨d', hd, he⟩ := C78_reads x s _ hm hw
  exact ⟨s, d', hs, hd, he⟩

private def aDate : DateTime := ⟨60, 59, 23, 29, 1, 124, 4, 59, 0, 5, 30, true⟩

/-- 2024-02-29T23:59:60-05:30 -/
private def aText : Bytes :=
  [50, 48, 50, 52, 45, 48, 50, 45, 50, 57, 84, 50, 51, 58, 53, 57, 58, 54, 48, 45, 48, 53, 58, 51, 48]

example : (moment aDate).Valid ∧ (moment aDate).year ≠ 1900 ∧ toText aDate = .ok aText ∧ Writes aText (moment aDate) := by
  refine ⟨by unfold Moment.Valid; decide, by decide, by decide +kernel, 84, isoOffset (moment aDate), Or.inl rfl, by decide +kernel, Or.inl rfl⟩

/-- C78 (refusing). Whatever the text, what is read from it has month, day, hour, minute and second within the calendar,
or is the time with all fields 0, which only a text beginning with `0000-` gives. -/
theorem C78_read_in_range (x : Rest) (s : Bytes) (d : DateTime) (h : fromText x s = some d) :
    (d = DateText.zero ∧ s.take 5 = [48, 48, 48, 48, 45]) ∨
    ((0 ≤ (moment d).year ∧ (moment d).year ≤ 9999) ∧ (1 ≤ (moment d).month ∧ (moment d).month ≤ 12) ∧
      (1 ≤ (moment d).day ∧ (moment d).day ≤ 31) ∧ (0 ≤ (moment d).hour ∧ (moment d).hour ≤ 23) ∧
      (0 ≤ (moment d).minute ∧ (moment d).minute ≤ 59) ∧ (0 ≤ (moment d).second ∧ (moment d).second ≤ 61)) := by
  simp only [fromText] at h
  split at h
  · next hz => cases h; exact Or.inl ⟨rfl, hz⟩
  · right
    simp only [Option.bind_eq_bind, Option.bind_eq_some_iff, Prod.exists, Option.pure_def, Option.some.injEq] at h
    obtain ⟨f, r, hf, rfl⟩ := h
    obtain ⟨hy, hmo, hd, hh, hmi, hse⟩ := strptime_range hf
    have hyear : (BitVec.ofInt 32 ((f.year : Int) - 1900)).toInt = (f.year : Int) - 1900 := by
      rw [BitVec.toInt_ofInt]
      exact Int.bmod_eq_of_le (by omega) (by omega)
    simp only [moment, hyear]
    rw [toInt_small _ (by omega), toInt_small _ (by omega), toInt_small _ (by omega), toInt_small _ (by omega),
      toInt_small _ (by omega)]
    omega

example : ∃ d, fromText ⟨fun _ => (0, 0), 0⟩ aText = some d ∧ moment d = moment aDate := ⟨_, rfl, by decide +kernel⟩

/-- C78 (buffers). Writing into a buffer of the caller stays inside it and ends with NUL; with 26 bytes or more
the text of a moment of the years 1 to 9999 is complete. -/
theorem C78_buffer_respected (d : DateTime) (n : Nat) :
    (∀ bs, DateText.toBuffer d n = .ok bs → bs.length ≤ n ∧ (0 < n → bs.getLast? = some 0)) ∧
    ((moment d).Valid → (moment d).year ≠ 1900 → 26 ≤ n →
      ∃ s, toText d = .ok s ∧ DateText.toBuffer d n = .ok (s ++ [0])) := by
  constructor
  · intro bs h
    simp only [DateText.toBuffer] at h
    cases ht : text d with
    | ok t =>
      rw [ht] at h
      simp only [Res.ok_bind, Res.pure_eq, Res.ok.injEq] at h
      subst h
      simp only [Text.snprintf]
      split
      · next hn => simp [hn]
      · next hn =>
        refine ⟨?_, fun _ => by simp⟩
        simp only [List.length_append, List.length_take, List.length_cons, List.length_nil]
        omega
    | fail => rw [ht] at h; cases h
    | ub => rw [ht] at h; cases h
  · intro hm h0 hn
    have h0' : d.year ≠ 0 := by
      intro h
      apply h0
      show d.year.toInt + 1900 = 1900
      rw [h]
      rfl
    have := zoneText_length d hm
    refine ⟨isoTime 84 (moment d) ++ zoneText d, ?_, ?_⟩
    · simp only [toText, text_eq d hm h0', Res.ok_bind, Res.pure_eq]
      rw [List.take_of_length_le (by simp only [List.length_append, isoTime_length]; omega)]
    · simp only [DateText.toBuffer, text_eq d hm h0', Res.ok_bind, Res.pure_eq, Text.snprintf]
      rw [if_neg (by omega), List.take_of_length_le (by simp only [List.length_append, isoTime_length]; omega)]

example : DateText.toBuffer aDate 26 = .ok (aText ++ [0]) ∧ DateText.toBuffer aDate 5 = .ok (aText.take 4 ++ [0]) := by
  decide +kernel

/-- C78 fails for the year 1900, which is taken for a missing date: the text has the year 0000 and the month before,
and reading it gives the time with all fields 0. -/
theorem C78_year_1900_fails (x : Rest) (d : DateTime) (h0 : d.year = 0) :
    ∃ s, toText d = .ok s ∧ fromText x s = some DateText.zero := by
  have hp : pad 4 0 = [48, 48, 48, 48] := by decide
  refine ⟨(fields 0 d.mon.toInt d).take 25, by simp only [toText, text, if_pos h0]; rfl, ?_⟩
  simp only [fromText]
  rw [if_pos]
  simp only [fields, hp, List.cons_append, List.nil_append, List.take_succ_cons, List.take_zero, List.take_take]
  rfl

/-- C78 fails for times without a date, such as `0000-00-00T01:30:00Z`: reading drops the time of day. -/
theorem C78_no_date_fails (x : Rest) :
    ∃ s, s = [48, 48, 48, 48, 45, 48, 48, 45, 48, 48, 84, 48, 49, 58, 51, 48, 58, 48, 48, 90] ∧
      ∃ d, fromText x s = some d ∧ d.hour = 0 ∧ d.min = 0 := ⟨_, rfl, _, rfl, rfl, rfl⟩

/-- C78 fails from the year 10000 on: the text of such a value is refused when it is read. -/
theorem C78_far_year_fails (x : Rest) :
    ∃ d : DateTime, (moment d).year = 10000 ∧ ∃ s, toText d = .ok s ∧ fromText x s = none := by
  exact ⟨{ aDate with year := 8100 }, by decide, _, rfl, rfl⟩

/-- C78 fails for zones not written with six characters: they are ignored, and the time is taken to be UTC. So
`2024-01-01T10:00:00+5:30` is read as ten o'clock UTC, and anything may follow the seconds. -/
theorem C78_bad_zone_fails (x : Rest) (m : Moment) (hm : m.Valid) (z : Bytes) (hz : z.length ≠ 6) :
    ∃ d, fromText x (isoTime 84 m ++ z) = some d ∧
      moment d = { m with west := false, zoneHour := 0, zoneMinute := 0 } := by
  refine ⟨_, fromText_iso x m hm 84 z (Or.inl rfl), ?_⟩
  rw [moment_value x m hm _ (zone_range z).1 (zone_range z).2]
  have : zone z = (false, 0, 0) := by
    unfold zone
    split
    · exact absurd rfl hz
    · rfl
  rw [this]
  rfl

/-- C78 fails for zones in another notation: in `+05.30` the minutes are dropped, and any other sign is taken for
a plus. -/
theorem C78_zone_notation_fails (x : Rest) :
    ∃ d, fromText x (aText.take 19 ++ [63, 48, 53, 46, 51, 48]) = some d ∧
      moment d = { moment aDate with west := false, zoneMinute := 0 } := ⟨_, rfl, rfl⟩

/-- C78 fails for days the month does not have: 2023-02-31 is accepted. -/
theorem C78_no_such_day_fails (x : Rest) :
    ∃ m : Moment, m.month = 2 ∧ m.day = 31 ∧ ∃ d, fromText x (isoTime 84 m) = some d ∧ moment d = m := by
  refine ⟨⟨2023, 2, 31, 0, 0, 0, false, 0, 0⟩, rfl, rfl, _, rfl, rfl⟩

/-- C78 fails for the daylight-saving flag: it is never set, so that two readings of one text can give different
values, and what the stack held goes out with them. -/
theorem C78_dst_uninitialised_fails (days : Fields → BitVec 32 × BitVec 32) (b : BitVec 32) :
    ∃ d, fromText ⟨days, b⟩ aText = some d ∧ d.isdst = b := ⟨_, rfl, rfl⟩

end Verif.Props
