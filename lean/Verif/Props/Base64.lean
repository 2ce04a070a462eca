import Verif.Proof.Base64

/-!
# C45: base64
-/

namespace Verif.Props

open Verif Verif.Base64

/-- **C45.** Encoding up to 1026 bytes stays inside its allocation and gives the base64 text of the
standard; more is refused. -/
theorem C45_encode_is_standard (bs : Bytes) :
    (bs.length ≤ 1026 → ∃ size, Verif.Base64.encode bs = .ok (standard bs, size) ∧ (standard bs).length < size) ∧
    (1026 < bs.length → Verif.Base64.encode bs = .fail) := by
  constructor
  · intro h
    have hl := encodeGroups_length bs
    refine ⟨encodeAlloc bs.length, ?_⟩
    rw [← encodeGroups_standard]
    have : (encodeGroups bs).length + 1 ≤ encodeAlloc bs.length := by
      rw [hl]; unfold encodeAlloc; split <;> omega
    refine ⟨?_, by omega⟩
    unfold Verif.Base64.encode
    rw [if_neg (by simp only [binLimit]; omega), if_pos this]
  · intro h
    unfold Verif.Base64.encode
    rw [if_pos (by simp only [binLimit]; omega)]

/-- **C45, what is proved.** Decoding the encoding of a byte string of 1 to 1026 bytes gives that byte
string and its length. Missing: the empty byte string, see `C45_empty_fails`. -/
theorem C45_round_trip_partial (bs : Bytes) (hne : bs ≠ []) (h : bs.length ≤ 1026) :
    ∃ t size, Verif.Base64.encode bs = .ok (t, size) ∧ Verif.Base64.decode t = .ok (bs, bs.length) := by
  obtain ⟨size, h1, _⟩ := (C45_encode_is_standard bs).1 h
  refine ⟨_, size, h1, ?_⟩
  rw [← encodeGroups_standard]
  have hl := encodeGroups_length bs
  have hpos : 0 < bs.length := List.length_pos_iff.mpr hne
  have hd := decodeGroups_encode bs (padding (encodeGroups bs)) (fun _ => padding_encode hne)
  unfold Verif.Base64.decode
  rw [if_neg (by simp only [b64Limit, binLimit]; omega), if_neg (by omega), if_neg (by omega), hd]
  simp only
  have hsz : (encodeGroups bs).length * 3 / 4 - padding (encodeGroups bs) = bs.length := by
    rw [padding_encode hne, hl]; unfold pads; omega
  rw [hsz, if_pos (Nat.le_refl _)]

example : ([77, 97, 110, 0, 255] : Bytes) ≠ [] ∧ ([77, 97, 110, 0, 255] : Bytes).length ≤ 1026 := by decide

/-- **C45 fails** for the empty byte string: decoding its encoding, the empty text, reads in front of
the text. -/
theorem C45_empty_fails :
    (∃ size, Verif.Base64.encode [] = .ok ([], size)) ∧ Verif.Base64.decode [] = .ub := by
  exact ⟨⟨1, by decide⟩, by decide⟩

/-- **C45.** Every text of the form the standard allows, within the size limit, is accepted. -/
theorem C45_accepts_valid (t : Bytes) (hw : WellFormed t) (hne : t ≠ []) (hl : t.length ≤ 1368) :
    ∃ o, Verif.Base64.decode t = .ok (o, o.length) := by
  obtain ⟨body, p, ht, hp, h4, hb⟩ := hw
  have hnp : (61 : UInt8) ∉ alphabet := by decide +kernel
  have hlen : t.length = body.length + p := by rw [ht]; simp
  have hpos : 0 < t.length := List.length_pos_iff.mpr hne
  have hpad : padding t = p := by
    have hget : ∀ k, k < body.length → t[k]? ≠ some 61 := by
      intro k hk he
      rw [ht, List.getElem?_append_left hk] at he
      exact hnp (hb 61 (List.mem_of_getElem? he))
    have hget2 : ∀ k, body.length ≤ k → k < t.length → t[k]? = some 61 := by
      intro k hk hk2
      rw [ht, List.getElem?_append_right hk, List.getElem?_replicate_of_lt (by omega)]
    unfold padding pad
    rcases Nat.lt_or_ge p 1 with h | h
    · rw [if_neg (hget _ (by omega)), if_neg (hget _ (by omega))]; omega
    · rcases Nat.lt_or_ge p 2 with h' | h'
      · rw [if_neg (hget _ (by omega)), if_pos (hget2 _ (by omega) (by omega))]; omega
      · rw [if_pos (hget2 _ (by omega) (by omega))]; omega
  rcases decode_cases t (by simp only [b64Limit, binLimit]; omega) h4 hne with ⟨⟨o, h1, _⟩, _⟩ | ⟨_, h2⟩
  · exact ⟨o, h1⟩
  · refine absurd ?_ h2
    rw [hpad, hlen, Nat.add_sub_cancel, ht, List.take_left']
    · exact hb
    · rfl

example : WellFormed [65, 66, 67, 61] :=
  ⟨[65, 66, 67], 1, rfl, by decide, by decide, by decide +kernel⟩

/-- **C45, what is proved.** Every text accepted is of the form the standard allows, unless its last
but one character is '=' and its last is not. Missing: those texts, see `C45_bad_padding_fails`. -/
theorem C45_rejects_invalid_partial (t : Bytes) (hne : t ≠ [])
    (hpad : t[t.length - 2]? = some 61 → t[t.length - 1]? = some 61) (hw : ¬ WellFormed t) :
    Verif.Base64.decode t = .fail := by
  by_cases hl : b64Limit < t.length
  · unfold Verif.Base64.decode; rw [if_pos hl]
  by_cases h4 : t.length % 4 ≠ 0
  · unfold Verif.Base64.decode; rw [if_neg hl, if_pos h4]
  have h4 := Classical.not_not.mp h4
  rcases decode_cases t (by omega) h4 hne with ⟨_, h3⟩ | ⟨h1, _⟩
  · refine absurd ⟨t.take (t.length - padding t), padding t, ?_, padding_le t, h4, h3⟩ hw
    have hpos : 0 < t.length := List.length_pos_iff.mpr hne
    have hp2 := padding_le t
    apply List.ext_getElem?
    intro i
    by_cases hi : i < t.length - padding t
    · rw [List.getElem?_append_left (by simp; omega), List.getElem?_take_of_lt hi]
    · rw [List.getElem?_append_right (by simp; omega)]
      simp only [List.length_take]
      by_cases hi2 : i < t.length
      · rw [List.getElem?_replicate_of_lt (by omega)]
        have hp : 0 < padding t := by omega
        by_cases c2 : t[t.length - 2]? = some 61
        · have : i = t.length - 1 ∨ i = t.length - 2 := by
            omega
          rcases this with rfl | rfl
          · exact hpad c2
          · exact c2
        · by_cases c1 : t[t.length - 1]? = some 61
          · have hp1 : padding t = 1 := by unfold padding pad; rw [if_neg c2, if_pos c1]
            rw [show i = t.length - 1 by omega]; exact c1
          · have hp0 : padding t = 0 := by unfold padding pad; rw [if_neg c2, if_neg c1]
            omega
      · rw [List.getElem?_eq_none (by omega), List.getElem?_eq_none (by simp; omega)]
  · exact h1

example : ¬ WellFormed [65, 66, 61, 67, 65, 66, 67, 68] := by
  rintro ⟨body, p, he, hp, _, hb⟩
  have hlen := congrArg List.length he
  simp at hlen
  have h2 : (61 : UInt8) ∈ body := by
    have : ([65, 66, 61, 67, 65, 66, 67, 68] : Bytes)[2]? = (body ++ List.replicate p 61)[2]? := by rw [← he]
    rw [List.getElem?_append_left (by omega)] at this
    exact List.mem_of_getElem? this.symm
  have hnp : (61 : UInt8) ∉ alphabet := by decide +kernel
  exact hnp (hb 61 h2)

/-- **C45 fails** for texts ending in '=' and another character, whatever that character is. -/
theorem C45_bad_padding_fails (z : UInt8) :
    ∃ o, Verif.Base64.decode [65, 66, 61, z] = .ok (o, o.length) := by
  have hp : padding [65, 66, 61, z] = 2 := by simp [padding, pad]
  rcases decode_cases [65, 66, 61, z] (by simp [b64Limit, binLimit]) (by simp) (by simp) with ⟨⟨o, h1, _⟩, _⟩ | ⟨_, h2⟩
  · exact ⟨o, h1⟩
  · refine absurd ?_ h2
    rw [hp]
    simp only [List.length_cons, List.length_nil, List.take_succ_cons, List.take_zero]
    decide +kernel

end Verif.Props
