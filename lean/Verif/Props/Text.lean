import Verif.Proof.Text

/-!
# C44, C66, C67: values and texts
-/

namespace Verif.Props

open Verif Verif.Value Verif.Text Verif.Spec.Text

/-- C44: setting an integer value from a text succeeds only if the text denotes a number of the type, and the value
then holds exactly this number. For 32 and 64 bit `long`.

Missing: unsigned types and texts with a minus sign after blanks, for which it fails (`C44_blank_fails`). -/
theorem C44_exact_partial {w : Nat} (hw : w = 32 ∨ w = 64) (ty : IntTy) (s : Bytes) (v : Scalar)
    (hs : noSign ty = true → ¬ BlankMinus s) (h : setFromString w (tyOf ty) s = some v) :
    ∃ z, Denotes (prefixes ty) s z ∧ least ty ≤ z ∧ z ≤ greatest ty ∧ held ty v = some z := by
  obtain ⟨z, h1, rfl⟩ := (set_iff ty).1 h
  obtain ⟨h2, h3, h4⟩ := (parse_iff hw ty s z hs).1 h1
  exact ⟨z, h2, h3, h4, held_put h3 h4⟩

example : setFromString 32 .int8 [32, 45, 48, 120, 55, 70] = some (.int8 (-127)) ∧
    setFromString 64 .int8 [49, 50, 56] = none ∧ ¬ BlankMinus [45, 48] := by
  refine ⟨by decide, by decide, ?_⟩
  rintro ⟨b, r, h, h1, h2⟩
  cases b with
  | nil => exact h1 rfl
  | cons c b =>
    simp only [List.cons_append, List.cons.injEq] at h
    have := h2 c (by simp)
    rw [← h.1] at this
    simp [Blank] at this

/-- C44: every text that denotes a number of the type is accepted. -/
theorem C44_accepts {w : Nat} (hw : w = 32 ∨ w = 64) (ty : IntTy) (s : Bytes) (z : Int)
    (h : Denotes (prefixes ty) s z) (h1 : least ty ≤ z) (h2 : z ≤ greatest ty) :
    ∃ v, setFromString w (tyOf ty) s = some v ∧ held ty v = some z :=
  ⟨put ty z, (set_iff ty).2 ⟨z, parse_complete hw ty s z h h1 h2, rfl⟩, held_put h1 h2⟩

example : Denotes true [43, 48, 49, 48] 8 :=
  ⟨[], [43], [48, 49, 48], 8, rfl, by simp,
    Or.inr (Or.inl ⟨rfl, by simp, [0, 1, 0], by simp [digitOf], by simp, by simp [number]⟩), Or.inl ⟨by simp, rfl⟩⟩

/-- C44: a boolean is set from the words true and false, in upper or lower case letters, and from 1 and 0; every other
text is refused. -/
theorem C44_boolean (w : Nat) (s : Bytes) :
    setFromString w .boolean s =
      if s.map lower = "true".toUTF8.toList ∨ s = "1".toUTF8.toList then some (.boolean true)
      else if s.map lower = "false".toUTF8.toList ∨ s = "0".toUTF8.toList then some (.boolean false)
      else none := by
  have h1 : "true".toUTF8.toList = [116, 114, 117, 101] := by decide +kernel
  have h2 : "false".toUTF8.toList = [102, 97, 108, 115, 101] := by decide +kernel
  have h3 : "1".toUTF8.toList = [49] := by decide +kernel
  have h4 : "0".toUTF8.toList = [48] := by decide +kernel
  rw [h1, h2, h3, h4]
  rfl

example : setFromString 64 .boolean "TrUe".toUTF8.toList = some (.boolean true) ∧
    setFromString 64 .boolean "yes".toUTF8.toList = none := by decide +kernel

/-- C44 fails: a blank before the minus sign is enough for every negative number to be accepted by a 64-bit value
without sign, which then holds another number. Likewise 32-bit values where `long` has 32 bits. -/
theorem C44_blank_fails (n : Nat) (h0 : 0 < n) :
    (n < 2 ^ 64 → ∀ w, setFromString w .uint64 (32 :: 45 :: Element.decimal n) = some (.uint64 (BitVec.ofNat 64 (2 ^ 64 - n)))) ∧
    (n < 2 ^ 32 → setFromString 32 .uint32 (32 :: 45 :: Element.decimal n) = some (.uint32 (BitVec.ofNat 32 (2 ^ 32 - n)))) ∧
    Denotes false (32 :: 45 :: Element.decimal n) (-n) ∧
    ¬ (∀ s v, setFromString 64 .uint64 s = some v → ∃ z, Denotes false s z ∧ held .uint64 v = some z) := by
  have hs : ∀ n, strto false (32 :: 45 :: Element.decimal n) = some (true, n, []) := fun n =>
    (strto_iff _ _ _ _).2 ⟨[32], [45], _, rfl, by simp [Blank], decimal_unsigned _ _, rfl⟩
  have h64 : ∀ n, 0 < n → n < 2 ^ 64 → ∀ w, setFromString w .uint64 (32 :: 45 :: Element.decimal n) =
      some (.uint64 (BitVec.ofNat 64 (2 ^ 64 - n))) := by
    intro n h0 hn w
    refine (set_iff .uint64).2 ⟨((2 ^ 64 - n : Nat) : Int), ?_, ?_⟩
    · refine (parseUnsigned_iff (by omega) _ _).2 ⟨true, n, hs n, hn, by omega, ?_, by simp⟩
      rw [if_pos rfl, Nat.mod_eq_of_lt (by omega)]
    · show Scalar.uint64 (BitVec.ofNat 64 (2 ^ 64 - n)) = Scalar.uint64 (BitVec.ofInt 64 _)
      rw [BitVec.ofInt_natCast]
  have hd : ∀ n : Nat, Denotes false (32 :: 45 :: Element.decimal n) (-n) := fun n =>
    ⟨[32], [45], _, n, rfl, by simp [Blank], decimal_unsigned _ _, Or.inr ⟨rfl, rfl⟩⟩
  refine ⟨h64 n h0, ?_, hd n, ?_⟩
  · intro hn
    refine (set_iff .uint32).2 ⟨((2 ^ 32 - n : Nat) : Int), ?_, ?_⟩
    · refine (parseUnsigned_iff (by omega) _ _).2 ⟨true, n, hs n, hn, by omega, ?_, by simp⟩
      rw [if_pos rfl, Nat.mod_eq_of_lt (by omega)]
    · show Scalar.uint32 (BitVec.ofNat 32 (2 ^ 32 - n)) = Scalar.uint32 (BitVec.ofInt 32 _)
      rw [BitVec.ofInt_natCast]
  · intro h
    obtain ⟨z, h1, h2⟩ := h _ _ (h64 1 (by omega) (by omega) 64)
    have h3 := denotes_unique h1 (hd 1)
    subst h3
    simp [held] at h2

/-- C66: a boolean, character, integer or text converted to text and back is the same value. Texts have no NUL
within, being C strings.

Missing: floating-point values and times are not modelled; RBUS_BYTE and RBUS_BYTES values fail
(`C66_byte_fails`, `C66_bytes_fails`). -/
theorem C66_round_trip_partial {w : Nat} (hw : w = 32 ∨ w = 64) (v : Scalar) (t : Bytes) (ht : text v = some t)
    (hv : v.ty ≠ .byte ∧ v.ty ≠ .bytes) : setFromString w v.ty t = some v := by
  have int : ∀ ty z, tyOf ty = v.ty → held ty v = some z → put ty z = v → Denotes (prefixes ty) t z →
      least ty ≤ z → z ≤ greatest ty → setFromString w v.ty t = some v := by
    intro ty z h1 h2 h3 h4 h5 h6
    rw [← h1]
    exact (set_iff ty).2 ⟨z, parse_complete hw ty t z h4 h5 h6, h3.symm⟩
  cases v with
  | boolean b => cases b <;> cases ht <;> rfl
  | char c =>
    simp only [text, Option.some.injEq] at ht
    split at ht
    · rename_i hc; subst ht; subst hc; rfl
    · subst ht; rfl
  | byte c => exact absurd rfl hv.1
  | bytes c => exact absurd rfl hv.2
  | int8 v =>
    cases ht
    refine int .int8 v.toInt rfl rfl (by simp [put]) (signed_denotes _ _) ?_ ?_ <;>
      simp only [least, greatest] <;> have := v.toInt_lt <;> have := v.le_toInt <;> omega
  | int16 v =>
    cases ht
    refine int .int16 v.toInt rfl rfl (by simp [put]) (signed_denotes _ _) ?_ ?_ <;>
      simp only [least, greatest] <;> have := v.toInt_lt <;> have := v.le_toInt <;> omega
  | int32 v =>
    cases ht
    refine int .int32 v.toInt rfl rfl (by simp [put]) (signed_denotes _ _) ?_ ?_ <;>
      simp only [least, greatest] <;> have := v.toInt_lt <;> have := v.le_toInt <;> omega
  | int64 v =>
    cases ht
    refine int .int64 v.toInt rfl rfl (by simp [put]) (signed_denotes _ _) ?_ ?_ <;>
      simp only [least, greatest] <;> have := v.toInt_lt <;> have := v.le_toInt <;> omega
  | uint8 v =>
    cases ht
    refine int .uint8 v.toNat rfl rfl (by simp [put]) (unsigned_denotes _ _) ?_ ?_ <;>
      simp only [least, greatest] <;> have := v.isLt <;> omega
  | uint16 v =>
    cases ht
    refine int .uint16 v.toNat rfl rfl (by simp [put]) (unsigned_denotes _ _) ?_ ?_ <;>
      simp only [least, greatest] <;> have := v.isLt <;> omega
  | uint32 v =>
    cases ht
    refine int .uint32 v.toNat rfl rfl (by simp [put]) (unsigned_denotes _ _) ?_ ?_ <;>
      simp only [least, greatest] <;> have := v.isLt <;> omega
  | uint64 v =>
    cases ht
    refine int .uint64 v.toNat rfl rfl (by simp [put]) (unsigned_denotes _ _) ?_ ?_ <;>
      simp only [least, greatest] <;> have := v.isLt <;> omega
  | string s => simp only [text] at ht; subst ht; rfl
  | single | double | datetime | none => simp [text] at ht

example : text (.int16 (-32768)) = some [45, 51, 50, 55, 54, 56] ∧ text (.boolean true) = some [116, 114, 117, 101] := by
  decide

/-- C66: the text of an integer is its decimal form. -/
theorem C66_text_exact (ty : IntTy) (v : Scalar) (z : Int) (h : held ty v = some z) :
    text v = some ((toString z).toList.map fun c => UInt8.ofNat c.toNat) := by
  have hn : ∀ n : Nat, Element.decimal n = (toString (n : Int)).toList.map fun c => UInt8.ofNat c.toNat := by
    intro n
    show _ = (Int.repr (n : Int)).toList.map _
    show _ = (Nat.repr n).toList.map _
    simp [Element.decimal, Nat.repr]
  have hz : ∀ z : Int, signedText z = (toString z).toList.map fun c => UInt8.ofNat c.toNat := by
    intro z
    unfold signedText
    split
    · rename_i hz
      obtain ⟨n, rfl⟩ : ∃ n : Nat, z = Int.negSucc n := by
        cases z with
        | ofNat n => exact absurd hz (by simp)
        | negSucc n => exact ⟨n, rfl⟩
      show _ = (Int.repr (Int.negSucc n)).toList.map _
      simp [Int.repr, Element.decimal, Nat.repr]
    · rw [hn]
      congr 2
      have : ((z.natAbs : Nat) : Int) = z := by omega
      rw [this]
  cases ty <;> cases v <;> simp only [held] at h <;> cases h <;> simp only [text, hz, hn]

example : text (.int8 (-7)) = some [45, 55] ∧ (toString (-7 : Int)).toList = ['-', '7'] := by decide +kernel

/-- C66 fails for every RBUS_BYTE value except 0x33: its text is hexadecimal but the first character is read back
as it is. -/
theorem C66_byte_fails (w : Nat) (b : BitVec 8) (hb : b ≠ 0x33) :
    ∃ t b', text (.byte b) = some t ∧ setFromString w .byte t = some (.byte b') ∧ b' ≠ b := by
  have h : ∀ b : BitVec 8, b ≠ 0x33 → ((hexText b.toNat).headD 0).toBitVec ≠ b := by
    intro b
    have : ∀ n : Fin 256, BitVec.ofFin n ≠ (0x33 : BitVec 8) → ((hexText n.1).headD 0).toBitVec ≠ BitVec.ofFin n := by
      decide +kernel
    exact this b.toFin
  exact ⟨_, _, rfl, rfl, h b hb⟩

example : text (.byte 0xab) = some [97, 98] ∧ setFromString 64 .byte [97, 98] = some (.byte 0x61) := by decide

/-- C66 fails for every RBUS_BYTES value that is not empty: it comes back as the text of its hexadecimal digits,
twice as long. -/
theorem C66_bytes_fails (w : Nat) (s : Bytes) (hs : s ≠ []) :
    ∃ t, text (.bytes (some s)) = some t ∧ setFromString w .bytes t = some (.bytes (some t)) ∧
      t.length = 2 * s.length ∧ Scalar.bytes (some t) ≠ Scalar.bytes (some s) := by
  refine ⟨_, rfl, rfl, hex_length s, ?_⟩
  intro h
  simp only [Scalar.bytes.injEq, Option.some.injEq] at h
  have h1 := hex_length s
  rw [h] at h1
  cases s with
  | nil => exact hs rfl
  | cons a l => simp only [List.length_cons] at h1; omega

example : setFromString 64 .bytes [48, 65] = some (.bytes (some [48, 65])) ∧ text (.bytes (some [10])) = some [48, 65] := by
  decide

/-- C67: converting a boolean, character or integer into a buffer of `n` bytes writes at most `n`, and if there is
room for a byte at all, as much of the text as fits before a NUL.

Missing: floating-point values and times are not modelled; texts may stay without NUL (`C67_string_fails`), and
RBUS_BYTES values are written beyond the end (`C67_bytes_fails`). -/
theorem C67_buffer_partial (v : Scalar) (t : Bytes) (ht : text v = some t) (n : Nat)
    (hv : v.ty ≠ .string ∧ v.ty ≠ .bytes) :
    ∃ o, toBuffer v n = .ok o ∧ o.length ≤ n ∧ (0 < n → ∃ p q, o = p ++ 0 :: q ∧ p = t.take (n - 1)) := by
  have key : ∀ t, (snprintf n t).length ≤ n ∧ (0 < n → ∃ p q, snprintf n t = p ++ 0 :: q ∧ p = t.take (n - 1)) := by
    intro t
    unfold snprintf
    split
    · rename_i h; subst h; exact ⟨by simp, by omega⟩
    · exact ⟨by simp only [List.length_append, List.length_take, List.length_singleton]; omega,
        fun _ => ⟨_, [], rfl, rfl⟩⟩
  cases v with
  | char c =>
    refine ⟨_, rfl, (key _).1, fun hn => ?_⟩
    simp only [text, Option.some.injEq] at ht
    obtain ⟨p, q, h1, h2⟩ := (key [⟨c⟩]).2 hn
    split at ht
    · rename_i hc
      subst ht; subst hc
      refine ⟨[], ?_, ?_, by simp⟩
      · exact if n = 1 then [] else [0]
      · unfold snprintf
        rw [if_neg (by omega)]
        by_cases h : n = 1
        · subst h; rfl
        · rw [List.take_of_length_le (by simp; omega)]
          simp [h]
    · subst ht; exact ⟨p, q, h1, h2⟩
  | string => exact absurd rfl hv.1
  | bytes => exact absurd rfl hv.2
  | single | double | datetime | none => simp [text] at ht
  | _ => cases ht; exact ⟨_, rfl, key _⟩

example : toBuffer (.int32 (-12)) 3 = .ok [45, 49, 0] ∧ toBuffer (.char 0) 3 = .ok [0, 0] := by decide

/-- C67 fails: a text that does not fit leaves the buffer without a NUL, and so does one of exactly the size. -/
theorem C67_string_fails (s : Bytes) (hs : 0 ∉ s) (n : Nat) (hn : n ≤ s.length) :
    ∃ o, toBuffer (.string (some s)) n = .ok o ∧ o.length = n ∧ 0 ∉ o := by
  refine ⟨_, rfl, by simp; omega, ?_⟩
  rw [List.take_append_of_le_length hn]
  exact fun h => hs (List.mem_of_mem_take h)

example : toBuffer (.string (some [97, 98])) 2 = .ok [97, 98] := by decide

/-- C67 fails: the size is not looked at for RBUS_BYTES values; a buffer smaller than twice the length and one is
overrun. -/
theorem C67_bytes_fails (s : Bytes) (n : Nat) (hn : n ≤ 2 * s.length) : toBuffer (.bytes (some s)) n = .ub := by
  show (if 2 * s.length + 1 ≤ n then _ else Res.ub) = _
  rw [if_neg (by omega)]

example : toBuffer (.bytes (some [1, 2, 3])) 6 = .ub := by decide

end Verif.Props
