import Verif.Proof.Header

/-!
# C12, C13: the message header
-/

namespace Verif.Props

open Verif Verif.Header

/-- Headers the API can produce: topics are NUL-free C strings that fit the 256-byte arrays. -/
def WellFormedHeader (h : Header) : Prop :=
  h.topic.length < 256 ∧ h.reply.length < 256 ∧ (0 : UInt8) ∉ h.topic ∧ (0 : UInt8) ∉ h.reply

/-- C12. Decoding the encoding of a header, followed by anything, returns the same sequence number,
flags, control data, payload length and topics, with the protocol version and the true length of
the encoding. -/
theorem C12_header_round_trip (h : Header) (hw : WellFormedHeader h) (rest : Bytes) :
    decode (encode h ++ rest) =
      .ok { h with version := 2, headerLength := (encode h).length } := by
  obtain ⟨h1, h2, h3, h4⟩ := hw
  have b32 : ∀ v : BitVec 32, v.toNat < 256 ^ 4 := fun v => by have := v.isLt; omega
  have hlen : (encode h).length = 32 + h.topic.length + h.reply.length := by
    simp [encode]; omega
  have hlt : (32 + h.topic.length + h.reply.length) % 65536 < 256 ^ 2 := by omega
  simp only [encode, List.append_assoc, decode]
  simp only [takeBE_append _ (show marker < 256 ^ 2 by decide),
    takeBE_append _ (show protoVersion < 256 ^ 2 by decide), takeBE_append _ hlt,
    takeBE_append _ (b32 h.seq), takeBE_append _ (b32 h.flags), takeBE_append _ (b32 h.control),
    takeBE_append _ (b32 h.payloadLength),
    takeBE_append _ (show h.topic.length < 256 ^ 4 by omega),
    takeBE_append _ (show h.reply.length < 256 ^ 4 by omega),
    Res.ok_bind, takeN_append _ _ rfl, ne_eq, not_true_eq_false, if_false,
    if_neg (Nat.not_le.2 h1), if_neg (Nat.not_le.2 h2), Res.pure_eq, cstr_clean h3, cstr_clean h4,
    ge_iff_le]
  congr 2
  · simp; omega
  all_goals simp

private def demo : Header :=
  { version := 0, headerLength := 0, seq := 77, flags := 1, control := 5, payloadLength := 10,
    topic := [65, 46, 66], reply := [95, 82] }

example : WellFormedHeader demo := by simp [WellFormedHeader, demo]

/-- C12. Different well-formed headers have different encodings. -/
theorem C12_header_injective (h₁ h₂ : Header) (w₁ : WellFormedHeader h₁) (w₂ : WellFormedHeader h₂)
    (he : encode h₁ = encode h₂) :
    h₁.seq = h₂.seq ∧ h₁.flags = h₂.flags ∧ h₁.control = h₂.control ∧
    h₁.payloadLength = h₂.payloadLength ∧ h₁.topic = h₂.topic ∧ h₁.reply = h₂.reply := by
  have e1 := C12_header_round_trip h₁ w₁ []
  have e2 := C12_header_round_trip h₂ w₂ []
  rw [he, e2] at e1
  simp only [Res.ok.injEq, Header.mk.injEq] at e1
  obtain ⟨_, _, a, b, c, d, e, f⟩ := e1
  exact ⟨a.symm, b.symm, c.symm, d.symm, e.symm, f.symm⟩

/-! ## C13 -/

/-- C13. For every content of a receive buffer of at least 544 bytes, decoding stays inside the
buffer, and if it succeeds both topics are shorter than 256 bytes and free of NUL, and the opening
marker was present. (The receive buffers have 65536 bytes, or 8192 on RDKC.) -/
theorem C13_decode_safe (bs : Bytes) (hb : 544 ≤ bs.length) :
    decode bs ≠ .ub ∧
    ∀ h, decode bs = .ok h →
      h.topic.length < 256 ∧ h.reply.length < 256 ∧ (0 : UInt8) ∉ h.topic ∧ (0 : UInt8) ∉ h.reply ∧
      bs.take 2 = [0xAA, 0xAA] := by
  have cstr_ok : ∀ s : Bytes, (0 : UInt8) ∉ cstr s ∧ (cstr s).length ≤ s.length := by
    intro s
    constructor
    · intro hm
      have := List.all_takeWhile (p := fun x : UInt8 => decide (x ≠ 0)) (l := s)
      rw [List.all_eq_true] at this
      have := this 0 hm
      simp at this
    · exact (List.takeWhile_prefix _).length_le
  have hmark : beNat (bs.take 2) = marker → bs.take 2 = [0xAA, 0xAA] := by
    intro hm
    have hl : (bs.take 2).length = 2 := by simp; omega
    have := beBytes_beNat (bs.take 2)
    rw [hl, hm] at this
    rw [← this]
    decide
  unfold decode
  rw [takeBE_cases _ _ (by omega)]
  simp only [Res.ok_bind]
  by_cases hm : beNat (bs.take 2) ≠ marker
  · rw [if_pos hm]; simp
  rw [if_neg hm]
  have hm := hmark (Classical.not_not.1 hm)
  rw [takeBE_cases _ _ (by simp; omega)]
  simp only [Res.ok_bind, List.drop_drop]
  rw [takeBE_cases _ _ (by simp; omega)]
  simp only [Res.ok_bind, List.drop_drop]
  rw [takeBE_cases _ _ (by simp; omega)]
  simp only [Res.ok_bind, List.drop_drop]
  rw [takeBE_cases _ _ (by simp; omega)]
  simp only [Res.ok_bind, List.drop_drop]
  rw [takeBE_cases _ _ (by simp; omega)]
  simp only [Res.ok_bind, List.drop_drop]
  rw [takeBE_cases _ _ (by simp; omega)]
  simp only [Res.ok_bind, List.drop_drop]
  rw [takeBE_cases _ _ (by simp; omega)]
  simp only [Res.ok_bind, List.drop_drop]
  generalize beNat ((bs.drop (2 + 2 + 2 + 4 + 4 + 4 + 4)).take 4) = tlen
  by_cases ht : tlen ≥ 256
  · rw [if_pos ht]; simp
  rw [if_neg ht, takeN_cases _ _ (by simp; omega)]
  simp only [Res.ok_bind, List.drop_drop]
  rw [takeBE_cases _ _ (by simp; omega)]
  simp only [Res.ok_bind, List.drop_drop]
  generalize beNat ((bs.drop (2 + 2 + 2 + 4 + 4 + 4 + 4 + 4 + tlen)).take 4) = rlen
  by_cases hr : rlen ≥ 256
  · rw [if_pos hr]; simp
  rw [if_neg hr, takeN_cases _ _ (by simp; omega)]
  simp only [Res.ok_bind, List.drop_drop]
  rw [takeBE_cases _ _ (by simp; omega)]
  simp only [Res.ok_bind]
  split
  · simp
  · refine ⟨by simp, ?_⟩
    intro h hh
    simp only [Res.pure_eq, Res.ok.injEq] at hh
    subst hh
    refine ⟨?_, ?_, (cstr_ok _).1, (cstr_ok _).1, hm⟩
    · refine Nat.lt_of_le_of_lt (cstr_ok _).2 ?_
      simp; omega
    · refine Nat.lt_of_le_of_lt (cstr_ok _).2 ?_
      simp; omega

example : (encode demo ++ List.replicate 544 0).length ≥ 544 := by
  rw [List.length_append, List.length_replicate]; omega

/-- C13. Anything whose first two bytes are not the marker, or whose topic length field is 256 or
more, is rejected. -/
theorem C13_decode_rejects (bs : Bytes) (hb : 544 ≤ bs.length)
    (hbad : bs.take 2 ≠ [0xAA, 0xAA] ∨ 256 ≤ beNat ((bs.drop 22).take 4)) :
    decode bs = .fail := by
  unfold decode
  rw [takeBE_cases _ _ (by omega)]
  simp only [Res.ok_bind]
  by_cases hm : beNat (bs.take 2) ≠ marker
  · rw [if_pos hm]
  rw [if_neg hm]
  have hl : (bs.take 2).length = 2 := by simp; omega
  have hm2 : bs.take 2 = [0xAA, 0xAA] := by
    have h2 := beBytes_beNat (bs.take 2)
    rw [hl, Classical.not_not.1 hm] at h2
    rw [← h2]
    decide
  rcases hbad with h | h
  · exact absurd hm2 h
  · rw [takeBE_cases _ _ (by simp; omega)]
    simp only [Res.ok_bind, List.drop_drop]
    rw [takeBE_cases _ _ (by simp; omega)]
    simp only [Res.ok_bind, List.drop_drop]
    rw [takeBE_cases _ _ (by simp; omega)]
    simp only [Res.ok_bind, List.drop_drop]
    rw [takeBE_cases _ _ (by simp; omega)]
    simp only [Res.ok_bind, List.drop_drop]
    rw [takeBE_cases _ _ (by simp; omega)]
    simp only [Res.ok_bind, List.drop_drop]
    rw [takeBE_cases _ _ (by simp; omega)]
    simp only [Res.ok_bind, List.drop_drop]
    rw [takeBE_cases _ _ (by simp; omega)]
    simp only [Res.ok_bind, List.drop_drop]
    rw [if_pos h]

/-- C13. Exactly these byte strings are accepted as a header: marker, version, header length, sequence
number, flags, control data, payload length, topic length and topic, reply topic length and reply
topic, marker, all big-endian, the topics shorter than 256 bytes; the decoded header holds exactly
those numbers and the topics up to their first NUL. -/
theorem C13_accepts_iff (bs : Bytes) (h : Header) :
    decode bs = .ok h ↔
      ∃ seq flags control plen : Nat, ∃ t r rest : Bytes,
        bs = [0xAA, 0xAA] ++ beBytes 2 h.version ++ beBytes 2 h.headerLength ++ beBytes 4 seq ++
          beBytes 4 flags ++ beBytes 4 control ++ beBytes 4 plen ++ beBytes 4 t.length ++ t ++
          beBytes 4 r.length ++ r ++ [0xAA, 0xAA] ++ rest ∧
        h.version < 2 ^ 16 ∧ h.headerLength < 2 ^ 16 ∧ t.length < 256 ∧ r.length < 256 ∧
        h.seq.toNat = seq ∧ h.flags.toNat = flags ∧ h.control.toNat = control ∧
        h.payloadLength.toNat = plen ∧
        h.topic = t.takeWhile (· ≠ 0) ∧ h.reply = r.takeWhile (· ≠ 0) := by
  have hmk : ([0xAA, 0xAA] : Bytes) = beBytes 2 marker := by decide
  rw [hmk]
  constructor
  · intro hd
    unfold decode at hd
    obtain ⟨⟨m, b1⟩, e1, hd⟩ := bind_inv hd
    obtain ⟨q1, _⟩ := takeBE_inv e1
    dsimp only at hd
    by_cases hm : m ≠ marker
    · rw [if_pos hm] at hd; exact absurd hd (by simp)
    rw [if_neg hm] at hd
    have hm := Classical.not_not.1 hm
    subst hm
    obtain ⟨⟨version, b2⟩, e2, hd⟩ := bind_inv hd
    obtain ⟨q2, l2⟩ := takeBE_inv e2
    obtain ⟨⟨hl, b3⟩, e3, hd⟩ := bind_inv hd
    obtain ⟨q3, l3⟩ := takeBE_inv e3
    obtain ⟨⟨seq, b4⟩, e4, hd⟩ := bind_inv hd
    obtain ⟨q4, l4⟩ := takeBE_inv e4
    obtain ⟨⟨flags, b5⟩, e5, hd⟩ := bind_inv hd
    obtain ⟨q5, l5⟩ := takeBE_inv e5
    obtain ⟨⟨control, b6⟩, e6, hd⟩ := bind_inv hd
    obtain ⟨q6, l6⟩ := takeBE_inv e6
    obtain ⟨⟨plen, b7⟩, e7, hd⟩ := bind_inv hd
    obtain ⟨q7, l7⟩ := takeBE_inv e7
    obtain ⟨⟨tlen, b8⟩, e8, hd⟩ := bind_inv hd
    obtain ⟨q8, l8⟩ := takeBE_inv e8
    dsimp only at hd
    by_cases ht : tlen ≥ 256
    · rw [if_pos ht] at hd; exact absurd hd (by simp)
    rw [if_neg ht] at hd
    obtain ⟨⟨topic, b9⟩, e9, hd⟩ := bind_inv hd
    obtain ⟨q9, l9⟩ := takeN_inv e9
    obtain ⟨⟨rlen, b10⟩, e10, hd⟩ := bind_inv hd
    obtain ⟨q10, l10⟩ := takeBE_inv e10
    dsimp only at hd
    by_cases hr : rlen ≥ 256
    · rw [if_pos hr] at hd; exact absurd hd (by simp)
    rw [if_neg hr] at hd
    obtain ⟨⟨reply, b11⟩, e11, hd⟩ := bind_inv hd
    obtain ⟨q11, l11⟩ := takeN_inv e11
    obtain ⟨⟨m2, b12⟩, e12, hd⟩ := bind_inv hd
    obtain ⟨q12, _⟩ := takeBE_inv e12
    dsimp only at hd
    by_cases hm2 : m2 ≠ marker
    · rw [if_pos hm2] at hd; exact absurd hd (by simp)
    rw [if_neg hm2] at hd
    have hm2 := Classical.not_not.1 hm2
    subst hm2
    simp only [Res.pure_eq, Res.ok.injEq] at hd
    subst hd
    have big : ∀ {n : Nat}, n < 256 ^ 4 → (BitVec.ofNat 32 n).toNat = n := by
      intro n hn
      rw [BitVec.toNat_ofNat]
      exact Nat.mod_eq_of_lt (by omega)
    refine ⟨seq, flags, control, plen, topic, reply, b12, ?_, by omega, by omega, by omega, by omega, big l4,
      big l5, big l6, big l7, rfl, rfl⟩
    simp only [List.append_assoc]
    rw [l9, l11, ← q12, ← q11, ← q10, ← q9, ← q8, ← q7, ← q6, ← q5, ← q4, ← q3, ← q2]
    exact q1
  · rintro ⟨seq, flags, control, plen, t, r, rest, rfl, h1, h2, h3, h4, h5, h6, h7, h8, h9, h10⟩
    have b32 : ∀ v : BitVec 32, v.toNat < 256 ^ 4 := fun v => by have := v.isLt; omega
    obtain ⟨version, hl, sq, fl, ct, pl, tp, rp⟩ := h
    simp only at h1 h2 h5 h6 h7 h8 h9 h10
    subst h5 h6 h7 h8 h9 h10
    simp only [List.append_assoc, decode]
    simp only [takeBE_append _ (show marker < 256 ^ 2 by decide),
      takeBE_append _ (show version < 256 ^ 2 by omega), takeBE_append _ (show hl < 256 ^ 2 by omega),
      takeBE_append _ (b32 _),
      takeBE_append _ (show t.length < 256 ^ 4 by omega),
      takeBE_append _ (show r.length < 256 ^ 4 by omega),
      Res.ok_bind, takeN_append _ _ rfl, ne_eq, not_true_eq_false, if_false,
      if_neg (Nat.not_le.2 h3), if_neg (Nat.not_le.2 h4), Res.pure_eq, ge_iff_le]
    simp [cstr]

end Verif.Props
