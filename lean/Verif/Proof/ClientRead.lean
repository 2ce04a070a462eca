import Verif.Spec.ClientRead
import Verif.Proof.Framing
import Verif.Props.Framing

/-!
# Lemmas for C115
-/

namespace Verif.ClientRead

open Verif Verif.Header Verif.Framing Verif.Props

theorem readUntil_zero (s : List Recv) : readUntil 0 s = .got [] s := by
  cases s <;> rfl

theorem Calm.tail {r : Recv} {s : List Recv} (h : Calm (r :: s)) : Calm s :=
  fun x hx => h x (List.mem_cons_of_mem _ hx)

theorem readUntil_calm (c t : List Recv) (hc : Calm c) : ∀ k, k ≤ (bytes c).length →
    ∃ c', readUntil k (c ++ t) = .got ((bytes c).take k) (c' ++ t) ∧ Calm c' ∧
      bytes c' = (bytes c).drop k := by
  induction c with
  | nil =>
    intro k hk
    have : k = 0 := by simpa [bytes] using hk
    subst this
    exact ⟨[], by simp [readUntil_zero], hc, by simp⟩
  | cons r c ih =>
    intro k hk
    cases k with
    | zero => exact ⟨r :: c, by simp [readUntil_zero], hc, by simp⟩
    | succ k =>
      rcases hc r (by simp) with rfl | ⟨d, hd, rfl⟩
      · obtain ⟨c', h1, h2, h3⟩ := ih hc.tail (k + 1) hk
        exact ⟨c', by simpa [readUntil, bytes] using h1, h2, h3⟩
      · simp only [bytes, List.length_append] at hk
        by_cases hl : d.length ≤ k + 1
        · obtain ⟨c', h1, h2, h3⟩ := ih hc.tail (k + 1 - d.length) (by omega)
          refine ⟨c', ?_, h2, ?_⟩
          · simp only [List.cons_append, readUntil, if_neg hd, if_pos hl, h1, Got.after, bytes]
            rw [List.take_append, List.take_of_length_le hl]
          · simp only [bytes]
            rw [h3, List.drop_append, List.drop_of_length_le hl, List.nil_append]
        · refine ⟨.data (d.drop (k + 1)) :: c, ?_, ?_, ?_⟩
          · simp only [List.cons_append, readUntil, if_neg hd, if_neg hl, bytes]
            rw [List.take_append_of_le_length (by omega)]
          · intro x hx
            rcases List.mem_cons.1 hx with rfl | hx
            · refine Or.inr ⟨_, ?_, rfl⟩
              intro h0
              have := congrArg List.length h0
              simp at this
              omega
            · exact hc.tail x hx
          · simp only [bytes]
            rw [List.drop_append_of_le_length (by omega)]

theorem readUntil_short (c t : List Recv) (hc : Calm c) : ∀ k, (bytes c).length < k →
    readUntil k (c ++ .closed :: t) = .lost t := by
  induction c with
  | nil =>
    intro k hk
    cases k with
    | zero => simp at hk
    | succ k => rfl
  | cons r c ih =>
    intro k hk
    cases k with
    | zero => simp at hk
    | succ k =>
      rcases hc r (by simp) with rfl | ⟨d, hd, rfl⟩
      · simpa [readUntil] using ih hc.tail (k + 1) hk
      · simp only [bytes, List.length_append] at hk
        simp only [List.cons_append, readUntil, if_neg hd, if_pos (show d.length ≤ k + 1 by omega),
          ih hc.tail (k + 1 - d.length) (by omega), Got.after]

theorem encode_facts (h : Header) (hw : WellFormedHeader h) :
    (encode h).length ≤ 542 ∧ 32 ≤ (encode h).length ∧
    beNat ((((encode h).take 6).drop 4).take 2) = (encode h).length := by
  obtain ⟨h1, h2, _, _⟩ := hw
  obtain ⟨mid, hm, hml⟩ := encode_split h h1 h2
  have hlen : (encode h).length = 32 + h.topic.length + h.reply.length := by
    rw [hm]; simp only [List.length_append, beBytes_length]; omega
  refine ⟨by omega, by omega, ?_⟩
  rw [hlen, hm]
  have e : ∀ a b n : Bytes, a.length = 4 → n.length = 2 →
      (((a ++ n ++ b).take 6).drop 4).take 2 = n := by
    intro a b n ha hn
    rw [List.take_left' (by simp [ha, hn]), List.drop_left' ha, List.take_of_length_le (by omega)]
  rw [e _ _ _ (by simp) (by simp), beNat_beBytes]
  omega

/-- One message is read whole. -/
theorem pass_message (m : Msg) (hw : WellFormedHeader m.hdr)
    (hp : m.hdr.payloadLength.toNat = m.payload.length) (hs : m.payload.length < 2 ^ 31)
    (buf : Bytes) (hb : 542 ≤ buf.length) (c t : List Recv) (hc : Calm c) (more : Bytes)
    (hbytes : bytes c = wire m ++ more) :
    ∃ buf' c', pass buf (c ++ t) = .message (received m) buf' (c' ++ t) ∧
      buf'.length = buf.length ∧ Calm c' ∧ bytes c' = more := by
  obtain ⟨f1, f2, f3⟩ := encode_facts m.hdr hw
  have hlen : (bytes c).length = (encode m.hdr).length + (m.payload.length + more.length) := by
    rw [hbytes]; simp [wire]
  obtain ⟨c1, e1, k1, b1⟩ := readUntil_calm c t hc 6 (by omega)
  have t6 : (bytes c).take 6 = (encode m.hdr).take 6 := by
    rw [hbytes, wire, List.append_assoc, List.take_append_of_le_length (by omega)]
  have d6 : bytes c1 = (encode m.hdr).drop 6 ++ (m.payload ++ more) := by
    rw [b1, hbytes, wire, List.append_assoc, List.drop_append_of_le_length (by omega)]
  obtain ⟨c2, e2, k2, b2⟩ := readUntil_calm c1 t k1 ((encode m.hdr).length - 6)
    (by rw [d6]; simp)
  have l6 : ((encode m.hdr).drop 6).length = (encode m.hdr).length - 6 := by simp
  have t2 : (bytes c1).take ((encode m.hdr).length - 6) = (encode m.hdr).drop 6 := by
    rw [d6, ← l6, List.take_left']
    rfl
  have d2 : bytes c2 = m.payload ++ more := by
    rw [b2, d6, ← l6, List.drop_left']
    rfl
  obtain ⟨c3, e3, k3, b3⟩ := readUntil_calm c2 t k2 m.payload.length (by rw [d2]; simp)
  have t3 : (bytes c2).take m.payload.length = m.payload := by rw [d2]; simp
  have d3 : bytes c3 = more := by rw [b3, d2]; simp
  refine ⟨encode m.hdr ++ buf.drop (encode m.hdr).length, c3, ?_, ?_, k3, d3⟩
  · have a6 : 6 + ((encode m.hdr).length - 6) = (encode m.hdr).length := by omega
    simp only [pass, e1, t6, f3, if_neg (show ¬ buf.length < (encode m.hdr).length by omega), e2, t2,
      List.take_append_drop, l6, a6, C12_header_round_trip m.hdr hw, payload, hp,
      if_neg (show ¬ 2 ^ 31 ≤ m.payload.length by omega), e3, t3, received]
  · simp; omega

/-- A message cut off by the end of the connection. -/
theorem pass_cut (m : Msg) (hw : WellFormedHeader m.hdr)
    (hp : m.hdr.payloadLength.toNat = m.payload.length) (hs : m.payload.length < 2 ^ 31)
    (buf : Bytes) (hb : 542 ≤ buf.length) (c t : List Recv) (hc : Calm c) (more : Bytes)
    (hmore : more ≠ []) (hbytes : bytes c ++ more = wire m) :
    pass buf (c ++ .closed :: t) = .lost t := by
  obtain ⟨f1, f2, f3⟩ := encode_facts m.hdr hw
  have hml : 0 < more.length := List.length_pos_iff.2 hmore
  have hlen : (bytes c).length + more.length = (encode m.hdr).length + m.payload.length := by
    rw [← List.length_append, hbytes]; simp [wire]
  by_cases g1 : (bytes c).length < 6
  · simp only [pass, readUntil_short c t hc 6 g1]
  obtain ⟨c1, e1, k1, b1⟩ := readUntil_calm c (.closed :: t) hc 6 (by omega)
  have t6 : (bytes c).take 6 = (encode m.hdr).take 6 := by
    have := congrArg (List.take 6) hbytes
    rwa [wire, List.take_append_of_le_length (by omega), List.take_append_of_le_length (by omega)]
      at this
  have bl1 : (bytes c1).length = (bytes c).length - 6 := by rw [b1]; simp
  by_cases g2 : (bytes c).length < (encode m.hdr).length
  · simp only [pass, e1, t6, f3, if_neg (show ¬ buf.length < (encode m.hdr).length by omega),
      readUntil_short c1 t k1 ((encode m.hdr).length - 6) (by omega)]
  have d6 : bytes c1 ++ more = (encode m.hdr).drop 6 ++ m.payload := by
    have := congrArg (List.drop 6) hbytes
    rw [wire, List.drop_append_of_le_length (by omega), List.drop_append_of_le_length (by omega),
      ← b1] at this
    exact this
  obtain ⟨c2, e2, k2, b2⟩ := readUntil_calm c1 (.closed :: t) k1 ((encode m.hdr).length - 6)
    (by omega)
  have l6 : ((encode m.hdr).drop 6).length = (encode m.hdr).length - 6 := by simp
  have t2 : (bytes c1).take ((encode m.hdr).length - 6) = (encode m.hdr).drop 6 := by
    have := congrArg (List.take ((encode m.hdr).length - 6)) d6
    rw [List.take_append_of_le_length (by omega)] at this
    rw [this, ← l6, List.take_left']
    rfl
  have bl2 : (bytes c2).length = (bytes c1).length - ((encode m.hdr).length - 6) := by rw [b2]; simp
  have a6 : 6 + ((encode m.hdr).length - 6) = (encode m.hdr).length := by omega
  simp only [pass, e1, t6, f3, if_neg (show ¬ buf.length < (encode m.hdr).length by omega), e2, t2,
    List.take_append_drop, l6, a6, C12_header_round_trip m.hdr hw, payload, hp,
    if_neg (show ¬ 2 ^ 31 ≤ m.payload.length by omega),
    readUntil_short c2 t k2 m.payload.length (by omega)]

end Verif.ClientRead
