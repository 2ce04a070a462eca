import Verif.Proof.Framing
import Verif.Props.Header

/-!
# C14, C15, C54: what the router does with the bytes a client sends
-/

namespace Verif.Props

open Verif Verif.Header Verif.Framing

/-- C14. Whatever sizes `recv` happens to return, the same bytes leave the connection in the same
state and give the same dispatched messages. (`limits₁` and `limits₂` are any two histories of
`recv` sizes long enough to consume the stream.) -/
theorem C14_chunking_irrelevant (st : St) (stream : Bytes) (limits₁ limits₂ : List Nat)
    (h₁ : stream.length ≤ limits₁.length) (h₂ : stream.length ≤ limits₂.length) :
    run limits₁ st stream = run limits₂ st stream := by
  rw [run_eq_bytesRun h₁, run_eq_bytesRun h₂]

/-- A message as a client sends it: the encoded header, then the payload. -/
def wire (m : Msg) : Bytes := encode m.hdr ++ m.payload

/-- Messages the property speaks about: valid topics, a payload that is not empty and has the
length the header announces, all of it addressable by `int`. -/
def Sendable (m : Msg) : Prop :=
  WellFormedHeader m.hdr ∧ m.payload ≠ [] ∧ m.hdr.payloadLength.toNat = m.payload.length ∧
  m.payload.length + 2 ^ 11 < 2 ^ 31

/-- The message as the receiver sees it: version and header length are filled in. -/
def received (m : Msg) : Msg :=
  { m with hdr := { m.hdr with version := 2, headerLength := (encode m.hdr).length } }

private def demoMsg (k : Nat) (p : Bytes) : Msg :=
  { hdr := { version := 0, headerLength := 0, seq := BitVec.ofNat 32 k, flags := 1, control := 5,
             payloadLength := BitVec.ofNat 32 p.length, topic := [65, 46, 66], reply := [95, 82] }
    payload := p }

example : run [100, 0, 9, 100, 100, 100] (init 600) (wire (demoMsg 1 [1, 2, 3])) =
    run (List.replicate 40 3) (init 600) (wire (demoMsg 1 [1, 2, 3])) := by decide +kernel

theorem stream_run {base : Nat} (hb : 544 ≤ base) : ∀ (ms : List Msg), (∀ m ∈ ms, Sendable m) →
    ∀ {st : St}, Ready base st → ∀ (s : Bytes), ∃ st', Ready base st' ∧
      bytesRun st (ms.flatMap wire ++ s) =
        ((bytesRun st' s).1, ms.map received ++ (bytesRun st' s).2) := by
  intro ms
  induction ms with
  | nil => intro _ st hr s; exact ⟨st, hr, rfl⟩
  | cons m ms ih =>
    intro hms st hr s
    obtain ⟨hw, hp, hl, hf⟩ := hms m (by simp)
    have hlen : (encode m.hdr).length < 544 := by
      have h1 := hw.1
      have h2 := hw.2.1
      simp only [encode, List.length_append, beBytes_length]; omega
    obtain ⟨st1, hr1, e1⟩ := message_step hb hr m.hdr m.payload hw.1 hw.2.1 hp hl (by omega)
      (C12_header_round_trip m.hdr hw) (ms.flatMap wire ++ s)
    obtain ⟨st2, hr2, e2⟩ := ih (fun x hx => hms x (by simp [hx])) hr1 s
    refine ⟨st2, hr2, ?_⟩
    rw [List.flatMap_cons, List.append_assoc, wire, e1, e2]
    rfl

/-- C15, for messages with a payload. From a new connection, however `recv` cuts the stream, every
message is dispatched exactly once and in the order sent, with its own header and payload, and the
connection is ready for the next message. (Missing: messages with an empty payload, see
`C15_empty_payload_fails`.) -/
theorem C15_each_message_once_partial (base : Nat) (hb : 544 ≤ base) (ms : List Msg)
    (hms : ∀ m ∈ ms, Sendable m) (limits : List Nat)
    (hl : (ms.flatMap wire).length ≤ limits.length) :
    ∃ st, run limits (init base) (ms.flatMap wire) = (.alive st, ms.map received) ∧
      st.mode = .preamble ∧ st.got = 0 ∧ st.need = 6 := by
  obtain ⟨st, hr, e⟩ := stream_run hb ms hms (ready_init base) []
  refine ⟨st, ?_, hr.2.1, hr.2.2.2.1, hr.2.2.1⟩
  rw [run_eq_bytesRun hl]
  rw [List.append_nil] at e
  rw [e]
  simp [bytesRun]

/-- C15. The same with anything following: what follows (even hostile data) cannot change or remove
the messages already sent. -/
theorem C15_prefix_preserved_partial (base : Nat) (hb : 544 ≤ base) (ms : List Msg)
    (hms : ∀ m ∈ ms, Sendable m) (rest : Bytes) (limits : List Nat)
    (hl : (ms.flatMap wire ++ rest).length ≤ limits.length) :
    ms.map received <+: (run limits (init base) (ms.flatMap wire ++ rest)).2 := by
  obtain ⟨st, hr, e⟩ := stream_run hb ms hms (ready_init base) rest
  rw [run_eq_bytesRun hl, e]
  exact ⟨_, rfl⟩

example : ∀ m ∈ [demoMsg 1 [1, 2, 3], demoMsg 2 (List.replicate 70000 7)], Sendable m := by
  intro m hm
  have hw : ∀ k p, WellFormedHeader (demoMsg k p).hdr := by
    intro k p; simp [WellFormedHeader, demoMsg]
  have hpl : (demoMsg 2 (List.replicate 70000 7)).payload.length = 70000 := List.length_replicate ..
  simp only [List.mem_cons, List.not_mem_nil, or_false] at hm
  rcases hm with rfl | rfl
  · exact ⟨hw _ _, by decide, by decide, by decide⟩
  · refine ⟨hw _ _, ?_, ?_, ?_⟩
    · intro hc; rw [hc] at hpl; simp at hpl
    · simp only [demoMsg, List.length_replicate]; rfl
    · rw [hpl]; decide

/-- C15 fails for a message with an empty payload: as soon as any further byte arrives the router
drops the connection, and neither that message nor anything after it is dispatched. -/
theorem C15_empty_payload_fails (base : Nat) (hb : 544 ≤ base) (h : Header)
    (hw : WellFormedHeader h) (h0 : h.payloadLength = 0) (c : UInt8) (rest : Bytes)
    (limits : List Nat) (hl : (encode h ++ c :: rest).length ≤ limits.length) :
    run limits (init base) (encode h ++ c :: rest) = (.closed, []) := by
  rw [run_eq_bytesRun hl]
  obtain ⟨mid, hm, hml⟩ := encode_split h hw.1 hw.2.1
  have w1 := hw.1
  have w2 := hw.2.1
  have hdec := C12_header_round_trip h hw
  have hlen : (encode h).length = 32 + h.topic.length + h.reply.length := by
    rw [hm]; simp only [List.length_append, beBytes_length]; omega
  obtain ⟨b1, hb1, hb1t, e1⟩ := preamble_step (ready_init base) (by omega)
    (32 + h.topic.length + h.reply.length) (by omega) (mid ++ c :: rest)
  rw [hm, List.append_assoc, e1]
  rw [hm] at hdec hlen
  obtain ⟨b2, hb2, hb2t, e2⟩ := header_step (base := base)
    (st := { init base with mode := .header, need := 32 + h.topic.length + h.reply.length, got := 6,
                            buf := b1 })
    hb rfl rfl hb1 _ mid hb1t (by simp) (by intro hh; rw [hh] at hml; simp at hml; omega)
    hlen.symm (by simp only []; omega) _ hdec
    (by simp only [h0]; rw [hlen]; simp; omega) (c :: rest)
  rw [e2]
  simp only [h0, bytesRun, readOnce]
  simp

example : (demoMsg 1 []).hdr.payloadLength = 0 := by decide

/-! ## C54 -/

/-- A client that announces a header length below 6 and sends one more byte makes the router call
`recv` with a negative count, that is with no limit, on its read buffer. -/
theorem C54_receive_memory_safe_fails (base : Nat) (hb : 544 ≤ base) (hl : Nat) (hhl : hl < 6)
    (c : UInt8) (rest : Bytes) (limits : List Nat)
    (hlim : ([0xAA, 0xAA, 0, 2, 0, UInt8.ofNat hl] ++ c :: rest).length ≤ limits.length) :
    run limits (init base) ([0xAA, 0xAA, 0, 2, 0, UInt8.ofNat hl] ++ c :: rest) = (.ub, []) := by
  rw [run_eq_bytesRun hlim]
  have he : [0xAA, 0xAA, 0, 2, 0, UInt8.ofNat hl] =
      beBytes 2 marker ++ beBytes 2 protoVersion ++ beBytes 2 hl := by
    rcases (show hl = 0 ∨ hl = 1 ∨ hl = 2 ∨ hl = 3 ∨ hl = 4 ∨ hl = 5 by omega) with
      rfl | rfl | rfl | rfl | rfl | rfl <;> decide
  obtain ⟨b1, hb1, hb1t, e1⟩ := preamble_step (ready_init base) (by omega) hl (by omega) (c :: rest)
  rw [he, e1]
  simp only [bytesRun, readOnce]
  simp [hhl]

/-- States a connection can be in: after any bytes, received in any way. -/
def Reachable (base : Nat) (st : St) : Prop :=
  ∃ limits stream msgs, run limits (init base) stream = (.alive st, msgs)

/-- C54, for 64 KiB read buffers. In every reachable state and for every data, a read stays inside
the read buffer, unless the header just announced is shorter than 6 bytes or the header just
completed announces a payload that does not fit an `int`. (Missing: those two cases, and RDKC
builds, whose 8 KiB buffer is smaller than an announced header can be.) -/
theorem C54_receive_memory_safe_partial (base : Nat) (hb : 65536 ≤ base) (st : St)
    (hr : Reachable base st) (hlen : st.mode = .header → 6 ≤ st.need) (limit : Nat) (data : Bytes)
    (hd : data ≠ []) (hub : (readOnce st limit data).1 = .ub) :
    st.mode = .header ∧ ∃ k h,
      decode (st.buf.take st.got ++ data.take k ++ st.buf.drop (st.got + k)) = .ok h ∧
      2 ^ 31 ≤ 2 * st.need + h.payloadLength.toNat := by
  obtain ⟨limits, stream, msgs, hrun⟩ := hr
  have hs : Safe st := safe_run (st := init base)
    ⟨hb, by simp only [init]; rw [List.length_replicate]; exact Nat.le_refl _, rfl, (by decide : 0 < 6)⟩ hrun
  obtain ⟨c, t, rfl⟩ := List.exists_cons_of_ne_nil hd
  obtain ⟨s1, s2, s3⟩ := hs
  have hng : st.got ≤ st.need := by
    cases hm : st.mode <;> simp only [hm] at s3 hlen
    · omega
    · have := hlen trivial; omega
    · omega
  have hbuf : st.need ≤ st.buf.length := by
    cases hm : st.mode <;> simp only [hm] at s3 <;> omega
  have hb1 : st.base = st.base := rfl
  unfold readOnce at hub
  rw [if_neg (by omega)] at hub
  by_cases h2 : st.need = st.got
  · simp [h2] at hub
  rw [if_neg h2] at hub
  obtain ⟨t1, t2⟩ := readOnce_take (st := st) (l := limit) (c := c) (s := t) (by omega)
  simp only [] at hub
  generalize hbs : (c :: t).take (min (limit + 1) (st.need - st.got)) = bs at *
  rw [if_neg (by omega)] at hub
  simp only [] at hub
  have hbl : (store st bs).buf.length = st.buf.length := store_buf_length (by omega)
  unfold advance at hub
  rw [store_got, store_need, show (store st bs).mode = st.mode from rfl] at hub
  by_cases hc : st.got + bs.length ≠ st.need
  · rw [if_pos hc] at hub; simp at hub
  rw [if_neg hc] at hub
  cases hm : st.mode with
  | preamble =>
    simp only [hm] at hub
    split at hub <;> simp at hub
  | payload =>
    simp only [hm] at hub s3
    cases hh : (store st bs).hdr with
    | none => exact absurd hh s3.1
    | some h => simp [hh] at hub
  | header =>
    simp only [hm] at hub
    have hst : st.buf.take st.got ++ (c :: t).take bs.length ++ st.buf.drop (st.got + bs.length)
        = (store st bs).buf := by
      have hbt : (c :: t).take bs.length = bs := by
        rw [← hbs, List.length_take, ← List.take_eq_take_min]
      rw [hbt]; rfl
    refine ⟨rfl, bs.length, ?_⟩
    rw [hst]
    have hsafe := (C13_decode_safe (store st bs).buf (by omega)).1
    cases hdd : decode (store st bs).buf with
    | fail => simp [hdd] at hub
    | ub => exact absurd hdd hsafe
    | ok h =>
      refine ⟨h, rfl, ?_⟩
      simp only [hdd] at hub
      split at hub
      · omega
      · simp at hub

example : Reachable 65536 (init 65536) := ⟨[], [], [], rfl⟩

end Verif.Props
