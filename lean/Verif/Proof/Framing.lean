import Verif.Model.Framing
import Verif.Proof.Header

namespace Verif.Framing

open Verif Verif.Header

/-- Reading the stream one byte at a time. -/
def bytesRun : St → Bytes → Status × List Msg
  | st, [] => (.alive st, [])
  | st, c :: s =>
    match readOnce st 0 (c :: s) with
    | (.ub, _) => (.ub, [])
    | (.closed, _) => (.closed, [])
    | (.go st' m, _) =>
      let r := bytesRun st' s
      (r.1, m.toList ++ r.2)

theorem store_store {st : St} (h : st.got < st.buf.length) (c : UInt8) (xs : Bytes) :
    store (store st [c]) xs = store st (c :: xs) := by
  have h1 : (st.buf.take st.got).length = st.got := by simp; omega
  simp only [store, St.mk.injEq, true_and, and_true, List.length_cons, List.length_nil]
  constructor
  · omega
  · have e1 : List.take (st.got + (0 + 1)) (List.take st.got st.buf ++ [c] ++ List.drop (st.got + (0 + 1)) st.buf)
        = List.take st.got st.buf ++ [c] := by
      rw [List.take_append_of_le_length (by simp; omega), List.take_of_length_le (by simp; omega)]
    have e2 : List.drop (st.got + (0 + 1) + xs.length)
        (List.take st.got st.buf ++ [c] ++ List.drop (st.got + (0 + 1)) st.buf)
        = List.drop (st.got + (xs.length + 1)) st.buf := by
      rw [List.drop_append]
      rw [List.drop_of_length_le (by simp; omega)]
      simp only [List.nil_append, List.drop_drop, List.length_append, h1, List.length_cons,
        List.length_nil]
      congr 1
      omega
    rw [e1, e2]
    simp

/-- What a read of `k` bytes does, as seen by the rest of the run. -/
def after (st : St) (k : Nat) (s : Bytes) : Status × List Msg :=
  if st.buf.length < st.got + k then (.ub, [])
  else match advance (store st (s.take k)) with
    | .ub => (.ub, [])
    | .closed => (.closed, [])
    | .go st' m => let r := bytesRun st' (s.drop k); (r.1, m.toList ++ r.2)

theorem store_got (st : St) (bs : Bytes) : (store st bs).got = st.got + bs.length := rfl
theorem store_need (st : St) (bs : Bytes) : (store st bs).need = st.need := rfl

theorem store_buf_length {st : St} {bs : Bytes} (h : st.got + bs.length ≤ st.buf.length) :
    (store st bs).buf.length = st.buf.length := by
  simp [store]; omega

theorem bytesRun_eq_after {k : Nat} : ∀ {st : St} {s : Bytes}, k + 1 ≤ s.length →
    st.got + (k + 1) ≤ st.need → bytesRun st s = after st (k + 1) s := by
  induction k with
  | zero =>
    intro st s hs hn
    cases s with
    | nil => simp at hs
    | cons c s =>
      simp only [bytesRun, readOnce, after]
      rw [if_neg (by omega), if_neg (by omega)]
      have : min (0 + 1) (st.need - st.got) = 1 := by omega
      simp only [this, List.take_succ_cons, List.take_zero, List.length_cons, List.length_nil,
        Nat.zero_add]
      by_cases hov : st.buf.length < st.got + 1
      · simp [hov]
      · rw [if_neg hov, if_neg hov]
        simp only [List.drop_succ_cons, List.drop_zero]
        cases advance (store st [c]) <;> rfl
  | succ k ih =>
    intro st s hs hn
    cases s with
    | nil => simp at hs
    | cons c s =>
      simp only [bytesRun, readOnce]
      rw [if_neg (by omega), if_neg (by omega)]
      have : min (0 + 1) (st.need - st.got) = 1 := by omega
      simp only [this, List.take_succ_cons, List.take_zero, List.length_cons, List.length_nil,
        Nat.zero_add]
      by_cases hov : st.buf.length < st.got + 1
      · rw [if_pos hov]
        simp only [after]
        rw [if_pos (by omega)]
      · rw [if_neg hov]
        have hadv : advance (store st [c]) = .go (store st [c]) none := by
          simp only [advance]
          rw [if_pos (by simp only [store_got, store_need, List.length_cons, List.length_nil]; omega)]
        simp only [hadv]
        rw [ih (st := store st [c]) (s := s) (by simpa using hs)
          (by simp only [store_got, store_need, List.length_cons, List.length_nil]; omega)]
        have hbl : (store st [c]).buf.length = st.buf.length := store_buf_length (by simp; omega)
        simp only [after, hbl, store_got, List.length_cons, List.length_nil]
        by_cases hov2 : st.buf.length < st.got + (0 + 1) + (k + 1)
        · rw [if_pos hov2, if_pos (by omega)]; simp
        · rw [if_neg hov2, if_neg (by omega)]
          rw [store_store (by omega)]
          simp only [List.take_succ_cons, List.drop_succ_cons]
          cases advance (store st (c :: List.take (k + 1) s)) <;> simp

/-- However the data is cut by `recv`, the result is the byte-wise one. -/
theorem run_eq_bytesRun : ∀ {ls : List Nat} {st : St} {s : Bytes}, s.length ≤ ls.length →
    run ls st s = bytesRun st s := by
  intro ls
  induction ls with
  | nil =>
    intro st s hs
    have : s = [] := List.eq_nil_of_length_eq_zero (by simpa using hs)
    subst this
    rfl
  | cons l ls ih =>
    intro st s hs
    simp only [run]
    by_cases hnil : s = []
    · subst hnil; simp [bytesRun]
    rw [if_neg hnil]
    obtain ⟨c, t, rfl⟩ := List.exists_cons_of_ne_nil hnil
    by_cases h1 : st.need < st.got
    · simp only [readOnce, bytesRun]; simp [h1]
    by_cases h2 : st.need = st.got
    · simp only [readOnce, bytesRun]; simp [h2]
    -- k + 1 bytes are transferred
    obtain ⟨k, hk⟩ : ∃ k, min (min (l + 1) (st.need - st.got)) (c :: t).length = k + 1 := by
      refine ⟨min (min (l + 1) (st.need - st.got)) (c :: t).length - 1, ?_⟩
      simp only [List.length_cons]
      omega
    rw [bytesRun_eq_after (k := k) (by omega) (by omega)]
    have htake : (c :: t).take (min (l + 1) (st.need - st.got)) = (c :: t).take (k + 1) := by
      rw [← hk, List.take_eq_take_min]
    have hdrop : (c :: t).drop (min (l + 1) (st.need - st.got)) = (c :: t).drop (k + 1) := by
      by_cases hle : min (l + 1) (st.need - st.got) ≤ (c :: t).length
      · rw [show min (l + 1) (st.need - st.got) = k + 1 by omega]
      · rw [List.drop_of_length_le (by omega), List.drop_of_length_le (by omega)]
    simp only [readOnce, if_neg h1, if_neg h2, htake, hdrop, after]
    have hlen : ((c :: t).take (k + 1)).length = k + 1 := by
      rw [List.length_take]; omega
    rw [hlen]
    by_cases hov : st.buf.length < st.got + (k + 1)
    · simp [hov]
    · rw [if_neg hov, if_neg hov]
      cases hadv : advance (store st (List.take (k + 1) (c :: t))) with
      | ub => rfl
      | closed => rfl
      | go st' m =>
        simp only []
        rw [ih (by simp only [List.length_drop, List.length_cons] at *; omega)]

/-- Reading exactly what is needed. -/
theorem bytesRun_fill {st : St} {x s : Bytes} (hx : x ≠ []) (hn : st.got + x.length = st.need)
    (hb : st.need ≤ st.buf.length) :
    bytesRun st (x ++ s) = match advance (store st x) with
      | .ub => (.ub, [])
      | .closed => (.closed, [])
      | .go st' m => let r := bytesRun st' s; (r.1, m.toList ++ r.2) := by
  obtain ⟨k, hk⟩ : ∃ k, x.length = k + 1 := ⟨x.length - 1, by
    have := List.length_pos_iff.2 hx; omega⟩
  rw [bytesRun_eq_after (k := k) (by simp [hk]) (by omega)]
  simp only [after]
  rw [if_neg (by omega), ← hk, List.take_left, List.drop_left]

theorem store_buf {st : St} {x : Bytes} (h : st.got ≤ st.buf.length) :
    (store st x).buf.take (st.got + x.length) = st.buf.take st.got ++ x := by
  have h1 : (st.buf.take st.got).length = st.got := by simp; omega
  simp only [store]
  rw [List.take_append_of_le_length (by simp; omega), List.take_of_length_le (by simp; omega)]

/-- The state between messages. -/
def Ready (base : Nat) (st : St) : Prop :=
  st.base = base ∧ st.mode = .preamble ∧ st.need = 6 ∧ st.got = 0 ∧ st.buf.length = base

theorem ready_init (base : Nat) : Ready base (init base) := by
  simp [Ready, init]

theorem ready_reset {base : Nat} {st : St} (h1 : st.base = base) (h2 : st.buf.length = base) :
    Ready base (reset st) := by
  simp [Ready, reset, h1, h2]

/-- The first six bytes of an encoded header. -/
theorem encode_split (h : Header) (h1 : h.topic.length < 256) (h2 : h.reply.length < 256) :
    ∃ mid, encode h = beBytes 2 marker ++ beBytes 2 protoVersion ++
      beBytes 2 (32 + h.topic.length + h.reply.length) ++ mid ∧
      mid.length = 26 + h.topic.length + h.reply.length := by
  refine ⟨beBytes 4 h.seq.toNat ++ beBytes 4 h.flags.toNat ++ beBytes 4 h.control.toNat
    ++ beBytes 4 h.payloadLength.toNat ++ beBytes 4 h.topic.length ++ h.topic
    ++ beBytes 4 h.reply.length ++ h.reply ++ beBytes 2 marker, ?_, ?_⟩
  · simp only [encode, Nat.mod_eq_of_lt (show 32 + h.topic.length + h.reply.length < 65536 by omega),
      List.append_assoc]
  · simp only [List.length_append, beBytes_length]; omega

theorem preamble_step {base : Nat} {st : St} (hr : Ready base st) (hb : 6 ≤ base) (hl : Nat)
    (hhl : hl < 65536) (s : Bytes) :
    ∃ buf, buf.length = base ∧
      buf.take 6 = beBytes 2 marker ++ beBytes 2 protoVersion ++ beBytes 2 hl ∧
      bytesRun st (beBytes 2 marker ++ beBytes 2 protoVersion ++ beBytes 2 hl ++ s) =
        bytesRun { st with mode := .header, need := hl, got := 6, buf := buf } s := by
  obtain ⟨r1, r2, r3, r4, r5⟩ := hr
  let pre := beBytes 2 marker ++ beBytes 2 protoVersion ++ beBytes 2 hl
  have hpl : pre.length = 6 := by simp [pre]
  have hsb : (store st pre).buf.take 6 = pre := by
    have := store_buf (st := st) (x := pre) (by omega)
    rw [r4, hpl] at this
    simpa using this
  have hsl : (store st pre).buf.length = base := by
    rw [store_buf_length (by omega), r5]
  refine ⟨(store st pre).buf, hsl, hsb, ?_⟩
  rw [show beBytes 2 marker ++ beBytes 2 protoVersion ++ beBytes 2 hl ++ s = pre ++ s from rfl,
    bytesRun_fill (by intro h; rw [h] at hpl; simp at hpl) (by omega) (by omega)]
  have e0 : (store st pre).buf.take 2 = beBytes 2 marker := by
    have := congrArg (List.take 2) hsb
    rw [List.take_take] at this
    simpa [pre, List.append_assoc] using this
  have e1 : ((store st pre).buf.drop 2).take 2 = beBytes 2 protoVersion := by
    have := congrArg (fun l => (List.drop 2 l).take 2) hsb
    simp only [List.drop_take, List.take_take] at this
    rw [show min 2 (6 - 2) = 2 by rfl] at this
    rw [this]
    simp only [pre, List.append_assoc]
    rw [List.drop_left' (by simp), List.take_left' (by simp)]
  have e2 : ((store st pre).buf.drop 4).take 2 = beBytes 2 hl := by
    have := congrArg (fun l => (List.drop 4 l).take 2) hsb
    simp only [List.drop_take, List.take_take] at this
    rw [show min 2 (6 - 4) = 2 by rfl] at this
    rw [this]
    simp only [pre]
    rw [List.drop_left' (by simp), List.take_of_length_le (by simp)]
  have hadv : advance (store st pre) =
      .go { st with mode := .header, need := hl, got := 6, buf := (store st pre).buf } none := by
    have c0 : ¬ ((store st pre).got ≠ (store st pre).need) := by
      rw [store_got, store_need]; omega
    have c1 : ¬ (beNat ((store st pre).buf.take 2) ≠ marker ∨
        beNat (((store st pre).buf.drop 2).take 2) ≠ protoVersion) := by
      rw [e0, e1]; decide
    have hm : (store st pre).mode = .preamble := r2
    unfold advance
    rw [if_neg c0, hm]
    simp only [if_neg c1, e2]
    rw [beNat_beBytes, Nat.mod_eq_of_lt (by omega)]
    simp only [store, r3, r4, hpl, Out.go.injEq, St.mk.injEq, true_and, and_true]
    omega
  rw [hadv]
  simp

theorem header_step {base : Nat} {st : St} (hbase : 544 ≤ base)
    (hm : st.mode = .header) (hg : st.got = 6) (hbl : st.buf.length = base)
    (pre mid : Bytes) (hpre : st.buf.take 6 = pre) (hpl : pre.length = 6) (hmid : mid ≠ [])
    (hn : st.need = (pre ++ mid).length) (hnb : st.need ≤ base) (h : Header)
    (hdec : ∀ rest, decode (pre ++ mid ++ rest) = .ok h)
    (hfit : 2 * (pre ++ mid).length + h.payloadLength.toNat < 2 ^ 31) (s : Bytes) :
    ∃ buf, (base ≤ buf.length ∧ st.need + h.payloadLength.toNat ≤ buf.length) ∧
      buf.take st.need = pre ++ mid ∧
      bytesRun st (mid ++ s) =
        bytesRun { st with mode := .payload, need := st.need + h.payloadLength.toNat
                           got := st.need, buf := buf, hdr := some h } s := by
  have hlen : (pre ++ mid).length = 6 + mid.length := by simp [hpl]
  have hgot : st.got + mid.length = st.need := by omega
  have hsb : (store st mid).buf.take st.need = pre ++ mid := by
    have := store_buf (st := st) (x := mid) (by omega)
    rw [hgot, hg, hpre] at this
    exact this
  have hsl : (store st mid).buf.length = base := by
    rw [store_buf_length (by omega), hbl]
  let big := if (store st mid).buf.length < (st.need + h.payloadLength.toNat) + st.need
    then (store st mid).buf ++ List.replicate ((st.need + h.payloadLength.toNat) + st.need
      - (store st mid).buf.length) 0 else (store st mid).buf
  have hd : decode (store st mid).buf = .ok h := by
    rw [← List.take_append_drop st.need (store st mid).buf, hsb]
    exact hdec _
  have hadv : advance (store st mid) =
      .go { st with mode := .payload, need := st.need + h.payloadLength.toNat
                    got := st.need, buf := big, hdr := some h } none := by
    unfold advance
    rw [if_neg (by rw [store_got, store_need]; omega),
      show (store st mid).mode = .header from hm]
    simp only [hd, store_got, store_need, hgot]
    rw [if_neg (by omega)]
    simp only [Out.go.injEq, and_true, St.mk.injEq, true_and]
    exact ⟨rfl, rfl⟩
  refine ⟨big, ?_, ?_, ?_⟩
  · simp only [big]
    split
    · simp only [List.length_append, List.length_replicate]; omega
    · omega
  · simp only [big]
    split
    · rw [List.take_append_of_le_length (by omega), hsb]
    · exact hsb
  · rw [bytesRun_fill hmid hgot (by omega), hadv]
    simp

theorem payload_step {base : Nat} {st : St} (hb : st.base = base)
    (hm : st.mode = .payload) (hdr : Header) (hh : st.hdr = some hdr)
    (enc payload : Bytes) (hg : st.got = enc.length) (henc : st.buf.take enc.length = enc)
    (hn : st.need = enc.length + payload.length)
    (hnb : st.need ≤ st.buf.length)
    (hp : payload ≠ []) (hhl : hdr.headerLength = enc.length)
    (hpl : hdr.payloadLength.toNat = payload.length) (s : Bytes) :
    ∃ st', Ready base st' ∧
      bytesRun st (payload ++ s) =
        ((bytesRun st' s).1, { hdr := hdr, payload := payload } :: (bytesRun st' s).2) := by
  have hgot : st.got + payload.length = st.need := by omega
  have hsb : (store st payload).buf.take st.need = enc ++ payload := by
    have := store_buf (st := st) (x := payload) (by omega)
    rw [hgot, hg, henc] at this
    exact this
  have hpay : ((store st payload).buf.drop hdr.headerLength).take hdr.payloadLength.toNat
      = payload := by
    have := congrArg (List.drop enc.length) hsb
    rw [List.drop_take, List.drop_left] at this
    rw [hhl, hpl, show payload.length = st.need - enc.length by omega, this]
  have hsl : (store st payload).buf.length = st.buf.length := store_buf_length (by omega)
  let st1 := reset (store st payload)
  let st2 := if (store st payload).base ≠ (store st payload).buf.length
    then { st1 with buf := List.replicate (store st payload).base 0 } else st1
  have hadv : advance (store st payload) =
      .go st2 (some { hdr := hdr, payload := payload }) := by
    unfold advance
    rw [if_neg (by rw [store_got, store_need]; omega),
      show (store st payload).mode = .payload from hm]
    simp only [show (store st payload).hdr = some hdr from hh, hpay]
    rfl
  refine ⟨st2, ?_, ?_⟩
  · simp only [st2]
    split
    · simp [Ready, st1, reset, store, hb]
    · rename_i hc
      have hc := Classical.not_not.1 hc
      have hb' : (store st payload).base = base := hb
      exact ready_reset hb' (by omega)
  · rw [bytesRun_fill hp hgot hnb, hadv]
    simp

/-- One whole message. -/
theorem message_step {base : Nat} (hbase : 544 ≤ base) {st : St} (hr : Ready base st) (h : Header)
    (payload : Bytes) (w1 : h.topic.length < 256) (w2 : h.reply.length < 256)
    (hp : payload ≠ []) (hpl : h.payloadLength.toNat = payload.length)
    (hfit : 2 * (encode h).length + payload.length < 2 ^ 31)
    (hdec : ∀ rest, decode (encode h ++ rest) =
      .ok { h with version := 2, headerLength := (encode h).length }) (s : Bytes) :
    ∃ st', Ready base st' ∧
      bytesRun st (encode h ++ payload ++ s) = ((bytesRun st' s).1,
        { hdr := { h with version := 2, headerLength := (encode h).length }, payload := payload }
          :: (bytesRun st' s).2) := by
  obtain ⟨mid, hm, hml⟩ := encode_split h w1 w2
  have hlen : (encode h).length = 32 + h.topic.length + h.reply.length := by
    rw [hm]; simp only [List.length_append, beBytes_length]; omega
  obtain ⟨b1, hb1, hb1t, e1⟩ := preamble_step hr (by omega)
    (32 + h.topic.length + h.reply.length) (by omega) (mid ++ (payload ++ s))
  rw [hm, List.append_assoc, List.append_assoc, e1]
  rw [hm] at hdec hlen hfit
  obtain ⟨b2, hb2, hb2t, e2⟩ := header_step (base := base)
    (st := { st with mode := .header, need := 32 + h.topic.length + h.reply.length, got := 6,
                     buf := b1 })
    hbase rfl rfl hb1 _ mid hb1t (by simp) (by intro hh; rw [hh] at hml; simp at hml; omega)
    hlen.symm (by simp only []; omega) _ hdec (by simp only [hpl]; exact hfit) (payload ++ s)
  rw [e2]
  simp only [] at hb2 hb2t ⊢
  obtain ⟨st', hr', e3⟩ := payload_step (base := base)
    (st := { st with mode := .payload
                     need := 32 + h.topic.length + h.reply.length + h.payloadLength.toNat
                     got := 32 + h.topic.length + h.reply.length, buf := b2
                     hdr := some { h with version := 2, headerLength := (beBytes 2 marker
                        ++ beBytes 2 protoVersion
                        ++ beBytes 2 (32 + h.topic.length + h.reply.length) ++ mid).length } })
    hr.1 rfl _ rfl _ payload hlen.symm (by rw [hlen]; exact hb2t)
    (by simp only [hpl, hlen]) hb2.2 hp rfl hpl s
  exact ⟨st', hr', e3⟩

/-- What holds between calls, for a read buffer of at least 65536 bytes. -/
def Safe (st : St) : Prop :=
  65536 ≤ st.base ∧ st.base ≤ st.buf.length ∧
  match st.mode with
  | .preamble => st.need = 6 ∧ st.got < 6
  | .header => st.need < 65536 ∧ 6 ≤ st.got ∧ (6 < st.got → st.got < st.need)
  | .payload => st.hdr ≠ none ∧ st.got ≤ st.need ∧ st.need ≤ st.buf.length

theorem beNat_lt (bs : Bytes) : beNat bs < 256 ^ bs.length := by
  have h1 := beBytes_beNat bs
  have h2 := beNat_beBytes bs.length (beNat bs)
  rw [h1] at h2
  rw [h2]
  exact Nat.mod_lt _ (Nat.pow_pos (by decide))

theorem safe_reset {st : St} (h1 : 65536 ≤ st.base) (h2 : st.base ≤ st.buf.length) :
    Safe (reset st) := ⟨h1, h2, rfl, (by decide : 0 < 6)⟩

theorem safe_advance {st : St} (hs : Safe st) {bs : Bytes} (hne : bs ≠ [])
    (hfit : st.got + bs.length ≤ st.need) {st' : St} {m : Option Msg}
    (h : advance (store st bs) = .go st' m) : Safe st' := by
  obtain ⟨s1, s2, s3⟩ := hs
  have hpos := List.length_pos_iff.2 hne
  have hb : st.need ≤ st.buf.length := by
    cases hm : st.mode <;> simp only [hm] at s3 <;> omega
  have hbl : (store st bs).buf.length = st.buf.length := store_buf_length (by omega)
  have hbase : (store st bs).base = st.base := rfl
  unfold advance at h
  rw [store_got, store_need] at h
  by_cases hc : st.got + bs.length ≠ st.need
  · rw [if_pos hc] at h
    simp only [Out.go.injEq] at h
    rw [← h.1]
    refine ⟨s1, by rw [hbl]; exact s2, ?_⟩
    rw [show (store st bs).mode = st.mode from rfl, hbl, store_need, store_got,
      show (store st bs).hdr = st.hdr from rfl]
    cases hm : st.mode <;> simp only [hm] at s3 ⊢
    · omega
    · refine ⟨s3.1, by omega, by omega⟩
    · refine ⟨s3.1, by omega, s3.2.2⟩
  · rw [if_neg hc, show (store st bs).mode = st.mode from rfl] at h
    cases hm : st.mode with
    | preamble =>
      simp only [hm] at h s3
      split at h
      · simp only [Out.go.injEq] at h
        rw [← h.1]
        exact safe_reset s1 (by rw [hbl]; exact s2)
      · simp only [Out.go.injEq] at h
        rw [← h.1]
        have hlt := beNat_lt (((store st bs).buf.drop 4).take 2)
        have : (((store st bs).buf.drop 4).take 2).length = 2 := by
          rw [List.length_take, List.length_drop]; omega
        rw [this] at hlt
        refine ⟨s1, by simp only []; rw [hbl]; exact s2, ?_⟩
        simp only []
        omega
    | header =>
      simp only [hm] at h s3
      cases hd : decode (store st bs).buf with
      | fail =>
        simp only [hd, Out.go.injEq] at h
        rw [← h.1]
        exact safe_reset s1 (by rw [hbl]; exact s2)
      | ub => simp [hd] at h
      | ok hdr =>
        simp only [hd] at h
        split at h
        · simp at h
        · simp only [Out.go.injEq] at h
          rw [← h.1]
          refine ⟨s1, ?_, ?_⟩
          · simp only [hbl]
            split
            · rw [List.length_append, hbl]; omega
            · rw [hbl]; exact s2
          · simp only [hbl]
            refine ⟨by simp, by omega, ?_⟩
            split
            · rw [List.length_append, hbl, List.length_replicate]; omega
            · rw [hbl]; omega
    | payload =>
      simp only [hm] at h s3
      cases hh : (store st bs).hdr with
      | none => exact absurd hh s3.1
      | some hdr =>
        simp only [hh, Out.go.injEq] at h
        rw [← h.1]
        split
        · refine ⟨s1, ?_, rfl, (by decide : 0 < 6)⟩
          simp only []
          rw [List.length_replicate]
          exact Nat.le_refl _
        · exact safe_reset s1 (by rw [hbl]; exact s2)

theorem readOnce_take {st : St} {l : Nat} {c : UInt8} {s : Bytes} (h : st.got < st.need) :
    ((c :: s).take (min (l + 1) (st.need - st.got))) ≠ [] ∧
    st.got + ((c :: s).take (min (l + 1) (st.need - st.got))).length ≤ st.need := by
  constructor
  · intro hc
    have := congrArg List.length hc
    rw [List.length_take, List.length_cons] at this
    simp at this
    omega
  · rw [List.length_take]; omega

theorem safe_readOnce {st : St} (hs : Safe st) {l : Nat} {s : Bytes} (hne : s ≠ []) {st' : St}
    {m : Option Msg} {r : Bytes} (h : readOnce st l s = (.go st' m, r)) : Safe st' := by
  obtain ⟨c, t, rfl⟩ := List.exists_cons_of_ne_nil hne
  unfold readOnce at h
  by_cases h1 : st.need < st.got
  · simp [h1] at h
  by_cases h2 : st.need = st.got
  · simp [h2] at h
  rw [if_neg h1, if_neg h2] at h
  simp only [] at h
  obtain ⟨t1, t2⟩ := readOnce_take (st := st) (l := l) (c := c) (s := t) (by omega)
  split at h
  · simp at h
  · simp only [Prod.mk.injEq] at h
    exact safe_advance hs t1 t2 h.1

theorem safe_run : ∀ {ls : List Nat} {st : St}, Safe st → ∀ {s : Bytes} {st' : St} {ms : List Msg},
    run ls st s = (.alive st', ms) → Safe st' := by
  intro ls
  induction ls with
  | nil =>
    intro st hs s st' ms h
    simp only [run, Prod.mk.injEq, Status.alive.injEq] at h
    rw [← h.1]; exact hs
  | cons l ls ih =>
    intro st hs s st' ms h
    simp only [run] at h
    by_cases hnil : s = []
    · simp only [hnil, if_true, Prod.mk.injEq, Status.alive.injEq] at h
      rw [← h.1]; exact hs
    · rw [if_neg hnil] at h
      rcases hr : readOnce st l s with ⟨o, r⟩
      rw [hr] at h
      cases o with
      | ub => simp at h
      | closed => simp at h
      | go st1 m =>
        simp only [Prod.mk.injEq] at h
        exact ih (safe_readOnce hs hnil hr) (Prod.ext h.1 rfl)

end Verif.Framing
