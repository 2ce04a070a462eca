import Verif.Proof.ClientRead

/-!
# C115: how a client reads messages
-/

namespace Verif.Props

open Verif Verif.Header Verif.Framing Verif.ClientRead

/-- A message that can be sent to a client: valid topics, and a payload, perhaps empty, of the
length the header announces, addressable by `int`. -/
def Deliverable (m : Msg) : Prop :=
  WellFormedHeader m.hdr ∧ m.hdr.payloadLength.toNat = m.payload.length ∧
  m.payload.length < 2 ^ 31

private def demo (k : Nat) (p : Bytes) : Msg :=
  { hdr := { version := 0, headerLength := 0, seq := BitVec.ofNat 32 k, flags := 1, control := 5,
             payloadLength := BitVec.ofNat 32 p.length, topic := [65, 46, 66], reply := [95, 82] }
    payload := p }

private theorem demo_deliverable (k : Nat) (p : Bytes) (h : p.length < 2 ^ 31) :
    Deliverable (demo k p) := by
  refine ⟨⟨by simp [demo], by simp [demo], by simp [demo], by simp [demo]⟩, ?_, h⟩
  simp only [demo, BitVec.toNat_ofNat]
  exact Nat.mod_eq_of_lt (by omega)

/-- Two messages, the first one empty, in pieces of one byte and five, with interruptions. -/
private def demoBytes : Bytes := wire (demo 1 []) ++ wire (demo 2 [7, 8, 9])
private def demoStream : List Recv :=
  [.data (demoBytes.take 1), .intr, .data ((demoBytes.drop 1).take 5), .intr, .intr,
   .data (demoBytes.drop 6), .intr]

/-- C115. Messages sent to a client one after the other are read in this order and exactly as they
were sent, their empty payloads too, in whatever pieces the bytes arrive, whatever signals come in
between, and whatever earlier messages have left in the buffer; and not a byte of what follows is
consumed. (`c` is what arrives until then, `more` the bytes after the messages, `t` whatever comes
later. The buffer has 64 KB, or 8 KB in the RDKC build.) -/
theorem C115_whole (ms : List Msg) (hm : ∀ m ∈ ms, Deliverable m) (buf : Bytes)
    (hb : 542 ≤ buf.length) (c t : List Recv) (hc : Calm c) (more : Bytes)
    (hbytes : bytes c = ms.flatMap wire ++ more) :
    ∃ buf' c', reader ms.length buf (c ++ t) = (ms.map received, some (buf', c' ++ t)) ∧
      buf'.length = buf.length ∧ Calm c' ∧ bytes c' = more := by
  induction ms generalizing buf c with
  | nil => exact ⟨buf, c, rfl, rfl, hc, by simpa using hbytes⟩
  | cons m ms ih =>
    obtain ⟨w, hp, hs⟩ := hm m (by simp)
    obtain ⟨b1, c1, e1, l1, k1, y1⟩ := pass_message m w hp hs buf hb c t hc
      (ms.flatMap wire ++ more) (by rw [hbytes]; simp)
    obtain ⟨b2, c2, e2, l2, k2, y2⟩ := ih (fun x hx => hm x (List.mem_cons_of_mem _ hx)) b1
      (by omega) c1 k1 y1
    refine ⟨b2, c2, ?_, by omega, k2, y2⟩
    simp only [List.length_cons, reader, ClientRead.read, e1, e2, List.map_cons]

example : (reader 2 (List.replicate 600 0) demoStream).1 =
    [received (demo 1 []), received (demo 2 [7, 8, 9])] ∧
    bytes demoStream = [demo 1 [], demo 2 [7, 8, 9]].flatMap wire ++ [] ∧
    (∀ m ∈ [demo 1 [], demo 2 [7, 8, 9]], Deliverable m) := by
  refine ⟨by decide +kernel, by decide +kernel, ?_⟩
  intro m hm
  simp only [List.mem_cons, List.not_mem_nil, or_false] at hm
  rcases hm with rfl | rfl <;> exact demo_deliverable _ _ (by simp)

/-- C115. A message cut off by the end of the connection, at whatever byte, is never handed over,
not even in part: the call reports that the connection is lost, at the first attempt. -/
theorem C115_cut (m : Msg) (hm : Deliverable m) (buf : Bytes) (hb : 542 ≤ buf.length)
    (c t : List Recv) (hc : Calm c) (more : Bytes) (hmore : more ≠ [])
    (hbytes : bytes c ++ more = wire m) :
    ClientRead.read 4 buf (c ++ .closed :: t) = .lost t := by
  simp only [ClientRead.read, pass_cut m hm.1 hm.2.1 hm.2.2 buf hb c t hc more hmore hbytes]

example : ClientRead.read 4 (List.replicate 600 0)
    [.data ((wire (demo 2 [7, 8, 9])).take 39), .intr, .closed, .data [1]] =
      .lost [.data [1]] ∧
    (wire (demo 2 [7, 8, 9])).take 39 ++ (wire (demo 2 [7, 8, 9])).drop 39 = wire (demo 2 [7, 8, 9])
    ∧ (wire (demo 2 [7, 8, 9])).drop 39 ≠ [] := by
  decide +kernel

/-- C115 fails after one message with a damaged header: the bytes of its payload are taken for the
next header, so that a good message after it is lost as well. Here the header's last byte is
wrong, and the payload is one of six bytes. -/
theorem C115_damaged_fails : ∃ (bad : Bytes) (good : Msg), Deliverable good ∧
    (∃ m : Msg, Deliverable m ∧ bad.length = (wire m).length ∧
      ∃ i, bad.take i = (wire m).take i ∧ bad.drop (i + 1) = (wire m).drop (i + 1)) ∧
    ClientRead.read 4 (List.replicate 65536 0) [.data (bad ++ wire good)] = .waits := by
  refine ⟨(wire (demo 1 [0, 0, 0, 0, 255, 255])).set 36 0, demo 2 [7], demo_deliverable _ _ (by simp),
    ⟨demo 1 [0, 0, 0, 0, 255, 255], demo_deliverable _ _ (by simp), by decide +kernel, 36,
      by decide +kernel, by decide +kernel⟩, by decide +kernel⟩

/-- C115 fails for an RDKC build, whose buffer has 8 KB: six bytes that announce a longer header
make the client write outside of it, whatever follows. The first two bytes, which mark a header,
are only looked at later. -/
theorem C115_overflow_fails (x : UInt8) (s : List Recv) :
    ClientRead.read 4 (List.replicate 8192 x) (.data [0, 0, 0, 0, 255, 255] :: s) = .ub := by
  have h : readUntil 6 (.data [0, 0, 0, 0, 255, 255] :: s) = .got [0, 0, 0, 0, 255, 255] s := by
    simp [readUntil, readUntil_zero, Got.after]
  have h2 : beNat (([0, 0, 0, 0, 255, 255] : Bytes).drop 4 |>.take 2) = 65535 := by decide
  simp only [ClientRead.read, pass, h, h2, List.length_replicate]
  simp

/-- C115 fails for a header that announces a payload of 2^31 bytes or more: the length is taken for
a negative one, nothing is read, and memory never written to is handed over as the payload. -/
theorem C115_huge_fails : ∃ h : Header, WellFormedHeader h ∧
    ClientRead.read 4 (List.replicate 8192 0) [.data (encode h)] = .ub :=
  ⟨{ (demo 1 []).hdr with payloadLength := 0x80000000 },
    ⟨by simp [demo], by simp [demo], by simp [demo], by simp [demo]⟩, by decide +kernel⟩

end Verif.Props
