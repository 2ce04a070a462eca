import Verif.Model.Base

/-!
# Model of `src/rtmessage/rtMessageHeader.c` and `rtEncoder.c`

Built without MSG_ROUNDTRIP_TIME.
-/

namespace Verif.Header

open Verif

/-- `rtMessageHeader` (rtMessageHeader.h:54-73). `topic`/`reply` are the C strings held by the
256-byte arrays, without NUL. `topic_length` and `reply_topic_length` are not kept: encode ignores
them and decode sets them to the number of bytes copied. -/
structure Header where
  version : Nat
  headerLength : Nat
  seq : BitVec 32
  flags : BitVec 32
  control : BitVec 32
  payloadLength : BitVec 32
  topic : Bytes
  reply : Bytes
  deriving DecidableEq, Repr

/-- RTMSG_HEADER_MARKER, RTMSG_HEADER_VERSION (rtMessageHeader.h:40-41). -/
def marker : Nat := 0xAAAA
def protoVersion : Nat := 2

/-- Flag bits (rtMessageHeader.h:44-52). -/
def flagRequest : BitVec 32 := 0x01
def flagResponse : BitVec 32 := 0x02
def flagUndeliverable : BitVec 32 := 0x04

/-- `rtMessageHeader_Encode` (rtMessageHeader.c:51-85): the bytes written to the buffer. The total
is stored as `uint16_t`. -/
def encode (h : Header) : Bytes :=
  beBytes 2 marker ++ beBytes 2 protoVersion
  ++ beBytes 2 ((32 + h.topic.length + h.reply.length) % 65536)
  ++ beBytes 4 h.seq.toNat ++ beBytes 4 h.flags.toNat ++ beBytes 4 h.control.toNat
  ++ beBytes 4 h.payloadLength.toNat
  ++ beBytes 4 h.topic.length ++ h.topic
  ++ beBytes 4 h.reply.length ++ h.reply
  ++ beBytes 2 marker

/-- `memcpy` of `k` bytes from the read pointer and advancing it (rtEncoder.c:40-92). Reading past
the buffer is `ub`. -/
def takeN (bs : Bytes) (k : Nat) : Res (Bytes × Bytes) :=
  if k ≤ bs.length then .ok (bs.take k, bs.drop k) else .ub

/-- `rtEncoder_DecodeUInt16/32` (rtEncoder.c:68-92). -/
def takeBE (bs : Bytes) (k : Nat) : Res (Nat × Bytes) := do
  let (x, rest) ← takeN bs k
  pure (beNat x, rest)

/-- A C string from the copied bytes: the destination array was cleared by `rtMessageHeader_Init`
(rtMessageHeader.c:34-36) and the copy is shorter than the array, so the string ends at the first
NUL or at the end of the copy. -/
def cstr (bs : Bytes) : Bytes := bs.takeWhile (· ≠ 0)

/-- `rtMessageHeader_Decode` (rtMessageHeader.c:87-133) on the buffer `bs`, for a header freshly
initialised. `version` is not checked. -/
def decode (bs : Bytes) : Res Header := do
  let (m, bs) ← takeBE bs 2
  if m ≠ marker then .fail else
  let (version, bs) ← takeBE bs 2
  let (hl, bs) ← takeBE bs 2
  let (seq, bs) ← takeBE bs 4
  let (flags, bs) ← takeBE bs 4
  let (control, bs) ← takeBE bs 4
  let (plen, bs) ← takeBE bs 4
  let (tlen, bs) ← takeBE bs 4
  if tlen ≥ 256 then .fail else
  let (topic, bs) ← takeN bs tlen
  let (rlen, bs) ← takeBE bs 4
  if rlen ≥ 256 then .fail else
  let (reply, bs) ← takeN bs rlen
  let (m2, _) ← takeBE bs 2
  if m2 ≠ marker then .fail else
  pure { version := version, headerLength := hl, seq := BitVec.ofNat 32 seq,
         flags := BitVec.ofNat 32 flags, control := BitVec.ofNat 32 control,
         payloadLength := BitVec.ofNat 32 plen, topic := cstr topic, reply := cstr reply }

end Verif.Header
