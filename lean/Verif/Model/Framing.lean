import Verif.Model.Header

/-!
# Model of the router's receive state machine: `rtConnectedClient_Read` (src/rtmessage/rtrouted.c:1513-1643)

Built without WITH_SPAKE2 and MSG_ROUNDTRIP_TIME.
-/

namespace Verif.Framing

open Verif Verif.Header

/-- `rtConnectionState` values used by the router. -/
inductive Mode where
  | preamble | header | payload
  deriving DecidableEq, Repr

/-- The receive part of `rtConnectedClient`: `state`, `bytes_to_read`, `bytes_read`, the read buffer
(its length is `read_buffer_capacity`) and the decoded header. `base` is
RTMSG_CLIENT_READ_BUFFER_SIZE (rtrouteBase.h:19-21). -/
structure St where
  base : Nat
  mode : Mode
  need : Nat
  got : Nat
  buf : Bytes
  hdr : Option Header
  deriving DecidableEq, Repr

/-- A message handed to `rtRouter_DispatchMessageFromClient`: the header and the payload bytes
(rtrouted.c:1448-1449). -/
structure Msg where
  hdr : Header
  payload : Bytes
  deriving DecidableEq, Repr

/-- Result of one call of `rtConnectedClient_Read`. `closed` makes the main loop drop the client
(rtrouted.c:1951-1959). -/
inductive Out where
  | go (st : St) (msg : Option Msg)
  | closed
  | ub
  deriving DecidableEq, Repr

/-- `rtConnectedClient_Reset` (rtrouted.c:1483-1490). -/
def reset (st : St) : St :=
  { st with mode := .preamble, need := 6, got := 0, hdr := none }

/-- `rtConnectedClient_Init` (rtrouted.c:1386-1405): cleared buffer of the base size. -/
def init (base : Nat) : St :=
  { base := base, mode := .preamble, need := 6, got := 0, buf := List.replicate base 0, hdr := none }

/-- `recv` storing `bs` at `read_buffer[bytes_read]` and advancing `bytes_read`
(rtrouted.c:1533, 1548). -/
def store (st : St) (bs : Bytes) : St :=
  { st with buf := st.buf.take st.got ++ bs ++ st.buf.drop (st.got + bs.length)
            got := st.got + bs.length }

/-- The `switch` (rtrouted.c:1550-1640), after `bytes_read` was advanced. Allocation failure is not
modelled; the new part of a reallocated buffer and a newly allocated buffer are taken as zero (the
C code leaves them uninitialised). `bytes_to_read + bytes_read` must fit an `int`, else `ub`. -/
def advance (st : St) : Out :=
  if st.got ≠ st.need then .go st none
  else match st.mode with
    | .preamble =>
      if beNat (st.buf.take 2) ≠ marker ∨ beNat ((st.buf.drop 2).take 2) ≠ protoVersion then
        .go (reset st) none
      else
        .go { st with need := st.need + beNat ((st.buf.drop 4).take 2) - 6, mode := .header } none
    | .header =>
      match decode st.buf with
      | .ok h =>
        let need := st.need + h.payloadLength.toNat
        let incoming := need + st.got
        if 2 ^ 31 ≤ incoming then .ub
        else
          .go { st with need := need, mode := .payload, hdr := some h
                        buf := if st.buf.length < incoming
                          then st.buf ++ List.replicate (incoming - st.buf.length) 0 else st.buf } none
      | .fail => .go (reset st) none
      | .ub => .ub
    | .payload =>
      match st.hdr with
      | some h =>
        let msg := { hdr := h, payload := (st.buf.drop h.headerLength).take h.payloadLength.toNat }
        let st' := reset st
        .go (if st.base ≠ st.buf.length then { st' with buf := List.replicate st.base 0 } else st')
          (some msg)
      | none => .ub

/-- One call of `rtConnectedClient_Read` (rtrouted.c:1513-1643) when `avail` is the data waiting in
the socket (not empty: `select` reported it readable) and `recv` returns at most `limit + 1` bytes.
A negative count passed to `recv` becomes huge (`ub`); a zero count makes `recv` return 0, taken as
end of stream (rtrouted.c:1542-1546); storing past the read buffer is `ub`. The second result is
the data left. -/
def readOnce (st : St) (limit : Nat) (avail : Bytes) : Out × Bytes :=
  if st.need < st.got then (.ub, avail)
  else if st.need = st.got then (.closed, avail)
  else
    let n := min (limit + 1) (st.need - st.got)
    if st.buf.length < st.got + (avail.take n).length then (.ub, avail)
    else (advance (store st (avail.take n)), avail.drop n)

/-- The connection after reading a stream: how it ended and the messages dispatched, in order. -/
inductive Status where
  | alive (st : St) | closed | ub
  deriving DecidableEq, Repr

/-- Repeated calls while data is waiting; `limits` says how much each `recv` returns at most. -/
def run : List Nat → St → Bytes → Status × List Msg
  | [], st, _ => (.alive st, [])
  | l :: ls, st, s =>
    if s = [] then (.alive st, [])
    else match readOnce st l s with
      | (.ub, _) => (.ub, [])
      | (.closed, _) => (.closed, [])
      | (.go st' m, s') =>
        let r := run ls st' s'
        (r.1, m.toList ++ r.2)

end Verif.Framing
