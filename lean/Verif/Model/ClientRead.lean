import Verif.Model.Framing

/-!
# How a client reads messages from its socket

Code: `rtConnection_ReadUntil` (src/rtmessage/rtConnection.c:470-516) and the reading part of
`rtConnection_Read` (src/rtmessage/rtConnection.c:1478-1601).
-/

namespace Verif.ClientRead

open Verif Verif.Header Verif.Framing

/-- What the socket gives to the calls of `recv` still to come (rtConnection.c:495-513). `data c`:
these bytes are there at once; a call that asks for less leaves the rest. `intr`: EINTR. `closed`:
`recv` returns 0, or fails with an error that `rtConnection_ShouldReregister` accepts
(rtConnection.c:272-278: ENOTCONN, EPIPE). `error`: any other error, ECONNRESET among them. -/
inductive Recv where
  | data (c : Bytes)
  | intr
  | closed
  | error
  deriving DecidableEq, Repr

/-- How `rtConnection_ReadUntil` ends (rtConnection.c:495-515). `waits`: nothing more comes, and
`recv` blocks. -/
inductive Got where
  | got (bs : Bytes) (rest : List Recv)
  | lost (rest : List Recv)
  | broken (rest : List Recv)
  | waits
  deriving DecidableEq, Repr

/-- Bytes read before the rest (`bytes_read += n`, rtConnection.c:513). -/
def Got.after (c : Bytes) : Got → Got
  | .got bs rest => .got (c ++ bs) rest
  | g => g

/-- `rtConnection_ReadUntil` (rtConnection.c:470-516) for the time limit -1 of the reader thread
(rtConnection.c:1872), with which `select` is not called. The bytes of an attempt that fails are
lost; that they have been written to the buffer is left out. -/
def readUntil : Nat → List Recv → Got
  | 0, s => .got [] s
  | _ + 1, [] => .waits
  | k + 1, .intr :: s => readUntil (k + 1) s
  | _ + 1, .closed :: s => .lost s
  | _ + 1, .error :: s => .broken s
  | k + 1, .data c :: s =>
    if c = [] then .lost s
    else if c.length ≤ k + 1 then (readUntil (k + 1 - c.length) s).after c
    else .got (c.take (k + 1)) (.data (c.drop (k + 1)) :: s)

/-- How one pass through the loop of `rtConnection_Read` ends (rtConnection.c:1509-1601). `again`:
with an error other than the loss of the connection. -/
inductive Pass where
  | message (m : Msg) (buf : Bytes) (rest : List Recv)
  | lost (rest : List Recv)
  | again (buf : Bytes) (rest : List Recv)
  | waits
  | ub
  deriving DecidableEq, Repr

/-- Reading the payload (rtConnection.c:1546-1563). The length is passed as `int`: with 2^31 or
more nothing is read, and what `malloc` returned is handed on, or, for 2^32 - 1, a byte outside of
the buffer is written: `ub`. Failure of `malloc` and decryption (WITH_SPAKE2) are left out. -/
def payload (h : Header) (buf : Bytes) (s : List Recv) : Pass :=
  if 2 ^ 31 ≤ h.payloadLength.toNat then .ub
  else match readUntil h.payloadLength.toNat s with
    | .got p s' => .message ⟨h, p⟩ buf s'
    | .lost s' => .lost s'
    | .broken s' => .again buf s'
    | .waits => .waits

/-- One pass through the loop (rtConnection.c:1509-1601) while the connection is not being closed
by the process itself (`run_threads`). `buf` is `con->recv_buffer`. A header length under 6 gives a
negative count, and nothing is read; one beyond the buffer lets `recv` write outside of it (taken
to be `ub` even if fewer bytes come). In a second pass the header still holds what the first one
decoded; this is left out, as it only matters for topics that contain NUL or get shorter. -/
def pass (buf : Bytes) (s : List Recv) : Pass :=
  match readUntil 6 s with
  | .lost s' => .lost s'
  | .broken s' => .again buf s'
  | .waits => .waits
  | .got pre s1 =>
    let hl := beNat ((pre.drop 4).take 2)
    if buf.length < hl then .ub
    else match readUntil (hl - 6) s1 with
      | .lost s' => .lost s'
      | .broken s' => .again (pre ++ buf.drop 6) s'
      | .waits => .waits
      | .got more s2 =>
        let buf' := pre ++ more ++ buf.drop (6 + more.length)
        match decode buf' with
        | .ub => .ub
        | .fail => .again buf' s2
        | .ok h => payload h buf' s2

/-- `rtConnection_Read` up to the handing over of the message (rtConnection.c:1478-1601), with `n`
attempts left after this one (`max_attempts` = 4). `again` is now the error returned. -/
def read : Nat → Bytes → List Recv → Pass
  | 0, buf, s => pass buf s
  | n + 1, buf, s =>
    match pass buf s with
    | .again buf' s' => read n buf' s'
    | r => r

/-- The reader thread (rtConnection.c:1863-1916) until `n` messages have been read or a call of
`rtConnection_Read` does not return one: the messages, and what is left. -/
def reader : Nat → Bytes → List Recv → List Msg × Option (Bytes × List Recv)
  | 0, buf, s => ([], some (buf, s))
  | n + 1, buf, s =>
    match read 4 buf s with
    | .message m buf' s' => (m :: (reader n buf' s').1, (reader n buf' s').2)
    | _ => ([], none)

end Verif.ClientRead
