import Verif.Model.Message
import Verif.Model.Socket

/-!
# Model of how a consumer and a provider agree on a private connection

The request of the consumer and its reading of the response (src/core/rbuscore.c:3011-3042), the provider's handler
(src/rbus/rbus.c:2740-2819) and the list it keeps of what it serves where (src/core/rbuscore.c:2801-2852). `PrivateServer` has what
happens to that list afterwards, with addresses as numbers; here they are texts, and it is seen which ones are equal.
-/

namespace Verif.PrivateAddress

open Verif Verif.Message Verif.Socket

/-- `RBUSCORE_SUCCESS`, `RBUSCORE_ERROR_INVALID_PARAM` and `RBUSCORE_ERROR_ENTRY_NOT_FOUND` (rbuscore_types.h:27-45). -/
def success : BitVec 32 := 0
def invalidParam : BitVec 32 := 2
def entryNotFound : BitVec 32 := 17

/-- The process of a provider: `__progname`, the return address of its handle (`rtConnection_GetReturnAddress`), and whether
`retrieveInstanceElementEx` finds an element for a name (rbus.c:2763); how it does is left open here. -/
structure Provider where
  prog : Bytes
  inbox : Bytes
  has : Bytes → Bool

/-- The request in `rbuscore_createPrivateConnection` (rbuscore.c:3011-3019). -/
def request (consumer : Bytes) (pid : BitVec 32) (param broker : Bytes) : Bytes :=
  setString consumer ++ setInt32 pid ++ setString param ++ setString broker

/-- `rbusMessage_GetString` (rbuscore_message.c:190-195) with its result ignored: `none` if the pointer stays NULL. An item of
another type has been read. A text without NUL is undefined at once, also where the caller would not use it. -/
def nextString (bs : Bytes) : Res (Option Bytes × Bytes) :=
  match unpackNext bs with
  | some (.str s, r) => if s.contains 0 then .ok (some (s.takeWhile (· ≠ 0)), r) else .ub
  | some (_, r) => .ok (none, r)
  | none => .ok (none, bs)

/-- `rbusMessage_GetInt32` (rbuscore_message.c:215-220) with its result ignored: `none` if the variable stays as it was. -/
def nextInt (bs : Bytes) : Option (BitVec 32) × Bytes :=
  match unpackNext bs with
  | some (.int d, r) => (some (BitVec.ofInt 32 d), r)
  | some (_, r) => (none, r)
  | none => (none, bs)

/-- `"unix:///tmp/.direct_%s_%s"` into 256 bytes (rbus.c:2739 and 2769). -/
def unixText (prog consumer : Bytes) : Bytes :=
  ("unix:///tmp/.direct_".toUTF8.data.toList ++ prog ++ [95] ++ consumer).take 255

/-- Choosing the address in `_create_direct_connection_callback_handler` (rbus.c:2767-2804): the address, or the code.
For a broker that is no `unix` one, what is before the port is copied by `strncpy` with just that length, so that `ip` has no
end, and then printed. A text of less than 6 bytes is read from behind its end. A name that is NULL is printed with `%s`, which
is undefined (glibc would print `(null)`). -/
def choose (prog : Bytes) (consumer : Option Bytes) (broker : Bytes) : Res (Except (BitVec 32) Bytes) :=
  if broker.take 4 = "unix".toUTF8.data.toList then
    match consumer with
    | some c => .ok (.ok (unixText prog c))
    | none => .ub
  else if broker.length < 6 then .ub
  else
    match cut 58 (broker.drop 6) with
    | none => .ok (.error invalidParam)
    | some _ => .ub

/-- `rbusServerDMLList_t` (rbuscore.c:2434-2443) without the connection and the handler. -/
structure Entry where
  address : Bytes
  consumer : Bytes
  param : Bytes
  deriving DecidableEq, Repr

/-- `rtString_Copy` (rtString.c:4-18) into `MAX_OBJECT_NAME_LENGTH` = 128 bytes (rtMessageHeader.h). -/
def copied (s : Bytes) : Bytes := s.take 127

/-- `_findPrivateServer` (rbuscore.c:2461-2464): the first 128 bytes are compared. -/
def sameServer (address : Bytes) (e : Entry) : Bool := e.address.take 128 == address.take 128

/-- `rbuscore_startPrivateListener` (rbuscore.c:2801-2852): the list afterwards, and the address a new thread listens at.
`thread`: whether `pthread_create` succeeds. The cache file is left out. -/
def listen (thread : Bool) (l : List Entry) (address consumer param : Bytes) : List Entry × Option Bytes :=
  let e : Entry := ⟨copied address, copied consumer, copied param⟩
  if l.any (sameServer address) then (l ++ [e], none)
  else if thread then (l ++ [e], some (copied address))
  else (l, none)

/-- A request arriving at the provider, and whether a thread can be started. -/
structure Call where
  thread : Bool
  message : Bytes
  deriving DecidableEq, Repr

/-- What the provider does: the address a new thread listens at, and the response. -/
structure Out where
  started : Option Bytes
  response : Bytes
  deriving DecidableEq, Repr

/-- `_create_direct_connection_callback_handler` (rbus.c:2740-2819). The code of starting the listener is not looked at (line
2814). Looking for an element without a name is undefined (`strdup(NULL)`), and so is comparing a broker that is missing. -/
def step (p : Provider) (l : List Entry) (c : Call) : Res (List Entry × Out) := do
  let (consumer, r) ← nextString c.message
  let (_, r) := nextInt r
  let (param, r) ← nextString r
  let (broker, _) ← nextString r
  match param with
  | none => .ub
  | some param =>
    if p.has param then
      match broker with
      | none => .ub
      | some broker =>
        match ← choose p.prog consumer broker with
        | .error code => .ok (l, ⟨none, setInt32 code⟩)
        | .ok address =>
          let (l', started) := listen c.thread l address (consumer.getD []) param
          .ok (l', ⟨started, setInt32 success ++ setString p.inbox ++ setString address⟩)
    else .ok (l, ⟨none, setInt32 entryNotFound⟩)

/-- The provider serving requests one after the other. -/
def run (p : Provider) (l : List Entry) : List Call → Res (List Entry × List Out)
  | [] => .ok (l, [])
  | c :: cs => do
    let (l, o) ← step p l c
    let (l, os) ← run p l cs
    pure (l, o :: os)

/-- What the consumer makes of the response in `rbuscore_createPrivateConnection` (rbuscore.c:3024-3037), up to making the
connection (rbuscore.c:2955-2958): the provider's name and the address, or the code. `err` is 0 before (line 3022), so that a
response without a code counts as success. Without an address the code is that of line 3005; a provider that is missing is
compared or copied (rbuscore.c:2958 and 2996). -/
def receive (response : Bytes) : Res (Except (BitVec 32) (Bytes × Bytes)) :=
  let (code, r) := nextInt response
  if code.getD success ≠ success then .ok (.error (code.getD success))
  else do
    let (provider, r) ← nextString r
    let (address, _) ← nextString r
    match address with
    | none => .ok (.error invalidParam)
    | some address =>
      match provider with
      | none => .ub
      | some provider => .ok (.ok (provider, address))

end Verif.PrivateAddress
