import Verif.Model.Base
import Verif.Model.Text
import Verif.Model.Element

/-!
# Addresses of sockets: src/rtmessage/rtSocket.c

Addresses are C strings: byte strings without NUL. The storage an address is read into is all zero before, as its callers
leave it (rtConnection.c:583-584, rtrouteBase.c:68). `inet_pton` and `inet_ntop` are modelled as documented in glibc for IPv4;
for IPv6, reading is left open. Interfaces are left open too: what the system gives for a name. `long` has 64 bits.
-/

namespace Verif.Socket

open Verif

/-- What the system gives. `iface`: the IPv4 address of an interface, or the code for the error (`SIOCGIFADDR`, rtSocket.c:71).
`pton6`: `inet_pton(AF_INET6, ...)`. -/
structure Env where
  iface : Bytes → Except Nat (UInt8 × UInt8 × UInt8 × UInt8)
  pton6 : Bytes → Option Bytes

/-- What is in a `sockaddr_storage`: nothing (all zero, family 0), or an address of one of three families. -/
inductive Addr where
  | unset
  | inet (ip : UInt8 × UInt8 × UInt8 × UInt8) (port : BitVec 16)
  | inet6 (ip : Bytes) (port : BitVec 16)
  | unix (path : Bytes)
  deriving DecidableEq, Repr

/-- `RT_ERROR_INVALID_ARG` (rtError.h:46). -/
def invalidArg : Nat := 3

/-- `sizeof(un->sun_path) - 1` (rtSocket.c:179), on Linux. -/
def pathMax : Nat := 107

/-- `strrchr`: what is before the last such byte and what follows it. -/
def cut (c : UInt8) : Bytes → Option (Bytes × Bytes)
  | [] => none
  | b :: s =>
    match cut c s with
    | some (x, y) => some (b :: x, y)
    | none => if b = c then some ([], s) else none

/-- `isdigit`. -/
def isdigit (b : UInt8) : Bool := 48 ≤ b && b ≤ 57

/-- `rtSocket_IsNumeric` (rtSocket.c:38-53). The loop looks at the first byte again and again. -/
def isNumeric (s : Bytes) : Bool := s.all fun b => (match s with | [] => false | a :: _ => isdigit a) || b == 46

/-- `inet_ntoa` and `inet_ntop(AF_INET, ...)`: the text of an IPv4 address. -/
def dotted (ip : UInt8 × UInt8 × UInt8 × UInt8) : Bytes :=
  Element.decimal ip.1.toNat ++ 46 :: Element.decimal ip.2.1.toNat ++ 46 :: Element.decimal ip.2.2.1.toNat ++
    46 :: Element.decimal ip.2.2.2.toNat

/-- What is between dots. -/
def fields : Bytes → List Bytes
  | [] => [[]]
  | b :: s =>
    if b = 46 then [] :: fields s
    else match fields s with
      | f :: fs => (b :: f) :: fs
      | [] => [[b]]

/-- One number in `inet_pton(AF_INET, ...)`: one to three digits, no zero in front of others, at most 255. -/
def octet (s : Bytes) : Option UInt8 :=
  if s ≠ [] ∧ s.length ≤ 3 ∧ s.all isdigit ∧ (s.head? = some 48 → s.length = 1) then
    let n := s.foldl (fun a b => a * 10 + (b.toNat - 48)) 0
    if n ≤ 255 then some (UInt8.ofNat n) else none
  else none

/-- `inet_pton(AF_INET, ...)`: four numbers with dots between. -/
def pton4 (s : Bytes) : Option (UInt8 × UInt8 × UInt8 × UInt8) :=
  match fields s with
  | [a, b, c, d] =>
    match octet a, octet b, octet c, octet d with
    | some a, some b, some c, some d => some (a, b, c, d)
    | _, _, _, _ => none
  | _ => none

/-- `rtSocket_InterfaceNameToAddress` (rtSocket.c:55-83): at most `IFNAMSIZ - 1` = 15 bytes of the name are looked up. The text of
the address, at most 15 bytes, fits into the buffer of 64. Failing to make the socket is left out. -/
def interfaceAddress (e : Env) (s : Bytes) : Except Nat Bytes := (e.iface (s.take 15)).map dotted

/-- `strtol(s, NULL, 10)`, no conversion giving 0. -/
def strtol (s : Bytes) : Int :=
  match Text.strto false s with
  | some (neg, mag, _) => (Text.toSigned 64 neg mag).1
  | none => 0

/-- `rtSocketStorage_ParsePort` (rtSocket.c:85-97). -/
def parsePort (s : Bytes) : Except Nat (BitVec 16) :=
  match cut 58 s with
  | none => .error invalidArg
  | some (_, p) => .ok (BitVec.ofInt 16 (strtol p))

/-- `"unix://"` and `"tcp://"`. -/
def unixScheme : Bytes := [117, 110, 105, 120, 58, 47, 47]
def tcpScheme : Bytes := [116, 99, 112, 58, 47, 47]

/-- `rtSocketStorage_FromString` (rtSocket.c:163-250): the code and what is in the storage after it. `ip` has 128 bytes; a host of
more is written behind it (line 199), and one of 128 has no end for `strlen` (line 46). `inet_pton` gives -1 only for unknown
families (line 247). -/
def fromString (e : Env) (addr : Bytes) : Res (Nat × Addr) :=
  if addr.take 7 = unixScheme then .ok (0, .unix ((addr.drop 7).take pathMax))
  else if addr.take 6 ≠ tcpScheme then .ok (invalidArg, .unset)
  else
    match parsePort addr with
    | .error c => .ok (c, .unset)
    | .ok port =>
      match cut 58 (addr.drop 6) with
      | none => .ok (invalidArg, .unset)
      | some (host, _) =>
        if 128 ≤ host.length then .ub
        else
          match (if isNumeric host then .ok host else interfaceAddress e host) with
          | .error c => .ok (c, .unset)
          | .ok ip =>
            match pton4 ip with
            | some q => .ok (0, .inet q port)
            | none =>
              match e.pton6 ip with
              | some x => .ok (0, .inet6 x port)
              | none => .ok (0, .unset)

/-- `rtSocketStorage_GetLength` (rtSocket.c:99-117): the sizes of `sockaddr_in`, `sockaddr_in6` and `sockaddr_un` on Linux. `none`:
the process is aborted. -/
def getLength : Addr → Option Nat
  | .inet _ _ => some 16
  | .inet6 _ _ => some 28
  | .unix _ => some 110
  | .unset => none

/-- `rtSocketStorage_ToString` (rtSocket.c:119-144) with a buffer of `n` bytes: what is written into the buffer, and the port.
`none`: left as it was. The call always gives success. -/
def toString (a : Addr) (n : Nat) : Option Bytes × Option (BitVec 16) :=
  match a with
  | .inet ip port => (if (dotted ip).length < n then some (dotted ip) else none, some port)
  | .unix path => (if n = 0 then none else some ((unixScheme ++ path).take (n - 1)), some 0)
  | .inet6 _ _ => (none, none)
  | .unset => (none, none)

/-- What connecting and listening do with an address (rtConnection.c:586-599, 352; rtrouteBase.c:70-87): read it, give up if that
failed, and ask for its length. The failures in between are left out. -/
inductive Endpoint where
  /-- The address was refused with the code. -/
  | refused (code : Nat)
  /-- A socket is made for the address. -/
  | socket (a : Addr) (len : Nat)
  /-- The process is gone. -/
  | aborted
  deriving DecidableEq, Repr

def endpoint (e : Env) (addr : Bytes) : Res Endpoint :=
  match fromString e addr with
  | .ok (c, a) =>
    if c ≠ 0 then .ok (.refused c)
    else match getLength a with
      | some n => .ok (.socket a n)
      | none => .ok .aborted
  | .fail => .fail
  | .ub => .ub

end Verif.Socket
