import Verif.Model.PrivateAddress
import Verif.Spec.Socket

/-!
# What agreeing on a private connection means
-/

namespace Verif.PrivateAddress

open Verif

/-- A request as the consumer means it. -/
structure Ask where
  consumer : Bytes
  pid : BitVec 32
  param : Bytes
  broker : Bytes
  deriving DecidableEq, Repr

/-- The message it sends. -/
def Ask.message (a : Ask) : Bytes := request a.consumer a.pid a.param a.broker

/-- A text that can be sent: no NUL, less than 4 GB. -/
def Sent (s : Bytes) : Prop := (0 : UInt8) ∉ s ∧ s.length + 1 < 2 ^ 32

/-- Only texts that can be sent. -/
def Ask.Proper (a : Ask) : Prop := Sent a.consumer ∧ Sent a.param ∧ Sent a.broker

/-- A broker at a socket in the file system. -/
def Local (broker : Bytes) : Prop := ∃ path, broker = Socket.unixAddress path

/-- The file of the socket for a program and a consumer. -/
def socketPath (prog consumer : Bytes) : Bytes :=
  "/tmp/.direct_".toUTF8.data.toList ++ prog ++ "_".toUTF8.data.toList ++ consumer

/-- The file has a name of at most 107 bytes, the most a socket can have. -/
def Fits (prog consumer : Bytes) : Prop := (socketPath prog consumer).length ≤ 107

/-- The sockets, as files, that threads were started for in a history. -/
def startedAt (os : List Out) : List Bytes := os.filterMap Out.started

end Verif.PrivateAddress
