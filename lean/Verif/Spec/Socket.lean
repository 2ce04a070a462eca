import Verif.Model.Socket
import Verif.Spec.Text

/-!
# What addresses of sockets mean
-/

namespace Verif.Socket

open Verif

/-- A number in decimal digits. -/
def decimalText (n : Nat) : Bytes := (Nat.toDigits 10 n).map fun c => UInt8.ofNat c.toNat

/-- An IPv4 address as text. -/
def dottedText (a b c d : UInt8) : Bytes :=
  decimalText a.toNat ++ [46] ++ decimalText b.toNat ++ [46] ++ decimalText c.toNat ++ [46] ++ decimalText d.toNat

/-- `unix://` and a path; `tcp://`, a host, a colon and a port. -/
def unixAddress (path : Bytes) : Bytes := "unix://".toUTF8.data.toList ++ path
def tcpAddress (host port : Bytes) : Bytes := "tcp://".toUTF8.data.toList ++ host ++ [58] ++ port

/-- A host that is looked up as the name of an interface: it does not begin with a digit and is not just dots. -/
def InterfaceName (host : Bytes) : Prop :=
  (∀ b, host.head? = some b → ¬ (48 ≤ b ∧ b ≤ 57)) ∧ ∃ b ∈ host, b ≠ 46

/-- No IPv4 and no IPv6 address. -/
def NoAddress (e : Env) (host : Bytes) : Prop := (∀ a b c d, host ≠ dottedText a b c d) ∧ e.pton6 host = none

end Verif.Socket
