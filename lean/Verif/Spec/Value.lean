import Verif.Model.Value

/-!
# Specification for the scalar value codec
-/

namespace Verif.Value

open Verif

/-- Values whose encoding is faithful: not NULL, not `none`, strings without NUL, payload below
65536 bytes. -/
def Encodable : Scalar → Prop
  | .string (some s) => (0 : UInt8) ∉ s ∧ s.length + 1 < 65536
  | .bytes (some s) => s.length < 65536
  | .string Option.none | .bytes Option.none | .none => False
  | _ => True

/-- Strings and non-empty byte strings can be read even when they end exactly at the end of the
allocation. -/
def endsAnywhere : Scalar → Bool
  | .string _ => true
  | .bytes (some (_ :: _)) => true
  | _ => false

end Verif.Value
