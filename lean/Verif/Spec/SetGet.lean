import Verif.Model.SetGet
import Verif.Spec.Wire

/-!
# What setting and getting values is meant to do
-/

namespace Verif.SetGet

open Verif Verif.Value Verif.Wire

/-- The properties can be sent, and are not of gigabyte size. -/
def Sendable (fc : FloatConv) (l : List (Bytes × WVal)) : Prop :=
  (∀ x ∈ l, Name x.1 ∧ SendableVal fc x.2) ∧ l.length < 2 ^ 30 ∧ ∀ d, appendProps fc (toList l) = .ok d → d.length < 2 ^ 30

/-- A name of ordinary length. -/
def Short (n : Bytes) : Prop := (0 : UInt8) ∉ n ∧ n.length < 2 ^ 20

/-- A name of one parameter: no wildcard, partial path, event or method. -/
def Simple (n : Bytes) : Prop :=
  n.getLast? ≠ some 46 ∧ (42 : UInt8) ∉ n ∧ n.getLast? ≠ some 33 ∧ n.getLast? ≠ some 41 ∧ (40 : UInt8) ∉ n

/-- The session and whether to commit, given by options or their absence. -/
def Meant (opts : Option (BitVec 32 × Bool)) (session : BitVec 32) (commit : Bool) : Prop :=
  opts = some (session, commit) ∨ (opts = none ∧ session = 0 ∧ commit = true)

/-- What set handlers should be given for a list of properties, in order: only the last one may be told to commit. -/
def orders (session : BitVec 32) (requester : Bytes) (commit : Bool) : List (Bytes × WVal) → List SetArgs
  | [] => []
  | [(n, v)] => [⟨n, v, session, some requester, commit⟩]
  | (n, v) :: l => ⟨n, v, session, some requester, false⟩ :: orders session requester commit l

/-- The calls of set handlers with their codes, and the properties that get handlers gave, in order. -/
def sets : List Call → List (SetArgs × BitVec 32)
  | [] => []
  | .set a c :: l => (a, c) :: sets l
  | .get _ _ :: l => sets l
def gots : List Call → List (Bytes × WVal)
  | [] => []
  | .set _ _ :: l => gots l
  | .get _ r :: l => (r.name, r.value) :: gots l

/-- The names get handlers were called with. -/
def asked : List Call → List GetArgs
  | [] => []
  | .set _ _ :: l => asked l
  | .get a _ :: l => a :: asked l

/-- The codes of handlers are those of this library. -/
def Codes (app : App) : Prop := (∀ calls a, (app.set calls a).toNat < 100) ∧ ∀ calls a, (app.get calls a).code.toNat < 100

/-- What get handlers give for these names can be sent, any number of them in one message. -/
def Gives (fc : FloatConv) (app : App) (names : List Bytes) : Prop :=
  ∀ l : List (Bytes × WVal), l.length ≤ names.length →
    (∀ x ∈ l, ∃ calls a, a.name ∈ names ∧ x = ((app.get calls a).name, (app.get calls a).value)) → Sendable fc l

/-- A handler that remembers: after a set call with success, and no other set call for the name since, the get handler gives this
value under its name. -/
def Remembers (app : App) (n : Bytes) : Prop :=
  ∀ before a later r, a.name = n → (∀ b ∈ sets later, b.1.name ≠ n) →
    (app.get (before ++ .set a 0 :: later) ⟨n, r⟩).code = 0 ∧ (app.get (before ++ .set a 0 :: later) ⟨n, r⟩).name = n ∧
      (app.get (before ++ .set a 0 :: later) ⟨n, r⟩).value = a.value

/-- The type of a value. -/
def kindOf : Plain → Kind
  | .boolean _ => .boolean
  | .int _ => .int
  | .uint _ => .uint
  | .string _ => .string

/-- The value of the library for a plain one. -/
def asValue : Plain → WVal
  | .boolean b => .scalar (.boolean b)
  | .int v => .scalar (.int32 v)
  | .uint v => .scalar (.uint32 v)
  | .string s => .scalar (.string (some s))

end Verif.SetGet
