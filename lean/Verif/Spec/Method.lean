import Verif.Model.Method
import Verif.Spec.Wire

/-!
# Specification for calling a method: what the caller finds in the output parameters
-/

namespace Verif.Method

open Verif Verif.Value Verif.Wire

/-- The properties of a list, in order. -/
def listed : PropList → List (Bytes × WVal)
  | .nil => []
  | .cons n v r => (n, v) :: listed r

/-- The parts of an object. -/
def nameOf : Obj → Bytes
  | .mk n _ _ _ => n
def multiOf : Obj → Bool
  | .mk _ t _ _ => t
def propsOf : Obj → PropList
  | .mk _ _ ps _ => ps
def childrenOf : Obj → ObjList
  | .mk _ _ _ cs => cs

/-- The value of the first property with the name. -/
def valueOf (o : Obj) (n : String) : Option WVal := (listed (propsOf o)).lookup n.toUTF8.data.toList

/-- An object that can be sent and is not of gigabyte size. -/
def Travels (fc : FloatConv) (o : Obj) : Prop :=
  SendableObj fc o ∧ (propsOf o).count < 2 ^ 30 ∧ ∀ d, appendObj fc o = .ok d → d.length < 2 ^ 30

/-- The object `got` is `given` with the error noted in it: with its own `error_code` it is unchanged; otherwise the
code and its text are the values of `error_code` and `error_string`, and everything else is as given. -/
structure Noted (code : BitVec 32) (text : Bytes) (given got : Obj) : Prop where
  name : nameOf got = nameOf given
  kind : multiOf got = multiOf given
  children : childrenOf got = childrenOf given
  own : valueOf given "error_code" ≠ none → got = given
  code : valueOf given "error_code" = none → valueOf got "error_code" = some (.scalar (.int32 code))
  text : valueOf given "error_code" = none → valueOf got "error_string" = some (.scalar (.string (some text)))
  others : ∀ n : String, n ≠ "error_code" → n ≠ "error_string" → valueOf got n = valueOf given n

end Verif.Method
