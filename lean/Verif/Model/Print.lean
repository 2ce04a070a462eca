import Verif.Model.ObjectCompare
import Verif.Model.Filter
import Verif.Model.FloatText
import Verif.Model.DateText

/-!
# Printing values, properties, objects and filters

`rbusValue_fwrite` (src/rbus/rbus_value.c:1275-1301), `rbusProperty_fwrite` (rbus_property.c:97-111),
`rbusObject_fwrite` (rbus_object.c:445-464) and `rbusFilter_fwrite` (rbus_filter.c:348-398): the bytes written to the
stream, which is not NULL and takes everything. Depths are not negative and stay below 2^31.
-/

namespace Verif.Print

open Verif Verif.Value Verif.ObjCmp

/-- A text as bytes. -/
def lit (s : String) : Bytes := s.toUTF8.data.toList

/-- `rbusValueType_ToDebugString` (rbus_value.c:69-98). There is no case for RBUS_INT8 and RBUS_UINT8. -/
def label : Ty → Bytes
  | .string => lit "RBUS_STRING"
  | .bytes => lit "RBUS_BYTES"
  | .boolean => lit "RBUS_BOOLEAN"
  | .char => lit "RBUS_CHAR"
  | .byte => lit "RBUS_BYTE"
  | .int16 => lit "RBUS_INT16"
  | .uint16 => lit "RBUS_UINT16"
  | .int32 => lit "RBUS_INT32"
  | .uint32 => lit "RBUS_UINT32"
  | .int64 => lit "RBUS_INT64"
  | .uint64 => lit "RBUS_UINT64"
  | .single => lit "RBUS_SINGLE"
  | .double => lit "RBUS_DOUBLE"
  | .datetime => lit "RBUS_DATETIME"
  | .property => lit "RBUS_PROPERTY"
  | .object => lit "RBUS_OBJECT"
  | .none => lit "RBUS_NONE"
  | .int8 | .uint8 => lit "unknown type"

/-- `rbusValue_ToString(v, NULL, 0)` (rbus_value.c:224-403) as the argument of `%s`: RBUS_NONE gives NULL, and a string
or bytes set to NULL are dereferenced. -/
def toStr : Scalar → Res Bytes
  | .single b => .ok (FloatText.text FloatText.single b)
  | .double b => .ok (FloatText.text FloatText.double b)
  | .datetime d => DateText.toText d
  | v =>
    match Text.text v with
    | some t => .ok t
    | none => .ub

/-- `rbusValue_ToDebugString(v, NULL, 0)` (rbus_value.c:405-422). -/
def debugText (v : Scalar) : Res Bytes := do
  let s ← toStr v
  pure (lit "rbusValue type:" ++ label v.ty ++ lit " value:" ++ s)

/-- The loop that indents (rbus_object.c:452-453). -/
def spaces (d : Nat) : Bytes := List.replicate d 32

/-- The end of a line. -/
def crlf : Bytes := [13, 10]

/-- A name as the argument of `%s`: not to be NULL. -/
def named : Option Bytes → Res Bytes
  | some n => .ok n
  | none => .ub

mutual
/-- `rbusValue_fwrite` (rbus_value.c:1275-1301). -/
def printVal (d : Nat) : Val → Res Bytes
  | .null => .ok []
  | .scalar s => do
    let t ← debugText s
    pure (spaces d ++ t)
  | .props ps => printProps d ps
  | .obj o => printObj d o
  | .nullObj => .ok []

/-- `rbusProperty_fwrite` (rbus_property.c:97-111): the whole chain. -/
def printProps (d : Nat) : Chain → Res Bytes
  | .nil => .ok []
  | .cons n v rest => do
    let n ← named n
    let t ← printVal (d + 1) v
    let r ← printProps d rest
    pure (spaces d ++ lit "rbusProperty name=" ++ n ++ crlf ++ t ++ crlf ++ r)

/-- `rbusObject_fwrite` (rbus_object.c:445-464): without properties it returns at line 456. -/
def printObj (d : Nat) : Obj → Res Bytes
  | .mk n _ ps cs => do
    let n ← named n
    let head := spaces d ++ lit "rbusObject name=" ++ n ++ crlf
    match ps with
    | .nil => pure head
    | .cons m v rest =>
      let a ← printProps (d + 1) (.cons m v rest)
      let b ← printObjs (d + 1) cs
      pure (head ++ a ++ b)

/-- The loop over the children (rbus_object.c:458-463). -/
def printObjs (d : Nat) : Objs → Res Bytes
  | .nil => .ok []
  | .cons o rest => do
    let a ← printObj d o
    let b ← printObjs d rest
    pure (a ++ b)
end

/-- The operators (rbus_filter.c:359-367). -/
def opText : Nat → Bytes
  | 0 => lit ">"
  | 1 => lit ">="
  | 2 => lit "<"
  | 3 => lit "<="
  | 4 => lit "=="
  | 5 => lit "!="
  | _ => []

/-- What stands for the value a filter is applied to (rbus_filter.c:354-357). -/
def subject : Option Scalar → Res Bytes
  | some v => debugText v
  | none => .ok (lit "X")

/-- `rbusFilter_fwrite` (rbus_filter.c:348-398). -/
def printFilter (x : Option Scalar) : Filter.Filter → Res Bytes
  | .null => .ok []
  | .relation op v => do
    let a ← subject x
    let b ← debugText v
    pure (a ++ opText op ++ b)
  | .logic op l r => do
    let a ← printFilter x l
    let b ← (if op ≠ Filter.opNOT then printFilter x r else .ok [] : Res Bytes)
    pure ((if op = Filter.opNOT then lit "!" else []) ++ lit "(" ++ a ++
      (if op = Filter.opAND then lit " && " else if op = Filter.opOR then lit " || " else []) ++ b ++ lit ")")

end Verif.Print
