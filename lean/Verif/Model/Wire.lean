import Verif.Model.Message
import Verif.Model.Filter

/-!
# Model of the message encodings in `src/rbus/rbus.c:480-951`

Values, properties, objects, filters and events as items of a message. Reference counts are not
modelled here.
-/

namespace Verif.Wire

open Verif Verif.Message Verif.Value

/-- The C conversions between `float` and `double`, on bit patterns. -/
structure FloatConv where
  widen : BitVec 32 → BitVec 64
  narrow : BitVec 64 → BitVec 32

mutual
/-- An `rbusValue_t` (rbus_value.c:43-67): a scalar, a property list, an object, or the state after
`rbusValue_SetObject(value, NULL)`. -/
inductive WVal where
  | scalar (s : Scalar)
  | props (ps : PropList)
  | obj (o : Obj)
  | nullObj

/-- A chain of `rbusProperty_t` linked by `next` (rbus_property.c:29-35): name and value. A property
without a value is written like one with a value of type RBUS_NONE (rbus.c:762-768), and is
represented as such. -/
inductive PropList where
  | nil
  | cons (name : Bytes) (v : WVal) (rest : PropList)

/-- An `rbusObject_t` (rbus_object.c): name, whether multi-instance, properties, children. The NULL
name is represented by the empty name. The parent link is not modelled. -/
inductive Obj where
  | mk (name : Bytes) (multi : Bool) (ps : PropList) (children : ObjList)

/-- A chain of `rbusObject_t` linked by `next`. -/
inductive ObjList where
  | nil
  | cons (o : Obj) (rest : ObjList)
end

/-- Number of properties in a chain (rbus.c:635-641). -/
def PropList.count : PropList → Nat
  | .nil => 0
  | .cons _ _ rest => rest.count + 1

/-- Number of objects in a chain (rbus.c:697-703). -/
def ObjList.count : ObjList → Nat
  | .nil => 0
  | .cons _ rest => rest.count + 1

/-- The part of `rbusValue_appendToMessage` (rbus.c:781-837) after the type, for scalars. NULL
strings and bytes dereference NULL in `rbusValue_GetV` (rbus_value.c:636). Date-times are the bytes
of the C struct, which on a little-endian machine are those of `DateTime.encode` (padding taken as
zero). -/
def appendScalar (fc : FloatConv) : Scalar → Res Bytes
  | .int16 v => .ok (setInt32 (v.signExtend 32))
  | .uint16 v => .ok (setInt32 (v.zeroExtend 32))
  | .int32 v => .ok (setInt32 v)
  | .uint32 v => .ok (setInt32 v)
  | .int64 v => .ok (setInt64 v)
  | .uint64 v => .ok (setInt64 v)
  | .single v => .ok (setDouble (fc.widen v))
  | .double v => .ok (setDouble v)
  | .datetime d => .ok (setBytes d.encode)
  | .string (some s) => .ok (setBytes (s ++ [0]))
  | .string Option.none => .ub
  | .bytes (some s) => .ok (setBytes s)
  | .bytes Option.none => .ub
  | .boolean b => .ok (setBytes [if b then 1 else 0])
  | .char v | .byte v | .int8 v | .uint8 v => .ok (setBytes (leBytes 1 v.toNat))
  | .none => .ok (setBytes [])

/-- The type written for a value (rbus.c:766-768). -/
def WVal.ty : WVal → Ty
  | .scalar s => s.ty
  | .props _ => .property
  | .obj _ | .nullObj => .object

mutual
/-- `rbusValue_appendToMessage` (rbus.c:760-838) after the name: type, then data. A NULL object
writes nothing (rbus.c:681-684). -/
def appendVal (fc : FloatConv) : WVal → Res Bytes
  | .scalar s => do
    let d ← appendScalar fc s
    pure (setInt32 (BitVec.ofNat 32 s.ty.code) ++ d)
  | .props ps => do
    let d ← appendProps fc ps
    pure (setInt32 (BitVec.ofNat 32 Ty.property.code) ++
      (setInt32 (BitVec.ofNat 32 ps.count) ++ d))
  | .obj o => do
    let d ← appendObj fc o
    pure (setInt32 (BitVec.ofNat 32 Ty.object.code) ++ d)
  | .nullObj => .ok (setInt32 (BitVec.ofNat 32 Ty.object.code))

/-- The loop of `rbusPropertyList_appendToMessage` (rbus.c:646-651); the count is written by the
caller (rbus.c:642). -/
def appendProps (fc : FloatConv) : PropList → Res Bytes
  | .nil => .ok []
  | .cons name v rest => do
    let d ← appendVal fc v
    let r ← appendProps fc rest
    pure (setString name ++ (d ++ r))

/-- `rbusObject_appendToMessage` (rbus.c:679-712). -/
def appendObj (fc : FloatConv) : Obj → Res Bytes
  | .mk name multi ps cs => do
    let d ← appendProps fc ps
    let c ← appendObjs fc cs
    pure (setString name ++ (setInt32 (if multi then 1 else 0) ++
      (setInt32 (BitVec.ofNat 32 ps.count) ++ (d ++ (setInt32 (BitVec.ofNat 32 cs.count) ++ c)))))

/-- The loop over the children (rbus.c:707-711). -/
def appendObjs (fc : FloatConv) : ObjList → Res Bytes
  | .nil => .ok []
  | .cons o rest => do
    let d ← appendObj fc o
    let r ← appendObjs fc rest
    pure (d ++ r)
end

/-- A whole property list: count, then the properties (rbus.c:633-652). -/
def appendPropList (fc : FloatConv) (ps : PropList) : Res Bytes := do
  let d ← appendProps fc ps
  pure (setInt32 (BitVec.ofNat 32 ps.count) ++ d)

/-- `rbusValue_SetTLV` (rbus_value.c:668-689) on a new value, with data of any length. More than the
48 bytes of the union `d` are written past it (`ub`); fewer leave the rest zero (the value was
calloc'ed, rbus_value.c:121). The string case copies up to the first NUL without looking at the
length (`ub` if there is none). -/
def setTLV (ty : Ty) (data : Bytes) : Res Scalar :=
  match ty with
  | .string => if data.contains 0 then .ok (.string (some (data.takeWhile (· ≠ 0)))) else .ub
  | .bytes => .ok (.bytes (some data))
  | _ =>
    if 48 < data.length then .ub
    else
      let d := data ++ List.replicate (48 - data.length) 0
      match ty with
      | .boolean => .ok (.boolean (d.take 1 ≠ [0]))
      | .char => .ok (.char (BitVec.ofNat 8 (leNat (d.take 1))))
      | .byte => .ok (.byte (BitVec.ofNat 8 (leNat (d.take 1))))
      | .int8 => .ok (.int8 (BitVec.ofNat 8 (leNat (d.take 1))))
      | .uint8 => .ok (.uint8 (BitVec.ofNat 8 (leNat (d.take 1))))
      | .datetime => .ok (.datetime (DateTime.decode d))
      | _ => .ok .none

/-- Result of a `rbusMessage_Get*` whose error return the caller ignores and whose output variable
was not initialised: using it is `ub`. -/
def orUb {α : Type} : Option α → Res α
  | some a => .ok a
  | none => .ub

/-- `rbusMessage_GetString` with its error return ignored and an uninitialised pointer. -/
def getStringU (bs : Bytes) : Res (Bytes × Bytes) :=
  match getString bs with
  | .fail => .ub
  | r => r

/-- `rbusMessage_GetString` with its error return ignored and a pointer initialised to NULL, which
is represented by the empty string. An item of another type is passed over (VERIFY_UNPACK,
rbuscore_message.c:37-43). -/
def getStringN (bs : Bytes) : Res (Bytes × Bytes) :=
  match unpackNext bs with
  | some (.str s, r) => if s.contains 0 then .ok (s.takeWhile (· ≠ 0), r) else .ub
  | some (_, r) => .ok ([], r)
  | none => .ok ([], bs)

/-- `rbusMessage_GetInt32` with its error return ignored and a variable initialised to 0. An item of
another type is passed over (VERIFY_UNPACK2, rbuscore_message.c:45-51). -/
def getInt32Z (bs : Bytes) : BitVec 32 × Bytes :=
  match unpackNext bs with
  | some (.int d, r) => (BitVec.ofInt 32 d, r)
  | some (_, r) => (0, r)
  | none => (0, bs)

/-- The scalar part of `rbusValue_initFromMessage` (rbus.c:542-597). -/
def readScalar (fc : FloatConv) (ty : Ty) (bs : Bytes) : Res (Scalar × Bytes) :=
  match ty with
  | .int16 => do let (v, bs) ← orUb (getInt32 bs); pure (.int16 (v.setWidth 16), bs)
  | .uint16 => do let (v, bs) ← orUb (getInt32 bs); pure (.uint16 (v.setWidth 16), bs)
  | .int32 => do let (v, bs) ← orUb (getInt32 bs); pure (.int32 v, bs)
  | .uint32 => do let (v, bs) ← orUb (getInt32 bs); pure (.uint32 v, bs)
  | .int64 => do let (v, bs) ← orUb (getInt64 bs); pure (.int64 v, bs)
  | .uint64 => do let (v, bs) ← orUb (getInt64 bs); pure (.uint64 v, bs)
  | .single => do let (v, bs) ← orUb (getDouble bs); pure (.single (fc.narrow v), bs)
  | .double => do let (v, bs) ← orUb (getDouble bs); pure (.double v, bs)
  | ty => do
    let (d, bs) ← orUb (getBytes bs)
    let s ← setTLV ty d
    pure (s, bs)

mutual
/-- `rbusValue_initFromMessage` (rbus.c:496-607). Not represented (`fail`): the legacy types 0-11
(rbus.c:517-527), and values with a type outside the enum. `fuel` bounds the nesting; callers give
the length of the message, and each level consumes at least one byte. -/
def readVal (fc : FloatConv) : Nat → Bytes → Res (WVal × Bytes)
  | 0, _ => .fail
  | fuel + 1, bs => do
    let (t, bs) ← orUb (getInt32 bs)
    match Ty.ofCode t.toNat with
    | some .object => do
      let (o, bs) ← readObj fc fuel bs
      pure (.obj o, bs)
    | some .property => do
      let (n, bs) := getInt32Z bs
      let (ps, bs) ← readProps fc fuel n.toInt.toNat bs
      pure (.props ps, bs)
    | some ty => do
      let (s, bs) ← readScalar fc ty bs
      pure (.scalar s, bs)
    | none => .fail

/-- The loop of `rbusPropertyList_initFromMessage` (rbus.c:662-674) with
`rbusProperty_initFromMessage` (rbus.c:609-631) inlined. -/
def readProps (fc : FloatConv) : Nat → Nat → Bytes → Res (PropList × Bytes)
  | _, 0, bs => .ok (.nil, bs)
  | 0, _ + 1, _ => .fail
  | fuel + 1, n + 1, bs => do
    let (name, bs) ← getStringU bs
    let (v, bs) ← readVal fc fuel bs
    let (rest, bs) ← readProps fc fuel n bs
    pure (.cons name v rest, bs)

/-- `rbusObject_initFromMessage` (rbus.c:714-758). RBUS_OBJECT_MULTI_INSTANCE is 1
(rbus_object.h). -/
def readObj (fc : FloatConv) : Nat → Bytes → Res (Obj × Bytes)
  | 0, _ => .fail
  | fuel + 1, bs => do
    let (name, bs) ← getStringN bs
    let (t, bs) := getInt32Z bs
    let (n, bs) := getInt32Z bs
    let (ps, bs) ← readProps fc fuel n.toInt.toNat bs
    let (m, bs) := getInt32Z bs
    let (cs, bs) ← readObjs fc fuel m.toInt.toNat bs
    pure (.mk name (t == 1) ps cs, bs)

/-- The loop over the children (rbus.c:735-747). -/
def readObjs (fc : FloatConv) : Nat → Nat → Bytes → Res (ObjList × Bytes)
  | _, 0, bs => .ok (.nil, bs)
  | 0, _ + 1, _ => .fail
  | fuel + 1, n + 1, bs => do
    let (o, bs) ← readObj fc fuel bs
    let (rest, bs) ← readObjs fc fuel n bs
    pure (.cons o rest, bs)
end

/-- Reading a value, an object, a property list from the rest of a message. -/
def readValue (fc : FloatConv) (bs : Bytes) : Res (WVal × Bytes) := readVal fc bs.length bs
def readObject (fc : FloatConv) (bs : Bytes) : Res (Obj × Bytes) := readObj fc bs.length bs
def readPropList (fc : FloatConv) (bs : Bytes) : Res (PropList × Bytes) :=
  let (n, bs) := getInt32Z bs
  readProps fc bs.length n.toInt.toNat bs

open Verif.Filter (Filter)

/-- The name `rbusFilter_AppendToMessage` gives its value: "filter" (rbus.c:846). -/
def filterName : Bytes := [102, 105, 108, 116, 101, 114]

/-- `rbusFilter_AppendToMessage` (rbus.c:840-855); `rbusFilter_GetType` of NULL is -1
(rbus_filter.c:178-183). -/
def appendFilter (fc : FloatConv) : Filter → Res Bytes
  | .null => .ok (setInt32 (-1))
  | .relation op v => do
    let d ← appendVal fc (.scalar v)
    pure (setInt32 0 ++ (setInt32 (BitVec.ofNat 32 op) ++ (setString filterName ++ d)))
  | .logic op l r => do
    let dl ← appendFilter fc l
    let dr ← if op ≠ Filter.opNOT then appendFilter fc r else .ok []
    pure (setInt32 1 ++ (setInt32 (BitVec.ofNat 32 op) ++ (dl ++ dr)))

/-- `rbusFilter_InitFromMessage` (rbus.c:857-886). The operands are initialised to NULL, and an
unknown type leaves the filter NULL (the caller of the outermost call passes a variable that is NULL
as well). A relation value that is not a scalar is not represented (`fail`). -/
def readFilter (fc : FloatConv) : Nat → Bytes → Res (Filter × Bytes)
  | 0, _ => .fail
  | fuel + 1, bs => do
    let (t, bs) ← orUb (getInt32 bs)
    if t = 0 then do
      let (op, bs) ← orUb (getInt32 bs)
      let (_, bs) ← getStringU bs
      let (v, bs) ← readValue fc bs
      match v with
      | .scalar s => pure (.relation op.toNat s, bs)
      | _ => .fail
    else if t = 1 then do
      let (op, bs) ← orUb (getInt32 bs)
      let (l, bs) ← readFilter fc fuel bs
      let (r, bs) ← if op ≠ BitVec.ofNat 32 Filter.opNOT then readFilter fc fuel bs
        else .ok (.null, bs)
      pure (.logic op.toNat l r, bs)
    else pure (.null, bs)

/-- What travels with an event: `rbusEvent_t` (include/rbus.h) and the subscription it is for. -/
structure Event where
  name : Bytes
  type : BitVec 32
  data : Option Obj
  filter : Filter
  interval : BitVec 32
  duration : BitVec 32
  componentId : BitVec 32

/-- The event data: flag and object (rbus.c:929-937). -/
def appendData (fc : FloatConv) : Option Obj → Res Bytes
  | some o => do
    let d ← appendObj fc o
    pure (setInt32 1 ++ d)
  | none => .ok (setInt32 0)

/-- The filter of an event: flag and filter (rbus.c:938-946). -/
def appendFilterOpt (fc : FloatConv) : Filter → Res Bytes
  | .null => .ok (setInt32 0)
  | f => do
    let d ← appendFilter fc f
    pure (setInt32 1 ++ d)

/-- `rbusEventData_appendToMessage` (rbus.c:920-951). -/
def appendEvent (fc : FloatConv) (e : Event) : Res Bytes := do
  let d ← appendData fc e.data
  let f ← appendFilterOpt fc e.filter
  pure (setString e.name ++ (setInt32 e.type ++ (d ++ (f ++
    (setInt32 e.interval ++ (setInt32 e.duration ++ setInt32 e.componentId))))))

/-- Reading the event data (rbus.c:902-904). -/
def readData (fc : FloatConv) (bs : Bytes) : Res (Option Obj × Bytes) :=
  let (hasData, bs) := getInt32Z bs
  if hasData ≠ 0 then do
    let (o, bs) ← readObject fc bs
    pure (some o, bs)
  else .ok (none, bs)

/-- Reading the filter of an event (rbus.c:906-910). -/
def readFilterOpt (fc : FloatConv) (bs : Bytes) : Res (Filter × Bytes) :=
  let (hasFilter, bs) := getInt32Z bs
  if hasFilter ≠ 0 then readFilter fc bs.length bs else .ok (.null, bs)

/-- `rbusEventData_updateFromMessage` (rbus.c:888-918). -/
def readEvent (fc : FloatConv) (bs : Bytes) : Res (Event × Bytes) := do
  let (name, bs) ← getStringU bs
  let (type, bs) ← orUb (getInt32 bs)
  let (data, bs) ← readData fc bs
  let (filter, bs) ← readFilterOpt fc bs
  let (interval, bs) ← orUb (getInt32 bs)
  let (duration, bs) ← orUb (getInt32 bs)
  let (componentId, bs) ← orUb (getInt32 bs)
  pure ({ name := name, type := type, data := data, filter := filter, interval := interval,
          duration := duration, componentId := componentId }, bs)

end Verif.Wire
