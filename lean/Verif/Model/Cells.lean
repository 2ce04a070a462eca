import Verif.Model.Base

/-!
# What values hold (src/rbus/rbus_value.c, src/rbus/rbus_buffer.c)

A value is a count, a type and a union of 48 bytes; texts and byte strings lie in a buffer of their own. Handles are
not NULL here (the typed functions of lines 1295-1344 dereference them, the others return). Memory does not run out.
Properties and objects are only their counts; what they own is in `Verif.Retain`. Addresses are not used again.
Assertions are compiled out.
-/

namespace Verif.Cells

open Verif

/-- The types whose data lies in the union (rbus_value.h; the members of rbus_value.c:46-65). -/
inductive Kind where
  | boolean | char | byte | int8 | uint8 | int16 | uint16 | int32 | uint32 | int64 | uint64 | single | double | dateTime
  deriving DecidableEq, Repr

/-- `sizeof` of the members (rbus_value.c:46-65); a date is nine and two 32-bit numbers and a `bool`, padded. -/
def Kind.size : Kind → Nat
  | .boolean | .char | .byte | .int8 | .uint8 => 1
  | .int16 | .uint16 => 2
  | .int32 | .uint32 | .single => 4
  | .int64 | .uint64 | .double => 8
  | .dateTime => 48

/-- A property or an object. -/
inductive Part where
  | property | object
  deriving DecidableEq, Repr

/-- `rbusValueType_t`. -/
inductive Tag where
  | empty | plain (k : Kind) | string | bytes | part (k : Part)
  deriving DecidableEq, Repr

/-- Is the data in a buffer? (`v->type == RBUS_STRING || v->type == RBUS_BYTES`.) -/
def Tag.buffered : Tag → Bool
  | .string | .bytes => true
  | _ => false

/-! ## Buffers -/

/-- `struct _rbusBuffer` (rbus_buffer.h): `cap` is `lenAlloc`; the data is in `block1` or, if `ext` is given, in a
block of its own. `block1` has only the bytes written last; nothing reads behind them. -/
structure Buf where
  cap : Nat
  ext : Option Nat
  block1 : Bytes
  deriving DecidableEq, Repr

/-- Buffers and the blocks that they allocate. -/
structure Heap where
  nextBuf : Nat
  nextExt : Nat
  buf : Nat → Option Buf
  ext : Nat → Option Bytes

/-- Changes one place of a map. -/
def upd {α : Type} (f : Nat → α) (x : Nat) (a : α) : Nat → α := fun y => if y = x then a else f y

/-- Where the bytes are that a pointer points to. -/
inductive Loc where
  | inner (buf : Nat)
  | outer (ext : Nat)
  deriving DecidableEq, Repr

/-- Reads the bytes at a place; those of freed memory are undefined. -/
def Heap.read (h : Heap) : Loc → Res Bytes
  | .inner a =>
    match h.buf a with
    | some b => .ok b.block1
    | none => .ub
  | .outer k =>
    match h.ext k with
    | some bs => .ok bs
    | none => .ub

/-- `buff->data`. -/
def Heap.data (h : Heap) (a : Nat) : Res Loc :=
  match h.buf a with
  | none => .ub
  | some b =>
    match b.ext with
    | none => .ok (.inner a)
    | some k => .ok (.outer k)

/-- `free` of a block. -/
def Heap.freeExt (h : Heap) (k : Nat) : Res Heap :=
  match h.ext k with
  | none => .ub
  | some _ => .ok { h with ext := upd h.ext k none }

/-- `free` of a block, if there is one. -/
def Heap.freeData (h : Heap) : Option Nat → Res Heap
  | none => .ok h
  | some k => h.freeExt k

/-- `rbusBuffer_Create` (rbus_buffer.c:85-92); the buffer is at `nextBuf`. -/
def Heap.create (h : Heap) : Heap :=
  { h with nextBuf := h.nextBuf + 1, buf := upd h.buf h.nextBuf (some ⟨64, none, []⟩) }

/-- `rbusBuffer_Destroy` (rbus_buffer.c:96-105). -/
def Heap.destroy (h : Heap) (a : Nat) : Res Heap :=
  match h.buf a with
  | none => .ub
  | some b => do
    let h ← h.freeData b.ext
    pure { h with buf := upd h.buf a none }

/-- `rbusBuffer_Write` with `rbusBuffer_Reserve` (rbus_buffer.c:105-134) to a buffer with `posWrite` 0. `int` must
hold the lengths. `realloc` moves the block. -/
def Heap.write (h : Heap) (a : Nat) (bs : Bytes) : Res Heap :=
  if bs.length + 65 ≥ 2147483648 then .ub
  else
    match h.buf a with
    | none => .ub
    | some b =>
      if bs.length > b.cap then do
        let h ← h.freeData b.ext
        pure { h with
          nextExt := h.nextExt + 1
          buf := upd h.buf a (some ⟨(bs.length / 64 + 1) * 64, some h.nextExt, b.block1⟩)
          ext := upd h.ext h.nextExt (some bs) }
      else
        match b.ext with
        | none => .ok { h with buf := upd h.buf a (some { b with block1 := bs }) }
        | some k =>
          match h.ext k with
          | none => .ub
          | some _ => .ok { h with ext := upd h.ext k (some bs) }

/-! ## Values -/

/-- `struct _rbusValue` (rbus_value.c:43-67). `ptr`: the first eight bytes of the union are this address; else the
union has the bytes `raw`. -/
structure Cell where
  count : Nat
  tag : Tag
  ptr : Option Nat
  raw : Bytes
  deriving DecidableEq, Repr

/-- All memory; `ref` are the counts of properties and objects, 0 for those that do not live. -/
structure State where
  next : Nat
  cell : Nat → Option Cell
  heap : Heap
  nextRef : Nat
  ref : Nat → Nat

/-- Before any call. -/
def State.init : State := ⟨0, fun _ => none, ⟨0, 0, fun _ => none, fun _ => none⟩, 0, fun _ => 0⟩

/-- Zero bytes. -/
def zeros (n : Nat) : Bytes := List.replicate n 0

/-- What a pointer is. -/
inductive Ptr where
  | null
  | addr (a : Nat)
  | wild
  deriving DecidableEq, Repr

/-- The union read as a pointer. -/
def Cell.pointer (c : Cell) : Ptr :=
  match c.ptr with
  | some a => .addr a
  | none => if c.raw.take 8 = zeros 8 then .null else .wild

/-- `v->d.bytes = NULL`. -/
def Cell.clear (c : Cell) : Cell := { c with ptr := none, raw := zeros 8 ++ c.raw.drop 8 }

/-- Writes bytes to the start of the union. -/
def Cell.fill (c : Cell) (bs : Bytes) : Cell := { c with ptr := none, raw := bs ++ c.raw.drop bs.length }

/-- Dereferences a handle. -/
def State.get (s : State) (v : Nat) : Res Cell :=
  match s.cell v with
  | some c => .ok c
  | none => .ub

/-- Changes a value. -/
def State.put (s : State) (v : Nat) (c : Option Cell) : State := { s with cell := upd s.cell v c }

/-- `rbusProperty_Release`, `rbusObject_Release`. -/
def State.releaseRef (s : State) (r : Nat) : Res State :=
  if s.ref r = 0 then .ub else .ok { s with ref := upd s.ref r (s.ref r - 1) }

/-- `rbusProperty_Retain`, `rbusObject_Retain`. -/
def State.retainRef (s : State) (r : Nat) : Res State :=
  if s.ref r = 0 then .ub else .ok { s with ref := upd s.ref r (s.ref r + 1) }

/-- The part of `rbusValue_FreeInternal` before line 115 (rbus_value.c:102-114). -/
def State.drop (s : State) (c : Cell) : Res State :=
  match c.tag, c.pointer with
  | .string, .addr a | .bytes, .addr a => do
    let h ← s.heap.destroy a
    pure { s with heap := h }
  | .string, .wild | .bytes, .wild => .ub
  | .part _, .addr r => s.releaseRef r
  | .part _, .wild => .ub
  | _, _ => .ok s

/-- `rbusValue_FreeInternal` (rbus_value.c:100-117); it gives the value as it is then. -/
def freeInternal (s : State) (v : Nat) : Res (State × Cell) := do
  let c ← s.get v
  let s ← s.drop c
  pure (s, c.clear)

/-- `rbusValue_Init` (rbus_value.c:119-127). -/
def new (s : State) : State := { s.put s.next (some ⟨1, .empty, none, zeros 48⟩) with next := s.next + 1 }

/-- `rbusValue_Retain` (rbus_value.c:173-177, rtRetainable.c:22-25). -/
def retain (s : State) (v : Nat) : Res State := do
  let c ← s.get v
  pure (s.put v (some { c with count := c.count + 1 }))

/-- `rbusValue_Release` with `rbusValue_Destroy` (rbus_value.c:164-183, rtRetainable.c:27-35). -/
def release (s : State) (v : Nat) : Res State := do
  let c ← s.get v
  if c.count = 1 then do
    let (s, _) ← freeInternal s v
    pure (s.put v none)
  else pure (s.put v (some { c with count := c.count - 1 }))

/-- The typed setters and `rbusValue_SetTime` (rbus_value.c:550-556, 1320-1325); `bs` are the bytes of the argument. -/
def setPlain (s : State) (v : Nat) (k : Kind) (bs : Bytes) : Res State := do
  let (s, c) ← freeInternal s v
  pure (s.put v (some { c.fill bs with tag := .plain k }))

/-- Data given to a setter: bytes of the program's own, or those that `rbusValue_GetString`, `rbusValue_GetBytes` or
`rbusValue_GetV` of a value point to. -/
inductive Src where
  | own (bs : Bytes)
  | of (w : Nat)
  deriving DecidableEq, Repr

/-- Does the value keep the bytes of the other in its buffer? (They are the same value; `memcpy` must not be used.) -/
def Src.overlaps (v : Nat) : Src → Bool
  | .own _ => false
  | .of w => w == v

/-- The bytes at `v->d.bytes->data`, up to `posWrite` (rbus_value.c:484-501, 628-640). -/
def dataOf (s : State) (c : Cell) : Res Bytes :=
  match c.pointer with
  | .addr a => do
    let l ← s.heap.data a
    s.heap.read l
  | _ => .ub

/-- `rbusValue_GetV` and `rbusValue_GetL` (rbus_value.c:628-666): the bytes that they tell. -/
def bytesOf (s : State) (v : Nat) : Res Bytes := do
  let c ← s.get v
  match c.tag with
  | .string | .bytes => dataOf s c
  | .plain k => pure (c.raw.take k.size)
  | _ => pure []

/-- The bytes of the data given. -/
def Src.bytes (s : State) : Src → Res Bytes
  | .own bs => .ok bs
  | .of w => bytesOf s w

/-- The buffer of `rbusValue_SetBufferData` (rbus_value.c:561-570). -/
def bufferOf (s : State) (c : Cell) : Res (State × Nat) :=
  if c.tag.buffered then
    match c.pointer with
    | .addr a => .ok (s, a)
    | .null => .ok ({ s with heap := s.heap.create }, s.heap.nextBuf)
    | .wild => .ub
  else .ok ({ s with heap := s.heap.create }, s.heap.nextBuf)

/-- `rbusValue_SetBufferData` (rbus_value.c:558-573). A pointer to a property or an object is overwritten. -/
def setBuffer (s : State) (v : Nat) (bs : Bytes) (t : Tag) : Res State := do
  let c ← s.get v
  let (s, a) ← bufferOf s c
  let h ← s.heap.write a bs
  pure ({ s with heap := h }.put v (some { c with tag := t, ptr := some a }))

/-- `rbusValue_SetString(v, NULL)`, `rbusValue_SetBytes(v, NULL, 0)` (rbus_value.c:584-589, 598-603). -/
def setNull (s : State) (v : Nat) (t : Tag) : Res State := do
  let (s, c) ← freeInternal s v
  pure (s.put v (some { c with tag := t }))

/-- `strlen` and the bytes: without a zero byte it reads too far. -/
def cstring (bs : Bytes) : Res Bytes :=
  if (0 : UInt8) ∈ bs then .ok (bs.takeWhile (· ≠ 0)) else .ub

/-- `rbusValue_SetString` (rbus_value.c:575-592); the program's own string is given with its zero byte. -/
def setString (s : State) (v : Nat) (src : Src) : Res State := do
  let bs ← src.bytes s
  let text ← cstring bs
  if src.overlaps v then .ub else setBuffer s v (text ++ [0]) .string

/-- `rbusValue_SetBytes` (rbus_value.c:594-606) with `len` bytes. -/
def setBytes (s : State) (v : Nat) (src : Src) (len : Nat) : Res State := do
  let bs ← src.bytes s
  if bs.length < len then .ub
  else if src.overlaps v then .ub
  else setBuffer s v (bs.take len) .bytes

/-- `rbusValue_SetProperty`, `rbusValue_SetObject` (rbus_value.c:608-626). -/
def setPart (s : State) (v : Nat) (k : Part) (r : Option Nat) : Res State := do
  let (s, c) ← freeInternal s v
  let s := s.put v (some { c with tag := .part k, ptr := r })
  match r with
  | none => pure s
  | some r => s.retainRef r

/-- The bytes that `memcpy` in `rbusValue_SetTLV` reads (rbus_value.c:684-686): the value is cleared before, and
`rbusValue_GetV` of a value that is no text points into the value itself. -/
def tlvBytes (s : State) (v : Nat) : Src → Res Bytes
  | .own bs => .ok bs
  | .of w => if w = v then .ub else bytesOf s w

/-- `rbusValue_SetTLV` (rbus_value.c:668-689). -/
def setTLV (s : State) (v : Nat) (t : Tag) (len : Nat) (src : Src) : Res State :=
  match t with
  | .string => setString s v src
  | .bytes => setBytes s v src len
  | _ => do
    let bs ← tlvBytes s v src
    if bs.length < len then .ub
    else if 48 < len then .ub
    else do
      let (s, c) ← freeInternal s v
      pure (s.put v (some { c.fill (bs.take len) with tag := t }))

/-- The text of a value (rbus_value.c:436-446, 462-483): none if it is NULL. -/
def textOf (s : State) (c : Cell) : Res (Option Bytes) :=
  match c.pointer with
  | .null => .ok none
  | _ => do
    let bs ← dataOf s c
    pure (some bs)

/-- The setter that `rbusValue_Copy` calls for a text (rbus_value.c:1041-1050). -/
def copyText (s : State) (dest : Nat) (t : Tag) : Option Bytes → Res State
  | none => setNull s dest t
  | some bs =>
    if t = .string then setString s dest (.own bs) else setBytes s dest (.own bs) bs.length

/-- `rbusValue_Copy` (rbus_value.c:1028-1062). Properties and objects are not copied, but the value is cleared and
keeps its type. -/
def copy (s : State) (dest source : Nat) : Res State :=
  if dest = source then do
    let _ ← s.get dest
    pure s
  else do
    let (s, d) ← freeInternal s dest
    let s := s.put dest (some d)
    let c ← s.get source
    match c.tag with
    | .string | .bytes => do
      let bs ← textOf s c
      copyText s dest c.tag bs
    | .part _ => pure s
    | t => pure (s.put dest (some { d with tag := t, ptr := c.ptr, raw := c.raw }))

/-- What a getter tells. -/
inductive Out where
  | done
  | tag (t : Tag)
  /-- `RBUS_VALUE_ERROR_TYPE`. -/
  | wrongType
  | plain (bs : Bytes)
  /-- A pointer and the length told; for NULL the length is 0. -/
  | text (bs : Option Bytes)
  | part (r : Option Nat)
  | tlv (t : Tag) (bs : Bytes)
  deriving DecidableEq, Repr

/-- `rbusValue_Get…Ex` of the typed values and `rbusValue_GetTimeEx` (rbus_value.c:538-548, 1311-1319). -/
def getPlain (s : State) (v : Nat) (k : Kind) : Res Out := do
  let c ← s.get v
  if c.tag = .plain k then pure (.plain (c.raw.take k.size)) else pure .wrongType

/-- `rbusValue_GetBytesEx` (rbus_value.c:480-488). -/
def getBytes (s : State) (v : Nat) : Res Out := do
  let c ← s.get v
  if c.tag.buffered then do
    let t ← textOf s c
    pure (.text t)
  else pure .wrongType

/-- `rbusValue_GetStringEx` (rbus_value.c:448-456): the length of a string is told without its zero byte. -/
def getString (s : State) (v : Nat) : Res Out := do
  let c ← s.get v
  if c.tag.buffered then do
    let t ← textOf s c
    pure (.text (if c.tag = .string then t.map List.dropLast else t))
  else pure .wrongType

/-- `rbusValue_GetString` (rbus_value.c:436-446) without the check of the type. -/
def getStringAny (s : State) (v : Nat) : Res Out := do
  let c ← s.get v
  let t ← textOf s c
  pure (.text (if c.tag = .string then t.map List.dropLast else t))

/-- The pointer that the getters of properties give. -/
def Ptr.part : Ptr → Res (Option Nat)
  | .null => .ok none
  | .addr r => .ok (some r)
  | .wild => .ub

/-- `rbusValue_GetPropertyEx`, `rbusValue_GetObjectEx` (rbus_value.c:501-519). -/
def getPart (s : State) (v : Nat) (k : Part) : Res Out := do
  let c ← s.get v
  if c.tag = .part k then do
    let r ← c.pointer.part
    pure (.part r)
  else pure .wrongType

/-- `rbusValue_GetType`, `rbusValue_GetL` and `rbusValue_GetV` (rbus_value.c:424-429, 628-666). -/
def getTLV (s : State) (v : Nat) : Res Out := do
  let c ← s.get v
  let bs ← bytesOf s v
  pure (.tlv c.tag bs)

/-- `rbusProperty_Retain(rbusValue_GetProperty(v))` and the same with objects. -/
def grab (s : State) (v : Nat) (k : Part) : Res State := do
  let c ← s.get v
  if c.tag = .part k then
    match c.pointer with
    | .null => pure s
    | .addr r => s.retainRef r
    | .wild => .ub
  else .ub

/-- The calls of a program. -/
inductive Op where
  | new
  | retain (v : Nat)
  | release (v : Nat)
  | setPlain (v : Nat) (k : Kind) (bs : Bytes)
  | setString (v : Nat) (src : Src)
  | setBytes (v : Nat) (src : Src) (len : Nat)
  /-- A NULL string or NULL bytes. -/
  | setNull (v : Nat) (string : Bool)
  | setPart (v : Nat) (k : Part) (r : Option Nat)
  | setTLV (v : Nat) (t : Tag) (len : Nat) (src : Src)
  | copy (dest source : Nat)
  /-- `rbusProperty_Init`, `rbusObject_Init`. -/
  | newPart
  /-- The program keeps the property or object of a value. -/
  | grab (v : Nat) (k : Part)
  | releasePart (r : Nat)
  | getType (v : Nat)
  | getPlain (v : Nat) (k : Kind)
  | getString (v : Nat)
  | getStringAny (v : Nat)
  | getBytes (v : Nat)
  | getPart (v : Nat) (k : Part)
  | getTLV (v : Nat)
  deriving DecidableEq, Repr

/-- A call that tells nothing. -/
def silent (r : Res State) : Res (State × Out) := do
  let s ← r
  pure (s, .done)

/-- A call that changes nothing. -/
def told (s : State) (r : Res Out) : Res (State × Out) := do
  let o ← r
  pure (s, o)

/-- One call. -/
def step (s : State) : Op → Res (State × Out)
  | .new => .ok (Cells.new s, .done)
  | .retain v => silent (Cells.retain s v)
  | .release v => silent (Cells.release s v)
  | .setPlain v k bs => silent (Cells.setPlain s v k bs)
  | .setString v src => silent (Cells.setString s v src)
  | .setBytes v src len => silent (Cells.setBytes s v src len)
  | .setNull v string => silent (Cells.setNull s v (if string then .string else .bytes))
  | .setPart v k r => silent (Cells.setPart s v k r)
  | .setTLV v t len src => silent (Cells.setTLV s v t len src)
  | .copy dest source => silent (Cells.copy s dest source)
  | .newPart => .ok ({ s with nextRef := s.nextRef + 1, ref := upd s.ref s.nextRef 1 }, .done)
  | .grab v k => silent (Cells.grab s v k)
  | .releasePart r => silent (s.releaseRef r)
  | .getType v => told s (do
      let c ← s.get v
      pure (.tag c.tag))
  | .getPlain v k => told s (Cells.getPlain s v k)
  | .getString v => told s (Cells.getString s v)
  | .getStringAny v => told s (Cells.getStringAny s v)
  | .getBytes v => told s (Cells.getBytes s v)
  | .getPart v k => told s (Cells.getPart s v k)
  | .getTLV v => told s (Cells.getTLV s v)

/-- The calls in turn, and what they tell. -/
def run (s : State) : List Op → Res (State × List Out)
  | [] => .ok (s, [])
  | op :: ops => do
    let (s, o) ← step s op
    let (s, os) ← run s ops
    pure (s, o :: os)

/-- Where the text of a value is that `rbusValue_GetString` points to. -/
def pointerTo (s : State) (v : Nat) : Res Loc := do
  let c ← s.get v
  match c.pointer with
  | .addr a => s.heap.data a
  | _ => .ub

end Verif.Cells
