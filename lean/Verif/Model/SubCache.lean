import Verif.Model.Filter

/-!
# Model of the subscription cache file (src/rbus/rbus_subscriptions.c:390-698)

A provider writes its subscriptions to a file whenever they change and reads the file when it starts.
The file is its contents; opening, reading, writing and removing it work. Values of C type `bool` are read
through `int` pointers (lines 566, 578): on little-endian machines with one byte for `bool` the low byte
decides, and the three others land in padding; this is what is modelled. Allocation succeeds. Logging is
left out.
-/

namespace Verif.SubCache

open Verif Verif.Buffer Verif.Value Verif.Filter

/-- The fields of `rbusSubscription_t` that are stored (rbus_subscriptions.h:35-51). -/
structure Rec where
  listener : Bytes
  eventName : Bytes
  componentId : BitVec 32
  interval : BitVec 32
  duration : BitVec 32
  autoPublish : Bool
  subscriptionId : BitVec 32
  rawData : Bool
  filter : Filter
  deriving DecidableEq, Repr

/-- What loading depends on: the processes that run, and the files "/tmp/.rbus/<pid>_<componentId>" that
exist. -/
structure Env where
  running : Int → Bool
  present : Int → BitVec 32 → Bool

/-! ## Writing -/

/-- `rbusBuffer_WriteStringTLV(buff, s, strlen(s)+1)` (rbus_buffer.c:150-154). -/
def writeStr (b : Buf) (s : Bytes) : Buf := writeTLV b Ty.string.code (s.length + 1) (s ++ [0])

/-- `rbusBuffer_WriteInt32TLV` (rbus_buffer.c:196-200). -/
def writeI32 (b : Buf) (v : BitVec 32) : Buf := writeTLV b Ty.int32.code 4 (leBytes 4 v.toNat)

/-- A C `bool` as an `int`. -/
def ofBool (x : Bool) : BitVec 32 := if x then 1 else 0

/-- One round of the loop (rbus_subscriptions.c:676-687). -/
def writeRec (b : Buf) (r : Rec) : Res Buf :=
  let b := writeStr (writeStr b r.listener) r.eventName
  let b := writeI32 (writeI32 (writeI32 b r.componentId) r.interval) r.duration
  let b := writeI32 (writeI32 (writeI32 b (ofBool r.autoPublish)) r.subscriptionId) (ofBool r.rawData)
  let b := writeI32 b (ofBool (r.filter ≠ .null))
  Filter.encode b r.filter

/-- The loop (rbus_subscriptions.c:666-691). -/
def writeRecs (b : Buf) : List Rec → Res Buf
  | [] => .ok b
  | r :: rs => do
    let b ← writeRec b r
    writeRecs b rs

/-- `rbusSubscriptions_saveCache` (rbus_subscriptions.c:633-698): the file afterwards. -/
def save (rs : List Rec) : Res (Option Bytes) :=
  if rs = [] then .ok none
  else do
    let b ← writeRecs create rs
    pure (some b.data)

/-! ## Reading -/

/-- Reading a string (rbus_subscriptions.c:499-513, 516-529): `length` bytes are copied without looking where
the buffer ends. The bytes beyond the file's contents are uninitialised or outside the allocation. The copy
is not terminated. -/
def readStr (b : Buf) : Res (Bytes × Buf) := do
  let (type, b) ← readLE b 2
  let (length, b) ← readLE b 2
  if type ≠ Ty.string.code ∨ length ≥ 256 then .fail
  else if b.rd + length ≤ b.data.length then
    .ok ((b.data.drop b.rd).take length, { b with rd := b.rd + length })
  else .ub

/-- Reading an integer (rbus_subscriptions.c:532-587): given up only if type and length are both wrong. -/
def readI32 (b : Buf) : Res (BitVec 32 × Buf) := do
  let (type, b) ← readLE b 2
  let (length, b) ← readLE b 2
  if type ≠ Ty.int32.code ∧ length ≠ 4 then .fail
  else do
    let (n, b) ← readLE b 4
    pure (BitVec.ofNat 32 n, b)

/-- The value of a C `bool` after `rbusBuffer_ReadInt32(buff, (int*)&x)`. A low byte other than 0 and 1 is
taken as true. -/
def toBool (v : BitVec 32) : Bool := v.toNat % 256 ≠ 0

/-- The fields of a record before the filter, and whether there is one (rbus_subscriptions.c:491-587). The two
strings are the copies as they were made. -/
def readFields (b : Buf) : Res (Rec × Bool × Buf) := do
  let (listener, b) ← readStr b
  let (eventName, b) ← readStr b
  let (componentId, b) ← readI32 b
  let (interval, b) ← readI32 b
  let (duration, b) ← readI32 b
  let (auto, b) ← readI32 b
  let (id, b) ← readI32 b
  let (raw, b) ← readI32 b
  let (hasFilter, b) ← readI32 b
  pure (⟨listener, eventName, componentId, interval, duration, toBool auto, id, toBool raw, .null⟩,
    hasFilter ≠ 0, b)

/-- One record (rbus_subscriptions.c:491-597). -/
def readRec (b : Buf) : Res (Rec × Buf) := do
  let (r, hasFilter, b) ← readFields b
  if hasFilter then do
    let (filter, b) ← Filter.decode b
    pure ({ r with filter }, b)
  else pure (r, b)

/-- A copied string as it is used from then on: up to its NUL. Without one, `strlen` leaves the copy. -/
def text (s : Bytes) : Res Bytes := if s.contains 0 then .ok (s.takeWhile (· ≠ 0)) else .ub

/-- `atoi` on a decimal number; blanks before it and overflow are left out. -/
def atoi : Bytes → Int
  | 45 :: s => - (digits 0 s : Nat)
  | 43 :: s => (digits 0 s : Nat)
  | s => (digits 0 s : Nat)
where
  /-- The digits at the beginning of a text, after those read already. -/
  digits (n : Nat) : Bytes → Nat
    | [] => n
    | c :: s => if 48 ≤ c ∧ c ≤ 57 then digits (n * 10 + (c.toNat - 48)) s else n

/-- `rbusSubscriptions_getListenerPid` (rbus_subscriptions.c:394-408): what comes after the last dot; without a
dot, after the first character. For the empty name the walk starts before the string. -/
def pidOf (s : Bytes) : Res Int :=
  if s = [] then .ub
  else if (46 : UInt8) ∈ s then .ok (atoi (s.reverse.takeWhile (· ≠ 46)).reverse)
  else .ok (atoi (s.drop 1))

/-- Whether a record just read is kept (rbus_subscriptions.c:598-624) with `rbusSubscriptions_isListenerRunning`
(418-433). The event name is used by the log line and whatever comes later. -/
def admit (env : Env) (r : Rec) : Res (Option Rec) := do
  let listener ← text r.listener
  let pid ← pidOf listener
  if (pid ≤ 0 || env.running pid) && env.present pid r.componentId then do
    let eventName ← text r.eventName
    pure (some { r with listener, eventName })
  else pure none

/-- How the loop ended: all records read, or one could not be read. -/
structure Loaded where
  recs : List Rec
  complete : Bool
  needSave : Bool
  deriving DecidableEq, Repr

/-- The loop (rbus_subscriptions.c:489-625). A failure to read a record leaves those read before in the list.
`fuel` bounds the number of rounds; each consumes at least 64 bytes. -/
def readRecs (env : Env) : Nat → Buf → List Rec → Bool → Res Loaded
  | 0, _, _, _ => .ub
  | fuel + 1, b, got, needSave =>
    if b.rd < b.data.length then
      match readRec b with
      | .ub => .ub
      | .fail => .ok ⟨got, false, needSave⟩
      | .ok (r, b) => do
        let a ← admit env r
        match a with
        | none => readRecs env fuel b got true
        | some r => readRecs env fuel b (got ++ [r]) needSave
    else .ok ⟨got, true, needSave⟩

/-- The buffer the file is read into (rbus_subscriptions.c:473-487). -/
def fileBuf (file : Bytes) : Buf := { data := file, alloc := (reserve create file.length).alloc, rd := 0 }

/-- `rbusSubscriptions_loadCache` (rbus_subscriptions.c:435-631): the subscriptions restored and the file
afterwards. -/
def load (env : Env) (file : Option Bytes) : Res (List Rec × Option Bytes) :=
  match file with
  | none => .ok ([], none)
  | some file =>
    if file = [] then .ok ([], none)
    else do
      let l ← readRecs env (file.length + 1) (fileBuf file) [] false
      if l.complete then
        if l.needSave then do
          let f ← save l.recs
          pure (l.recs, f)
        else pure (l.recs, some file)
      else pure (l.recs, none)

end Verif.SubCache
