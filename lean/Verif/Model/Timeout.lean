import Verif.Model.Base
/-!
# How long a call waits

The five waiting times of a handle (rbus_handle.c:28-45, 174-329; rbus.c:326-335), the files and variables of the environment
that give others, and the calls that use them (rbus.c).

A handle is a number. Files are seen as a map from names to contents; a file that cannot be opened counts as missing.
-/

namespace Verif.Model.Timeout

/-- A waiting time of its own (rbus.h: `rbusTimeoutValues_t`, 2012-2019). -/
inductive Kind where
  | get | set | getMulti | setMulti | subscribe
  deriving DecidableEq, Repr

/-- A value for each (rbus.h:2012-2019). -/
structure Values where
  get : BitVec 32
  set : BitVec 32
  getMulti : BitVec 32
  setMulti : BitVec 32
  subscribe : BitVec 32
  deriving DecidableEq, Repr

/-- The member of `timeoutValues` of a kind. -/
def Values.of (v : Values) : Kind → BitVec 32
  | .get => v.get
  | .set => v.set
  | .getMulti => v.getMulti
  | .setMulti => v.setMulti
  | .subscribe => v.subscribe

/-- Storing a member of `timeoutValues`. -/
def Values.store (v : Values) (k : Kind) (x : BitVec 32) : Values :=
  match k with
  | .get => { v with get := x }
  | .set => { v with set := x }
  | .getMulti => { v with getMulti := x }
  | .setMulti => { v with setMulti := x }
  | .subscribe => { v with subscribe := x }

/-- `RBUS_GET_DEFAULT_TIMEOUT` and the others (rbus_handle.c:29-32, rbus_handle.h:32). -/
def builtIn : Kind → BitVec 32
  | .get => 15000
  | .set => 15000
  | .getMulti => 120000
  | .setMulti => 60000
  | .subscribe => 600000

/-- `isspace` of `strtol`. -/
def isspace (c : UInt8) : Bool := c == 32 || (9 ≤ c && c ≤ 13)

/-- `isdigit` of `strtol`. -/
def isdigit (c : UInt8) : Bool := 48 ≤ c && c ≤ 57

/-- The digits as a number, no bound yet. -/
def valueOf (ds : Bytes) : Nat := ds.foldl (fun a c => 10 * a + (c.toNat - 48)) 0

/-- `(int)strtol(s, NULL, 10)` behind the sign: the value is kept within a `long` and then cut to an `int`; `s` are all the bytes
that can be read, and reading past them is undefined. -/
def digitsOf (neg : Bool) (s : Bytes) : Res Int :=
  let ds := s.takeWhile isdigit
  if ds.length = s.length then .ub
  else .ok (BitVec.ofInt 32 (if neg then max (-(valueOf ds : Int)) (-(2 ^ 63)) else min (valueOf ds : Int) (2 ^ 63 - 1))).toInt

/-- `atoi` as in the GNU C library, on the bytes that can be read. -/
def atoi (s : Bytes) : Res Int :=
  match s.dropWhile isspace with
  | [] => .ub
  | c :: r => if c = 45 then digitsOf true r else if c = 43 then digitsOf false r else digitsOf false (c :: r)

/-- `initInt` (rbus_handle.c:41-46): the variable of the environment with the macro's name. -/
def initInt (var : Option Bytes) (n : BitVec 32) : Res (BitVec 32) :=
  match var with
  | none => .ok n
  | some [] => .ok n
  | some v => do
    let x ← atoi (v ++ [0])
    return BitVec.ofInt 32 x

/-- `rbusHandle_TimeoutValuesInit` (rbus_handle.c:174-184). -/
def valuesInit (env : Kind → Option Bytes) : Res Values := do
  let s ← initInt (env .set) (builtIn .set)
  let g ← initInt (env .get) (builtIn .get)
  let sm ← initInt (env .setMulti) (builtIn .setMulti)
  let gm ← initInt (env .getMulti) (builtIn .getMulti)
  let sub ← initInt (env .subscribe) (builtIn .subscribe)
  return ⟨g, s, gm, sm, sub⟩

/-- `rbusHandle_ConfigGetTimeout`, `rbusHandle_ConfigSetTimeout`, `rbusHandle_ConfigGetMultiTimeout`,
`rbusHandle_ConfigSetMultiTimeout` and `rbusHandle_ConfigSubscribeTimeout` (rbus_handle.c:186-234). -/
def config (v : Values) (k : Kind) (timeout : BitVec 32) : Values :=
  if timeout ≠ 0 then v.store k timeout else v.store k (builtIn k)

/-- `rbusHandle_ConfigTimeoutValues` (rbus.c:326-335). -/
def configAll (v w : Values) : Values :=
  config (config (config (config (config v .set w.set) .get w.get) .setMulti w.setMulti) .getMulti w.getMulti) .subscribe w.subscribe

/-- What the file name of a kind ends with (rbus_handle.c:242, 265, 288, 311); there is none for subscribing. -/
def suffix : Kind → Bytes
  | .get => "_timeout_get".toUTF8.data.toList
  | .set => "_timeout_set".toUTF8.data.toList
  | .getMulti => "_timeout_get_wildcard_query".toUTF8.data.toList
  | .setMulti => "_timeout_setMulti".toUTF8.data.toList
  | .subscribe => []

/-- The name `snprintf` leaves in the buffer (rbus_handle.c:28, 242): at most `BUF_LEN - 2` characters. -/
def fileName (prog : Bytes) (k : Kind) : Bytes :=
  ("/tmp/rbus_".toUTF8.data.toList ++ prog ++ suffix k).take 126

/-- The files at some moment: name to contents. -/
abbrev Files := Bytes → Option Bytes

/-- The buffer after `fread` (rbus_handle.c:240, 248): 25 bytes, the rest zero. -/
def buffer (t : Bytes) : Bytes := t.take 25 ++ List.replicate (25 - t.length) 0

/-- The number of seconds in the file, 0 if there is none (rbus_handle.c:244-251). -/
def inFile (fs : Files) (name : Bytes) : Res Int :=
  match fs name with
  | none => .ok 0
  | some [] => .ok 0
  | some t => atoi (buffer t)

/-- `rbusHandle_FetchGetTimeout`, `rbusHandle_FetchSetTimeout`, `rbusHandle_FetchGetMultiTimeout`,
`rbusHandle_FetchSetMultiTimeout` and `rbusHandle_FetchSubscribeTimeout` (rbus_handle.c:236-329): `timeout * 1000` is computed in
an `int`. -/
def fetch (prog : Bytes) (fs : Files) (v : Values) (k : Kind) : Res (BitVec 32) :=
  if k = .subscribe then .ok v.subscribe
  else do
    let t ← inFile fs (fileName prog k)
    if 0 < t then
      if t * 1000 < 2 ^ 31 then .ok (BitVec.ofInt 32 (t * 1000)) else .ub
    else .ok (v.of k)

/-- The calls. `several` is `rbus_getExt` with more than one name, `wildcard` with a name that stands for several. -/
inductive Api where
  | get
  | several
  | wildcard
  | set
  | commit
  /-- `rbus_setMulti` (time 0) and `rbus_setMultiExt` with some number of properties. -/
  | setMulti (count : Nat) (time : BitVec 32)
  | addRow
  | removeRow
  | rowNames
  | elementInfo
  | invoke
  /-- `rbusMethod_InvokeAsync` with a time in seconds. -/
  | invokeAsync (time : BitVec 32)
  /-- `rbusEvent_Subscribe` with a time in seconds. -/
  | subscribe (time : BitVec 32)
  deriving DecidableEq, Repr

/-- `timeout * 1000` in an `int`. -/
def millis (t : Int) : Res Int :=
  if -(2 ^ 31) ≤ t * 1000 ∧ t * 1000 < 2 ^ 31 then .ok (t * 1000) else .ub

/-- `_setInternal` (rbus.c:3969-4025): the time it waits. -/
def setInternal (prog : Bytes) (fs : Files) (v : Values) (time : BitVec 32) : Res (BitVec 32) :=
  if time = 0 then fetch prog fs v .set else .ok time

/-- `_setMultiInternal` (rbus.c:4128-4152, 4281): the time it waits for each component; taking back waits as long
(rbus.c:4334). -/
def setMultiInternal (prog : Bytes) (fs : Files) (v : Values) (count : Nat) (time : BitVec 32) : Res (BitVec 32) := do
  let time ← (if time = 0 then fetch prog fs v .setMulti else .ok time : Res (BitVec 32))
  if count = 1 then setInternal prog fs v time else return time

/-- The time handed to `rbus_invokeRemoteMethod2` in milliseconds by `rbus_get` (rbus.c:3507), `rbus_getExt` (rbus.c:3694, 3857),
`rbus_set` (rbus.c:4060), `rbus_commit` (rbus.c:4094), `rbus_setMulti` and `rbus_setMultiExt` (rbus.c:4388-4396), `rbusTable_addRow` (rbus.c:4502),
`rbusTable_removeRow` (rbus.c:4568), `rbusTable_getRowNames` (rbus.c:4696), `rbusElementInfo_get` (rbus.c:4836), `rbusMethod_Invoke` (rbus.c:6130) and
`rbusMethod_InvokeAsync` (rbus.c:6193); for `rbusEvent_Subscribe` the time it looks for a provider, which is an `int` (`rbusEvent_SubscribeWithRetries`, rbus.c:5065-5072). -/
def wait (prog : Bytes) (fs : Files) (v : Values) (a : Api) : Res Int :=
  match a with
  | .get | .several | .rowNames | .elementInfo => do return ((← fetch prog fs v .get).toNat : Int)
  | .wildcard => do return ((← fetch prog fs v .getMulti).toNat : Int)
  | .set => do return ((← setInternal prog fs v 0).toNat : Int)
  | .commit | .addRow | .removeRow | .invoke => do return ((← fetch prog fs v .set).toNat : Int)
  | .setMulti count time => do return ((← setMultiInternal prog fs v count time).toNat : Int)
  | .invokeAsync time =>
    if 0 < time.toInt then millis time.toInt else do return ((← fetch prog fs v .set).toNat : Int)
  | .subscribe time =>
    if time.toInt = -1 then do return (← fetch prog fs v .subscribe).toInt else millis time.toInt

/-- What happens in a process. -/
inductive Event where
  /-- `rbus_open` gives handle `i`. -/
  | «open» (i : Nat) (env : Kind → Option Bytes)
  | close (i : Nat)
  | config (i : Nat) (k : Kind) (time : BitVec 32)
  | configAll (i : Nat) (times : Values)
  | call (i : Nat) (a : Api) (fs : Files)

/-- What the caller can see: nothing, a refusal, or the time in milliseconds until it gets an error for want of an answer. -/
inductive Out where
  | done
  | refused
  | waits (ms : Int)
  deriving DecidableEq, Repr

/-- The handles open and their values. -/
abbrev State := Nat → Option Values

/-- One handle's values changed. -/
def State.put (s : State) (i : Nat) (v : Option Values) : State := fun j => if j = i then v else s j

/-- One call. `rbus_open` (rbus.c:3012) fills the values; the configuring calls check for NULL only, so that a handle that has
been closed is used after it was freed; the others check with `VERIFY_HANDLE`. -/
def step (prog : Bytes) (s : State) : Event → Res (State × Out)
  | .open i env => do
    let v ← valuesInit env
    return (s.put i (some v), .done)
  | .close i => .ok (s.put i none, .done)
  | .config i k t =>
    match s i with
    | none => .ub
    | some v => .ok (s.put i (some (config v k t)), .done)
  | .configAll i w =>
    match s i with
    | none => .ub
    | some v => .ok (s.put i (some (configAll v w)), .done)
  | .call i a fs =>
    match s i with
    | none => .ok (s, .refused)
    | some v => do
      let ms ← wait prog fs v a
      return (s, .waits ms)

/-- No handle is open. -/
def start : State := fun _ => none

/-- A list of calls. -/
def run (prog : Bytes) : State → List Event → Res (State × List Out)
  | s, [] => .ok (s, [])
  | s, e :: es => do
    let (s', o) ← step prog s e
    let (s'', os) ← run prog s' es
    return (s'', o :: os)

end Verif.Model.Timeout
