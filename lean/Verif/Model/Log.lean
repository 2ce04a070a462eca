import Verif.Model.Text

/-!
# Model of logging (src/rtmessage/rtLog.c, src/rbus/rbus.c:6397-6420)

As built without ENABLE_RDKLOGGER. The text of a message is what its format gives; formatting it is left out.
Levels are the numbers of `rtLogLevel` (rtLog.h:44-51), which is unsigned; handlers are numbers. One thread logs
at a time: `sLevel` and `sLogHandler` are not guarded. The names of modules and files are not NULL. The warning
`rbus_registerLogHandler` gives when it refuses is left out.
-/

namespace Verif.Log

open Verif Verif.Text

/-- Text as bytes. -/
def bytes (s : String) : Bytes := s.toUTF8.data.toList

/-- `strcasecmp(..) == 0`. -/
def sameText (a b : Bytes) : Bool := a.map lower == b.map lower

/-- `rtLogLevelStrings` (rtLog.c:52-59) and `rtLogLevelToString` (rtLog.c:150-156). -/
def levelName : Nat → Bytes
  | 0 => bytes "DEBUG"
  | 1 => bytes "INFO"
  | 2 => bytes "WARN"
  | 3 => bytes "ERROR"
  | 4 => bytes "FATAL"
  | _ => bytes "OUT-OF-BOUNDS"

/-- The comparisons in `setLogLevelFromEnvironment` (rtLog.c:87-91) and `rtLogLevelFromString`
(rtLog.c:163-172). -/
def named (s : Bytes) : Option Nat :=
  if sameText s (bytes "debug") then some 0
  else if sameText s (bytes "info") then some 1
  else if sameText s (bytes "warn") then some 2
  else if sameText s (bytes "error") then some 3
  else if sameText s (bytes "fatal") then some 4
  else none

/-- `sLevel` and `sLogHandler` (rtLog.c:61-62). -/
structure State where
  level : Nat
  handler : Option Nat
  deriving DecidableEq, Repr

/-- The state when the program begins: `setLogLevelFromEnvironment` (rtLog.c:75-99) with RT_LOG_LEVEL;
`fail` is `abort`. -/
def start : Option Bytes → Res State
  | none => .ok ⟨2, none⟩
  | some s =>
    if s.length = 0 then .ok ⟨2, none⟩
    else match named s with
      | some l => .ok ⟨l, none⟩
      | none => .fail

/-- `rtLogLevelFromString` (rtLog.c:158-175). -/
def fromString (s : State) (t : Option Bytes) : Nat :=
  match t with
  | none => s.level
  | some t => (named t).getD s.level

/-- `rtTrimPath` (rtLog.c:177-187): what follows the last '/'. -/
def trimPath (s : Bytes) : Bytes := (s.reverse.takeWhile (· ≠ 47)).reverse

/-- The buffer of `rtLogPrintf` (rtLog.c:251-268): `vsnprintf` with a size of 1023, dots over the end if the whole
text had more than 1023 bytes, and a zero in the last place. -/
def buffer (t : Bytes) : Bytes :=
  let b := t.take 1022 ++ List.replicate (1024 - (t.take 1022).length) 0
  let b := if 1023 < t.length then ((b.set 1020 46).set 1021 46).set 1022 46 else b
  b.set 1023 0

/-- The buffer as a string. -/
def shown (t : Bytes) : Bytes := (buffer t).takeWhile (· ≠ 0)

/-- `%-10s`. -/
def padRight (n : Nat) (s : Bytes) : Bytes := s ++ List.replicate (n - s.length) 32

/-- `%5s`. -/
def padLeft (n : Nat) (s : Bytes) : Bytes := List.replicate (n - s.length) 32 ++ s

/-- `%.2d` and the like. -/
def digits (n : Nat) (v : Int) : Bytes :=
  let t := signedText v.natAbs
  (if v < 0 then [45] else []) ++ List.replicate (n - t.length) 48 ++ t

/-- The local time of a message. -/
structure Clock where
  hour : Nat
  min : Nat
  sec : Nat
  usec : Nat
  deriving DecidableEq, Repr

/-- One call of `rtLogPrintf`: level, module, file, line, text, and the thread and time it is made at. -/
structure Call where
  level : Nat
  module' : Bytes
  file : Bytes
  line : Int
  text : Bytes
  thread : Int
  time : Clock
  deriving DecidableEq, Repr

/-- The line printed (rtLog.c:295-297). -/
def line (c : Call) : Bytes :=
  digits 2 c.time.hour ++ [58] ++ digits 2 c.time.min ++ [58] ++ digits 2 c.time.sec ++ [46] ++
    digits 6 c.time.usec ++ [32, 32] ++ padRight 10 c.module' ++ [32] ++ padLeft 5 (levelName c.level) ++ [32] ++
    trimPath c.file ++ [58] ++ signedText c.line ++ bytes " -- Thread-" ++ signedText c.thread ++ [58, 32] ++
    shown c.text ++ [10]

inductive Event where
  /-- `rbus_setLogLevel` -/
  | setLevel (n : Nat)
  /-- `rbus_registerLogHandler`; `none` is NULL -/
  | register (h : Option Nat)
  | log (c : Call)
  deriving DecidableEq, Repr

inductive Out where
  | done
  | invalid
  /-- printed on the standard output -/
  | printed (l : Bytes)
  /-- given to a handler: level, file, line, thread, message -/
  | handed (h level : Nat) (file : Bytes) (line : Int) (thread : Int) (message : Bytes)
  | quiet
  deriving DecidableEq, Repr

/-- `rtLogPrintf` (rtLog.c:248-299). -/
def logPrintf (s : State) (c : Call) : Out :=
  match s.handler with
  | some h => .handed h c.level [] 0 c.thread (shown c.text)
  | none => if c.level < s.level then .quiet else .printed (line c)

/-- `rbus_setLogLevel` (rbus.c:6411-6420) with `rtLog_SetLevel` (rtLog.c:200-203), `rbus_registerLogHandler`
(rbus.c:6397-6409) with `rtLogSetLogHandler` (rtLog.c:190-193), and logging. -/
def step (s : State) : Event → State × Out
  | .setLevel n => if n ≤ 4 then ({ s with level := n }, .done) else (s, .invalid)
  | .register (some h) => ({ s with handler := some h }, .done)
  | .register none => (s, .invalid)
  | .log c => (s, logPrintf s c)

/-- A run of steps. -/
def run (s : State) : List Event → State × List Out
  | [] => (s, [])
  | e :: es =>
    let (s1, o) := step s e
    let (s2, os) := run s1 es
    (s2, o :: os)

end Verif.Log
