import Verif.Model.Timeout
/-!
# How long a call waits: specification

What a caller reads in rbus.h: the last time configured for the kind of call holds; 0 stands for the built-in one; a file in /tmp
with the program's name and the kind overrides it with a number of seconds.
-/

namespace Verif.Spec.Timeout

open Model.Timeout

/-- Built-in times in milliseconds. -/
def default : Kind → Nat
  | .get => 15 * 1000
  | .set => 15 * 1000
  | .getMulti => 2 * 60 * 1000
  | .setMulti => 60 * 1000
  | .subscribe => 10 * 60 * 1000

def blank (c : UInt8) : Bool := c.toNat == 32 || (9 ≤ c.toNat && c.toNat ≤ 13)

def digit (c : UInt8) : Bool := 48 ≤ c.toNat && c.toNat ≤ 57

/-- The number a text begins with, after blanks; 0 if there is none. -/
def number (t : Bytes) : Nat :=
  ((t.dropWhile blank).takeWhile digit).foldl (fun n c => 10 * n + (c.toNat - 48)) 0

/-- The text has no sign in front of the number. -/
def Unsigned (t : Bytes) : Prop := ∀ c ∈ (t.dropWhile blank).head?, c.toNat ≠ 43 ∧ c.toNat ≠ 45

/-- Where the number ends. -/
def ending (t : Bytes) : Nat := (t.takeWhile blank).length + ((t.dropWhile blank).takeWhile digit).length

/-- What the environment says for a kind. -/
def fromEnv (var : Option Bytes) (k : Kind) : Nat :=
  match var with
  | none => default k
  | some [] => default k
  | some t => number t

/-- A time configured, 0 standing for the built-in one. -/
def orDefault (v : BitVec 32) (k : Kind) : Nat := if v.toNat = 0 then default k else v.toNat

/-- The time in force for a kind of call on a handle, from what happened, the latest first; none if the handle is not open. -/
def inForce (i : Nat) (k : Kind) : List Event → Option Nat
  | [] => none
  | .open j env :: older => if j = i then some (fromEnv (env k) k) else inForce i k older
  | .close j :: older => if j = i then none else inForce i k older
  | .config j k' v :: older => if j = i ∧ k' = k then some (orDefault v k) else inForce i k older
  | .configAll j w :: older => if j = i then some (orDefault (w.of k) k) else inForce i k older
  | .call .. :: older => inForce i k older

/-- The file that overrides a kind. -/
def file (prog : Bytes) : Kind → Option Bytes
  | .get => some ("/tmp/rbus_".toUTF8.data.toList ++ prog ++ "_timeout_get".toUTF8.data.toList)
  | .set => some ("/tmp/rbus_".toUTF8.data.toList ++ prog ++ "_timeout_set".toUTF8.data.toList)
  | .getMulti => some ("/tmp/rbus_".toUTF8.data.toList ++ prog ++ "_timeout_get_wildcard_query".toUTF8.data.toList)
  | .setMulti => some ("/tmp/rbus_".toUTF8.data.toList ++ prog ++ "_timeout_setMulti".toUTF8.data.toList)
  | .subscribe => none

/-- The number of seconds in the file, 0 for none. -/
def seconds (prog : Bytes) (fs : Files) (k : Kind) : Nat :=
  match file prog k with
  | none => 0
  | some name =>
    match fs name with
    | none => 0
    | some t => number t

/-- What a call asks for: a time of its own in milliseconds, or that of a kind. -/
inductive Asked where
  | own (ms : Int)
  | kind (k : Kind)

/-- What each call asks for. -/
def asked : Api → Asked
  | .get | .several | .rowNames | .elementInfo => .kind .get
  | .wildcard => .kind .getMulti
  | .set | .commit | .addRow | .removeRow | .invoke => .kind .set
  | .setMulti _ t => if t.toNat = 0 then .kind .setMulti else .own t.toNat
  | .invokeAsync t => if 0 < t.toInt then .own (t.toInt * 1000) else .kind .set
  | .subscribe t => if t.toInt = -1 then .kind .subscribe else .own (t.toInt * 1000)

/-- How long a call is to wait. -/
def waits (prog : Bytes) (fs : Files) (past : List Event) (i : Nat) (a : Api) : Out :=
  match asked a with
  | .own ms => if (inForce i .get past).isSome then .waits ms else .refused
  | .kind k =>
    match inForce i k past with
    | none => .refused
    | some ms => .waits (if 0 < seconds prog fs k then 1000 * seconds prog fs k else ms : Nat)

/-- What a call gives, `past` being what happened before, the latest first. -/
def answer (prog : Bytes) (past : List Event) : Event → Out
  | .call i a fs => waits prog fs past i a
  | _ => .done

/-- What each of a list of calls gives. -/
def answers (prog : Bytes) (past : List Event) : List Event → List Out
  | [] => []
  | e :: es => answer prog past e :: answers prog (e :: past) es

/-- Variables that hold positive numbers of an `int`. -/
def GoodEnv (env : Kind → Option Bytes) : Prop :=
  ∀ k t, env k = some t → t ≠ [] → Unsigned t ∧ 0 < number t ∧ number t < 2 ^ 31

/-- The file of this kind, if there is one, holds a number of seconds that in milliseconds is an `int`, within 24 bytes. -/
def GoodFile (prog : Bytes) (fs : Files) (k : Kind) : Prop :=
  ∀ name t, file prog k = some name → fs name = some t → Unsigned t ∧ number t * 1000 < 2 ^ 31 ∧ ending t ≤ 24

/-- A call whose times in milliseconds are those of an `int`. -/
def GoodCall (prog : Bytes) (past : List Event) (i : Nat) (a : Api) (fs : Files) : Prop :=
  match a with
  | .subscribe t => if t.toInt = -1 then ∀ ms ∈ inForce i .subscribe past, ms < 2 ^ 31 else
      -(2 ^ 31) ≤ t.toInt * 1000 ∧ t.toInt * 1000 < 2 ^ 31
  | .invokeAsync t => if 0 < t.toInt then t.toInt * 1000 < 2 ^ 31 else GoodFile prog fs .set
  | a => match asked a with
    | .own _ => True
    | .kind k => GoodFile prog fs k

/-- Every variable of the environment, every file and every time given is within bounds, and configuring is for open handles. -/
def Good (prog : Bytes) : List Event → Prop
  | [] => True
  | e :: older => Good prog older ∧
    match e with
    | .open _ env => GoodEnv env
    | .close _ => True
    | .config i _ _ | .configAll i _ => (inForce i .get older).isSome
    | .call i a fs => GoodCall prog older i a fs

end Verif.Spec.Timeout
