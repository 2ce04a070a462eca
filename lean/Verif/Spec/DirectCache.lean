import Verif.Model.DirectCache

/-!
# What the file of private connections is to tell

The connections every process serves, and those there were when any process of the program last changed its
own.
-/

namespace Verif.Spec.DirectCache

open Verif Verif.DirectCache

/-- A connection: where, for whom, to what. -/
structure Conn where
  address : Bytes
  consumer : Bytes
  element : Bytes
  deriving DecidableEq, Repr

/-- `live`: what each process serves. `kept`: what the process that last changed its connections served
then. -/
structure Sheet where
  live : Nat → List Conn
  kept : List Conn

def blank : Sheet := ⟨fun _ => [], []⟩

/-- A process has other connections now. -/
def Sheet.now (v : Sheet) (p : Nat) (l : List Conn) : Sheet :=
  ⟨fun q => if q = p then l else v.live q, l⟩

/-- Names are kept up to 255 bytes. -/
def short (s : Bytes) : Bytes := s.take 255

/-- What is there after an event. Closing what is not there is no change. -/
def note (v : Sheet) : Event → Sheet
  | .start p => ⟨fun q => if q = p then [] else v.live q, v.kept⟩
  | .open p a c e => v.now p (v.live p ++ [⟨short a, short c, short e⟩])
  | .close p c e =>
    if (v.live p).any (fun x => x.element = e ∧ x.consumer = c) then
      v.now p ((v.live p).eraseP fun x => x.element = e ∧ x.consumer = c)
    else v
  | .gone p a => v.now p ((v.live p).filter (·.address ≠ a))
  | .cut _ => v

/-- The sheet after a list of events. -/
def sheet (es : List Event) : Sheet := es.foldl note blank

/-- The log line about a connection. -/
def Conn.line (c : Conn) : Shown × Shown := (some c.element, some c.consumer)

/-- The bytes the number of connections takes at the beginning of the file, in the format of messages. -/
def numberSize (n : Nat) : Nat :=
  if n < 128 then 1 else if n < 256 then 2 else if n < 65536 then 3 else 5

/-- Names are strings of C; the disk takes what is written. -/
def Plain : Event → Prop
  | .open _ a c e => 0 ∉ a ∧ 0 ∉ c ∧ 0 ∉ e
  | .cut _ => False
  | _ => True

instance (e : Event) : Decidable (Plain e) := by
  cases e <;> (unfold Plain; infer_instance)

end Verif.Spec.DirectCache
