import Verif.Model.Log

/-!
# What logging is to do
-/

namespace Verif.Spec.Log

open Verif Verif.Log

/-- The level and the handler a call asks for. -/
def asksLevel : Event → Option Nat
  | .setLevel n => if n ≤ 4 then some n else none
  | _ => none

def asksHandler : Event → Option Nat
  | .register h => h
  | _ => none

/-- The level set last, if any was. -/
def levelAfter (first : Nat) (es : List Event) : Nat := ((es.filterMap asksLevel).getLast?).getD first

/-- The handler registered last. -/
def handlerAfter (es : List Event) : Option Nat := (es.filterMap asksHandler).getLast?

/-- The names of the levels, in order. -/
def names : List String := ["debug", "info", "warn", "error", "fatal"]

/-- `s` is this name, in small letters, capitals or any mixture. -/
def Reads (s : Bytes) (name : String) : Prop := s.map Text.lower = bytes name

/-- `dir/base`, or just `base`. -/
inductive Path : Bytes → Bytes → Prop where
  | base {b : Bytes} : 47 ∉ b → Path b b
  | inside {d b : Bytes} : 47 ∉ b → Path (d ++ 47 :: b) b

end Verif.Spec.Log
