import Verif.Model.AsyncCall

/-!
# What a program that calls methods asynchronously relies on

Everything is counted from what the program did and saw.
-/

namespace Verif.Spec.AsyncCall

open Verif Verif.AsyncCall

/-- A call that has not ended: its number, the handle, the method, the parameters, and the output parameters while the
callback runs. -/
structure Call where
  id : Nat
  handle : Nat
  name : Bytes
  params : Option Nat
  out : Option Nat
  deriving DecidableEq, Repr

/-- What a step changes in the calls that have not ended. -/
def note (l : List Call) : Event × Out → List Call
  | (.invoke h n p _ _ _, .started j) => l ++ [⟨j, h, n, p, none⟩]
  | (.enter j _, .called _ _ _ o) => l.map (fun c => if c.id = j then { c with out := some o } else c)
  | (.leave j, _) => l.filter (fun c => c.id != j)
  | _ => l

/-- The calls that have not ended. -/
def calls (h : List (Event × Out)) : List Call := h.foldl note []

/-- What a step changes in the number of references the program has to an object. -/
def own (o : Nat) (n : Nat) : Event × Out → Nat
  | (.make _, .object x) => if x = o then n + 1 else n
  | (.retain x, _) => if x = o then n + 1 else n
  | (.release x, _) => if x = o then n - 1 else n
  | _ => n

/-- References the program has to an object. -/
def mine (o : Nat) (h : List (Event × Out)) : Nat := h.foldl (own o) 0

/-- How many need an object: references of the program, calls it is a parameter of, callbacks it is shown to. -/
def held (o : Nat) (h : List (Event × Out)) : Nat :=
  mine o h + (calls h).countP (fun c => c.params = some o) + (calls h).countP (fun c => c.out = some o)

/-- Was a call with this object not started for want of a thread? -/
def failed (o : Nat) : Event × Out → Bool
  | (.invoke _ _ p _ _ _, .busError) => p = some o
  | _ => false

/-- The object is the program's, or shown to it in a callback. -/
def Has (h : List (Event × Out)) (o : Nat) : Prop := 0 < mine o h ∨ ∃ c ∈ calls h, c.out = some o

/-- What a careful program does: it releases its own references, uses objects it has, gives at most 2147483 seconds,
and closes a handle only when all calls made with it had their callback called. -/
def Allowed (h : List (Event × Out)) : Event → Prop
  | .release o => 0 < mine o h
  | .retain o => Has h o
  | .write o _ => Has h o
  | .invoke _ _ p s _ _ => (∀ o, p = some o → Has h o) ∧ s ≤ 2147483
  | .close x => ∀ c ∈ calls h, c.handle = x → c.out.isSome
  | _ => True

/-- It did so all the time. -/
def Careful (h : List (Event × Out)) : Prop := ∀ a x b, h = a ++ x :: b → Allowed a x.1

/-- The objects a step destroyed. -/
def gone : Event × Out → List Nat
  | (_, .gone os) => os
  | _ => []

/-- Does a step bring an object into being? -/
def news (o : Nat) : Event × Out → Bool
  | (_, .object x) => x = o
  | (_, .called _ _ _ x) => x = o
  | _ => false

/-- The object was there at some time. -/
def Made (o : Nat) (h : List (Event × Out)) : Prop := ∃ x ∈ h, news o x = true

/-- What a step makes of the content of an object. -/
def put (o : Nat) (c : Bytes) : Event × Out → Bytes
  | (.make d, .object x) => if x = o then d else c
  | (.enter _ r, .called _ _ _ x) => if x = o then r.out else c
  | (.write x d, _) => if x = o then d else c
  | _ => c

/-- The content of an object: what was written last. -/
def content (h : List (Event × Out)) (o : Nat) : Bytes := h.foldl (put o) []

/-- How long to wait, in milliseconds: the seconds given, or else the handle's timeout. -/
def wait (seconds dflt : Int) : Int := if 0 < seconds then 1000 * seconds else dflt

end Verif.Spec.AsyncCall
