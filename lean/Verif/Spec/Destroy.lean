import Verif.Model.Destroy

/-!
# What destroying a connection is meant to do
-/

namespace Verif.Destroy

/-- What happened, with what was seen of it. -/
abbrev History := List (Event × Obs)

/-- The messages put in the queue, in order. -/
def accepted : History → List Nat
  | [] => []
  | (_, .queued m) :: h => m :: accepted h
  | _ :: h => accepted h

/-- The messages taken off the queue and released, in order. -/
def released : History → List Nat
  | [] => []
  | (_, .released ms) :: h => ms ++ released h
  | _ :: h => released h

/-- `rtConnection_Destroy` was called, in a callback. -/
def Within (h : History) : Prop := ∃ x ∈ h, x.1 = .destroy true

/-- `rtConnection_Destroy` has returned. -/
def Finished (h : History) : Prop := ∃ x ∈ h, x.2 = .finished

/-- `rtConnection_Destroy` has been called. -/
def Begun (h : History) : Prop := ∃ x ∈ h, ∃ i, x.1 = .destroy i

/-- No thread of the application made the connection again once destroying it had begun. -/
def Calm (h : History) : Prop := ∀ a b i o, h = a ++ (.destroy i, o) :: b → ∀ x ∈ b, x.1 ≠ .remake

/-- A step of one of the threads of the connection, or of the thread that destroys it. -/
def ofLibrary : Event → Bool
  | .worker _ | .spurious | .reader _ _ | .destroyer => true
  | _ => false

/-- The requests sent and not yet back. -/
def outstanding (es : List Event) : List Nat :=
  es.foldl (fun l e => match e with
    | .request i => l ++ [i]
    | .finish i _ => l.filter (· != i)
    | _ => l) []

/-- Nobody destroys the connection in a callback or while requests are on their way, and nobody sends a
request once it is being destroyed. `destroyed` and `out` say how things stand before the events. -/
def Orderly (destroyed : Bool) (out : List Nat) : List Event → Prop
  | [] => True
  | .request i :: es => destroyed = false ∧ Orderly destroyed (out ++ [i]) es
  | .finish i _ :: es => Orderly destroyed (out.filter (· != i)) es
  | .destroy inside :: es => inside = false ∧ out = [] ∧ Orderly true out es
  | _ :: es => Orderly destroyed out es

end Verif.Destroy
