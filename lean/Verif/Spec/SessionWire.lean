import Verif.Model.SessionWire
import Verif.Spec.Method

/-!
# Specification of sessions from end to end
-/

namespace Verif.Spec.SessionWire

open Verif Verif.Value Verif.Method Verif.SessionWire
open Verif.Wire hiding Event

/-- The manager gets the request. -/
def Arrives : Fate → Bool
  | .delivered | .unanswered _ => true
  | .lost _ => false

/-- The error of a request that fails, if it does. -/
def mishap : Fate → Option Nat
  | .delivered => none
  | .lost e | .unanswered e => some e

/-- Failures are no success. -/
def Event.Proper : Event → Prop
  | .create f _ _ | .getCurrent f _ _ | .close f _ _ _ => mishap f ≠ some 0
  | .restart => True

/-- Whether a session is open after the events, the latest first: the last request that arrived opened it or found it open,
unless somebody closed it or the manager was started again. The number of a session is 1. -/
def isOpen : List Event → Bool
  | [] => false
  | .create f _ _ :: h => Arrives f || isOpen h
  | .getCurrent .. :: h => isOpen h
  | .close f _ _ id :: h => if Arrives f && id == 1 then false else isOpen h
  | .restart :: _ => false

/-- The number of the open session, 0 if there is none. -/
def openId (h : List Event) : BitVec 32 := if isOpen h then 1 else 0

/-- The code for a mishap. -/
def failed (e : Nat) : BitVec 32 := coreToRbus e

/-- What the client is to be told for an event after the history. -/
def told (h : List Event) : Event → BitVec 32 × BitVec 32
  | .create f _ _ =>
    match mishap f with
    | some e => (failed e, 0)
    | none => if isOpen h then (12, 0) else (0, 1)
  | .getCurrent f _ _ =>
    match mishap f with
    | some e => (failed e, 0)
    | none => (0, openId h)
  | .close f _ _ id =>
    if id = 0 then (0, 0)
    else match mishap f with
      | some e => (failed e, 0)
      | none => (if isOpen h ∧ id = 1 then 0 else 12, 0)
  | .restart => (0, 0)

/-- Whether subscribers are told of it: of each request for a session and each closing, that arrives. -/
def tells : Event → Bool
  | .create f _ _ => Arrives f
  | .close f _ _ id => Arrives f && id != 0
  | _ => false

/-- The number in the data of an event that subscribers get. -/
def number (o : Obj) : Option (BitVec 32) :=
  match valueOf o "sessionid" with
  | some (.scalar (.int32 v)) => some v
  | _ => none

end Verif.Spec.SessionWire
