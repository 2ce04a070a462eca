import Verif.Model.EventWire
import Verif.Spec.Wire
import Verif.Spec.Consumer
import Verif.Spec.Provider
import Verif.Proof.Exec

/-!
# Specification: what a subscriber gets to hear of an event
-/

namespace Verif.Spec.EventWire

open Verif Verif.Wire Verif.EventWire Verif.Value
open Verif.Subs (Sub EventKind)
open Verif.Spec.Consumer (PlainFilter Plain Regular view Status History)

/-- Properties as a list. -/
def listed : PropList → List (Bytes × WVal)
  | .nil => []
  | .cons n v r => (n, v) :: listed r

/-- The name of the property that tells the answer of a filter. -/
def flagName : Bytes := "filter".toUTF8.data.toList

/-- The same data, except for the property that tells the answer of a filter. -/
def Alike : Obj → Obj → Prop
  | .mk n t ps cs, .mk n' t' ps' cs' => n = n' ∧ t = t' ∧ cs = cs' ∧
    (listed ps).filter (fun y => y.1 ≠ flagName) = (listed ps').filter (fun y => y.1 ≠ flagName)

/-- The data tells this answer of a filter. -/
def Tells (b : Bool) : Obj → Prop
  | .mk _ _ ps _ => (listed ps).find? (fun y => y.1 = flagName) = some (flagName, .scalar (.boolean b))

/-- What the event tells, in terms of publishing: a change of the value under `value` from that under `oldValue` (type 2), or
something else. -/
def Tidings (e : Ev) : EventKind → Prop
  | .other => e.type ≠ 2
  | .valueChanged (some new) (some old) => e.type = 2 ∧ ∃ n t ps cs, e.data = some (.mk n t ps cs) ∧
    (listed ps).find? (fun y => y.1 = "value".toUTF8.data.toList) = some ("value".toUTF8.data.toList, .scalar new) ∧
    (listed ps).find? (fun y => y.1 = "oldValue".toUTF8.data.toList) = some ("oldValue".toUTF8.data.toList, .scalar old)
  | _ => False

/-- The key under which the subscriber keeps a subscription. -/
def keyOf (x : Sub) : Consumer.Key :=
  ⟨x.key.eventName, x.key.filter, BitVec.ofInt 32 x.key.interval, BitVec.ofInt 32 x.key.duration, false⟩

/-- The data of the event as the subscriber gets it: as published; and with a filter, the property `filter` tells its new answer. -/
def Data (sc : Bool) (k : EventKind) (x : Sub) : Option Obj → Option Obj → Prop
  | none, d => d = none
  | some o, d => ∃ o', d = some o' ∧ Alike o o' ∧
    (x.key.filter ≠ .null → ∀ new old, k = .valueChanged (some new) (some old) →
      ∃ b, Filter.apply sc x.key.filter new = .ok b ∧ Tells b o')

/-- A subscriber's process with the handle of this id: the handles have different ids, and this one has the history `h`. -/
structure Holds (sc : Bool) (P : Process) (id : BitVec 32) (h : History) : Prop where
  ids : (P.map (·.1)).Nodup
  handle : ∃ c, (id, c) ∈ P ∧ Exec (Consumer.step sc) Consumer.State.init h c
  plain : Plain sc h
  regular : Regular sc h

/-- The event can be sent: names are C strings, values can be sent, and there is room for one more property. -/
structure Fit (fc : FloatConv) (e : Ev) : Prop where
  name : Name e.name
  data : ∀ n t ps cs, e.data = some (.mk n t ps cs) → SendableObj fc (.mk n t ps cs) ∧ ps.count + 1 < 2 ^ 31

/-- The subscription has a name and a filter that can be sent, and that are compared as expected. -/
structure Subscribable (sc : Bool) (fc : FloatConv) (x : Sub) : Prop where
  name : Name x.key.eventName
  filter : SendableFilter fc x.key.filter
  plain : PlainFilter sc x.key.filter

/-- The message makes the subscriber's process call the handler of the subscription, once, with the event. -/
def Reaches (sc : Bool) (fc : FloatConv) (k : EventKind) (e : Ev) (x : Sub) (p : Packet) : Prop :=
  ∀ (P : Process) (h : History) (H : Nat) (r : Consumer.Ended), Holds sc P (BitVec.ofInt 32 x.key.componentId) h →
    view sc (keyOf x) h = .on H →
    ∃ P' d, receive sc fc P p r = .ok (P', .called (BitVec.ofInt 32 x.key.componentId) H ⟨e.name, e.type, d⟩) ∧
      Data sc k x e.data d

/-- The message makes the subscriber's process call no handler if the handle has no such subscription. -/
def Spares (sc : Bool) (fc : FloatConv) (x : Sub) (p : Packet) : Prop :=
  ∀ (P : Process) (h : History) (r : Consumer.Ended), Holds sc P (BitVec.ofInt 32 x.key.componentId) h →
    view sc (keyOf x) h = .off → receive sc fc P p r = .ok (P, .ignored)

end Verif.Spec.EventWire
