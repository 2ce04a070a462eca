import Verif.Model.Subscriptions
import Verif.Proof.Exec
import Verif.Spec.Filter

/-!
# Vocabulary for a provider's subscriptions
-/

namespace Verif.Spec.Registry

open Verif Verif.Subs

/-- Two requests are for the same subscription. -/
structure SameKey (sc : Bool) (a b : Key) : Prop where
  listener : a.listener = b.listener
  eventName : a.eventName = b.eventName
  componentId : a.componentId = b.componentId
  filter : Filter.Same sc a.filter b.filter
  interval : a.interval = b.interval
  duration : a.duration = b.duration
  rawData : a.rawData = b.rawData

/-- A subscription without filter, interval, duration or raw data. -/
def Plain (k : Key) : Prop := k.filter = .null ∧ k.interval = 0 ∧ k.duration = 0 ∧ k.rawData = false

/-- What has happened to a provider since it started without cached subscriptions. -/
def History (sc : Bool) (h : List ((Op × Env) × Option Nat)) (s : State) : Prop :=
  Exec (Subs.step sc) State.init h s

end Verif.Spec.Registry
