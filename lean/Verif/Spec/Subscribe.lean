import Verif.Model.Subscribe
import Verif.Spec.Wire

/-!
# Specification of the messages for subscribing: what is meant
-/

namespace Verif.Subscribe

open Verif Verif.Message Verif.Wire

/-- The request can be sent. -/
def Request.Sendable (fc : FloatConv) (q : Request) : Prop := Name q.event ∧ SendableFilter fc q.filter

/-- The initial value can be sent. -/
def Initial.Sendable (fc : FloatConv) : Initial → Prop
  | .data o => SendableObj fc o
  | _ => True

/-- The event the consumer should see first: the initial value, for exactly this subscription. -/
def firstEvent (q : Request) : Initial → Option Event
  | .data o => some { name := q.event, type := initialValue, data := some o, filter := q.filter,
                      interval := q.interval, duration := q.duration, componentId := q.componentId }
  | _ => none

/-- What the consumer should understand: the error of the provider, or else the number the provider gave, and the
initial value exactly if it asked for one and there is one. -/
def meant (q : Request) (ret : BitVec 32) (i : Initial) (id : BitVec 32) : Seen :=
  if ret ≠ 0 then .refused ret else .subscribed (if q.publish then firstEvent q i else none) id

end Verif.Subscribe
