import Verif.Model.SubscribeMany
import Verif.Spec.Consumer

/-!
# What subscribing to several events at once means
-/

namespace Verif.SubscribeMany

open Verif Verif.Consumer Verif.Spec.Consumer
open Verif.Filter (Same)

/-- Not data sent as is, and a filter with plain values. -/
def Wish.Plain (sc : Bool) (q : Wish) : Prop := PlainFilter sc q.key.filter ∧ q.key.raw = false

/-- The requests a handle is waiting for, with those asked for behind. -/
def asked (s : State) (qs : List Wish) : State := { s with pending := s.pending ++ qs.map fun q => (q.key, q.handler) }

/-- A subscription to the same event with the same filter; interval and duration may differ. -/
def Rival (sc : Bool) (a b : Key) : Prop := a.name = b.name ∧ Same sc a.filter b.filter

end Verif.SubscribeMany
