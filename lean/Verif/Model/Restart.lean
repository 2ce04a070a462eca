import Verif.Model.SubCache
import Verif.Model.Subscriptions

/-!
# Model of a provider that starts with a subscription cache

`rbusSubscriptions_create` (src/rbus/rbus_subscriptions.c:98-107) puts what `rbusSubscriptions_loadCache`
restored into the empty registry, before any element is registered.
-/

namespace Verif.Restart

open Verif Verif.Subs Verif.SubCache

/-- The request a cached subscription stands for (rbus_subscriptions.c:771, 818). -/
def keyOf (r : Rec) : Key :=
  ⟨r.listener, r.eventName, r.componentId.toInt, r.filter, r.interval.toInt, r.duration.toInt, r.rawData⟩

/-- A subscription as loaded (rbus_subscriptions.c:491-623): `calloc` leaves tokens, element and instances
NULL. -/
def subOf (a : Nat) (r : Rec) : Sub :=
  ⟨a, keyOf r, r.autoPublish, none, none, [], r.subscriptionId.toNat⟩

/-- The subscriptions loaded, at addresses from `a`. -/
def subsOf (a : Nat) : List Rec → List Sub
  | [] => []
  | r :: rs => subOf a r :: subsOf (a + 1) rs

/-- The registry after `rbusSubscriptions_create` (rbus_subscriptions.c:98-107). The counter for numbers is the
static one of line 126 and knows nothing of those loaded. -/
def start (rs : List Rec) : State :=
  { State.init with subs := subsOf 0 rs, nextAddr := rs.length, cache := rs.map keyOf }

end Verif.Restart
