import Verif.Model.Consumer

/-!
# Model of subscribing to several events at once without waiting (src/rbus/rbus.c:5626-5668)
-/

namespace Verif.SubscribeMany

open Verif Verif.Consumer

/-- One of the subscriptions given to `rbusEvent_SubscribeExAsync` (rbus.c:5626-5668), its handler, and how a request to end it ends
if one is made. A handler that is NULL is not refused; a number stands for it. `publishOnSubscribe` of the subscription is not looked
at (line 5650) and left out. -/
structure Wish where
  key : Key
  handler : Nat
  undo : Ended

/-- `rbusEvent_UnsubscribeEx` (rbus.c:5750-5806) for the subscriptions asked for so far. -/
def cancelAll (sc : Bool) (s : State) : List Wish → Res State
  | [] => .ok s
  | q :: qs => do
    let (s, _) ← step sc s (.unsubscribe true q.key q.undo)
    cancelAll sc s qs

/-- The loop of `rbusEvent_SubscribeExAsync` (rbus.c:5644-5667), while nothing else happens to the handle: no request is settled
during the call. `done` are the subscriptions asked for so far; the result tells whether all were. -/
def askAll (sc : Bool) (done : List Wish) (s : State) : List Wish → Res (State × Bool)
  | [] => .ok (s, true)
  | q :: qs => do
    let (s, o) ← step sc s (.subscribeAsync q.key q.handler)
    if o = .success then askAll sc (done ++ [q]) s qs
    else do
      let s ← cancelAll sc s done
      pure (s, false)

/-- `rbusEvent_SubscribeExAsync` (rbus.c:5626-5668) with arguments that are not NULL and a regular handle. -/
def subscribeMany (sc : Bool) (s : State) (qs : List Wish) : Res (State × Bool) := askAll sc [] s qs

end Verif.SubscribeMany
