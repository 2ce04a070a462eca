import Verif.Spec.Router
import Verif.Spec.RouterUse

/-!
# Histories of a router as histories of its table
-/

namespace Verif.Router

open Verif Verif.Spec.Routing Verif.Spec.Router

/-- What a client gives with a message to the router: where to reply, the number, and whether it wants a
reply. -/
structure Ask where
  reply : Bytes
  seq : Nat
  request : Bool
  deriving DecidableEq, Repr

/-- What clients do; `other` is any message but one to the subscribe topic. -/
inductive Act where
  | connect (c : Nat)
  | disconnect (c : Nat)
  | subscribe (c : Nat) (n : Name) (i : Int) (a : Ask)
  | unsubscribe (c : Nat) (n : Name) (i : Int) (a : Ask)
  | other (c : Nat) (m : Message)
  deriving DecidableEq, Repr

/-- The message that subscribes or unsubscribes (rtConnection.c:1241-1280, 1321-1360). -/
def subscription (add : Int) (n : Name) (i : Int) (a : Ask) : Message :=
  { hdr := { topic := subscribeTopic, reply := a.reply, seq := a.seq, request := a.request, response := false,
             undeliverable := false, flags := 0, control := 0 }
    payload := []
    body := .json { add := some add, topic := some (some (dotted n)), routeId := some i, expression := none,
                    count := none, items := [], command := none } }

/-- The event of an act. -/
def event : Act → Event
  | .connect c => .connect c
  | .disconnect c => .disconnect c
  | .subscribe c n i a => .message c (subscription 1 n i a)
  | .unsubscribe c n i a => .message c (subscription 0 n i a)
  | .other c m => .message c m

/-- The table after an act, given whether a further name was accepted. -/
def tableStep (T : Table) (accepted : Bool) : Act → Table
  | .connect _ => T
  | .disconnect c => T.leave c
  | .subscribe c n i _ => T.subscribe c n i accepted
  | .unsubscribe c n _ _ => T.unsubscribe c n
  | .other _ _ => T

/-- The table after a history, given which further names were accepted. -/
def tableRun (T : Table) : List (Act × Bool) → Table
  | [] => T
  | (a, b) :: h => tableRun (tableStep T b a) h

/-- The table at the start: the router's own names. -/
def table0 : Table := ⟨[], (ownTopics.map Routing.tokens).map (fun n => (n, 0)), 1⟩

/-- The names clients use. -/
def actNames : List Act → List Name
  | [] => []
  | .subscribe _ n _ _ :: as => n :: actNames as
  | .unsubscribe _ n _ _ :: as => n :: actNames as
  | _ :: as => actNames as

/-- All names in use, those of the router included. -/
def allNames (as : List Act) : List Name := ownTopics.map Routing.tokens ++ actNames as

/-- The acts are as they should be: names follow the convention, have to do nothing with the router's
own, and are short enough; `other` messages are not subscriptions. -/
def Regular (as : List Act) : Prop :=
  Conventional (allNames as) ∧ (∀ n ∈ actNames as, Elsewhere (dotted n) ∧ validString (dotted n) = true) ∧
  (∀ c m, Act.other c m ∈ as → m.hdr.topic ≠ subscribeTopic) ∧ Orderly true (as.map event)

/-- What a client unsubscribes from is its own: it made a route with this name, or all names there and
below lead to its routes. -/
def OwnName (T : Table) (c : Nat) (n : Name) : Prop :=
  (∃ r ∈ T.routes, r.main = n ∧ r.client = c) ∨
    ∀ x ∈ T.regs, n <+: x.1 → ∃ r ∈ T.routes, r.uid = x.2 ∧ r.client = c

/-- A message as a route gets it: under the id of the route, otherwise unchanged. -/
def passed (m : Message) (r : Nat × Int) : Delivery :=
  ⟨r.1, { m.hdr with control := r.2 }, .forwarded m.payload⟩

/-- The answer to a request that cannot be delivered, as a route of the reply topic gets it: empty, with
the number of the request, flagged as a response and as undeliverable. -/
def returned (m : Message) (r : Nat × Int) : Delivery :=
  ⟨r.1, { topic := m.hdr.reply, reply := m.hdr.reply, seq := m.hdr.seq, request := false, response := true,
          undeliverable := true, flags := m.hdr.flags, control := r.2 }, .forwarded []⟩

/-- The router's answer to a request, as a route of the reply topic gets it. -/
def answer (m : Message) (ct : Content) (r : Nat × Int) : Delivery :=
  ⟨r.1, { topic := m.hdr.reply, reply := m.hdr.topic, seq := m.hdr.seq, request := false, response := true,
          undeliverable := false, flags := 0, control := r.2 }, ct⟩

/-- A message to a name in use (or not), which has nothing to do with the router's own. -/
def Addressed (P : List Name) (t : Bytes) (q : Name) : Prop := Askable P q ∧ t = dotted q ∧ Elsewhere t

/-- The router forwards every message exactly to the routes the table has for its topic. -/
def Forwards (P : List Name) (s : State) (T : Table) : Prop :=
  ∀ c m q, Addressed P m.hdr.topic q → (T.receivers q ≠ [] ∨ m.hdr.request = false) →
    step s (.message c m) = .ok (s, (T.receivers q).map (passed m))

/-- The router answers a request for which the table has no route. -/
def Returns (P : List Name) (s : State) (T : Table) : Prop :=
  ∀ c m q qr, Addressed P m.hdr.topic q → T.receivers q = [] → m.hdr.request = true →
    Addressed P m.hdr.reply qr → step s (.message c m) = .ok (s, (T.receivers qr).map (returned m))

end Verif.Router
