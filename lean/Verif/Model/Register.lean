import Verif.Model.Router
import Verif.Model.Element

/-!
# Model of registering and unregistering elements (src/rbus/rbus.c, src/core/rbuscore.c, src/rtmessage/rtConnection.c)

One provider and the router. While the provider registers, the router handles nothing else. Restoring subscriptions from the
cache (rbus.c:3334-3336) is in `SubCache`. Allocation succeeds, and the handle is a regular one.
-/

namespace Verif.Register

open Verif

/-- `rbusDataElement_t` (include/rbus.h:501-507). -/
structure Elem where
  name : Bytes
  type : Nat
  cb : Element.Cb

/-- A provider: its connection to the router, the listeners in use with their ids (`con->listeners`, in order), the topic for
responses, the next number of a message, and `elementRoot`. -/
structure Provider where
  client : Nat
  component : Bytes
  listeners : List (Bytes × Int)
  inbox : Bytes
  seq : Nat
  tree : Element.Tree

/-- What becomes of a request to the router: it is answered; it cannot be sent; the answer is lost. -/
inductive Fate where
  | answered
  | lost
  | unanswered
  deriving DecidableEq, Repr

/-- The router, the provider, and the fates of the coming requests (answered once the list is used up). -/
structure World where
  router : Router.State
  provider : Provider
  fates : List Fate

/-- `MAX_OBJECT_NAME_LENGTH` (rbuscore.h:28). -/
def maxName : Nat := 256

/-- The message of `rtConnection_AddAlias` (rtConnection.c:1377-1381) and `rtConnection_RemoveAlias` (1419-1424). -/
def message (p : Provider) (add : Bool) (name : Bytes) (id : Int) : Router.Message :=
  { hdr := { topic := Router.subscribeTopic, reply := if add then p.inbox else [], seq := p.seq, request := add,
             response := false, undeliverable := false, flags := 0, control := 0 }
    payload := []
    body := .json { add := some (if add then 1 else 0), topic := some (some name), routeId := some id, expression := none,
                    count := none, items := [], command := none } }

/-- The id of the first listener for the name of the component (rtConnection.c:1369-1373, 1412-1416). -/
def listener (p : Provider) : Option Int := (p.listeners.find? (fun l => l.1 = p.component)).map (·.2)

/-- The response to a request (rtConnection.c:1610-1640): the first message to the provider that has the number of the request.
Others that arrive meanwhile are for listeners and are left out. -/
def response (p : Provider) (ds : List Router.Delivery) : Option Router.Result :=
  match ds.find? (fun d => d.client = p.client && d.hdr.response && d.hdr.seq = p.seq) with
  | some ⟨_, _, .result r⟩ => some r
  | _ => none

/-- What `rbus_addElement` returns, as far as its caller looks at it. -/
inductive Added where
  | success
  | unsupported
  | other
  deriving DecidableEq, Repr

/-- From the result of `rtConnection_AddAlias` (rtConnection.c:1382-1393) to that of `rbus_addElement` (rbuscore.c:1014-1023);
`none` is a request that timed out. -/
def added : Option Router.Result → Added
  | some (.tree .ok) => .success
  | some (.tree .protocolError) => .unsupported
  | _ => .other

/-- Names are neither empty nor too long (rbuscore.c:1004-1011, 1043-1050). -/
def lengths (p : Provider) (name : Bytes) : Bool :=
  !p.component.isEmpty && p.component.length < maxName && !name.isEmpty && name.length < maxName

/-- `rbus_addElement` (rbuscore.c:988-1027) with `rtConnection_AddAlias` (rtConnection.c:1361-1403). -/
def addElement (w : World) (name : Bytes) : Res (World × Added) :=
  if lengths w.provider name then
    match listener w.provider with
    | none => .ok (w, .other)
    | some id =>
      let p := w.provider
      let after : World := { w with provider := { p with seq := p.seq + 1 }, fates := w.fates.tail }
      match w.fates.headD .answered with
      | .lost => .ok (after, .other)
      | .unanswered => do
        let r ← Router.step w.router (.message p.client (message p true name id))
        .ok ({ after with router := r.1 }, .other)
      | .answered => do
        let r ← Router.step w.router (.message p.client (message p true name id))
        .ok ({ after with router := r.1 }, added (response p r.2))
  else .ok (w, .other)

/-- `rbus_removeElement` (rbuscore.c:1029-1055) with `rtConnection_RemoveAlias` (rtConnection.c:1404-1435), which asks for no
response; what they return is only logged. That the message is lost is left out. -/
def removeElement (w : World) (name : Bytes) : Res World :=
  if lengths w.provider name then
    match listener w.provider with
    | none => .ok w
    | some id => do
      let p := w.provider
      let r ← Router.step w.router (.message p.client (message p false name id))
      .ok { w with router := r.1, provider := { p with seq := p.seq + 1 } }
  else .ok w

/-- The loop of `rbus_unregDataElements` (rbus.c:3392-3406); the element tree is not changed. -/
def unregLoop (w : World) : List Bytes → Res World
  | [] => .ok w
  | n :: ns => do
    let w' ← removeElement w n
    unregLoop w' ns

/-- `rbus_unregDataElements` (rbus.c:3376-3408): the code. -/
def unregister (w : World) (names : List Bytes) : Res (World × Nat) :=
  if names = [] then .ok (w, 2)
  else do
    let w' ← unregLoop w names
    .ok (w', 0)

/-- The loop of `rbus_regDataElements` (rbus.c:3294-3341): the code and how many elements were registered. -/
def regLoop (w : World) : List Elem → Nat → Res (World × Nat × Nat)
  | [], i => .ok (w, 0, i)
  | e :: es, i =>
    if e.name = [] then .ok (w, 2, i)
    else do
      let (w', r) ← addElement w e.name
      match r with
      | .unsupported => .ok (w', 25, i)
      | .other => .ok (w', 14, i)
      | .success =>
        let t := Element.insert w'.provider.tree e.name e.type e.cb
        regLoop { w' with provider := { w'.provider with tree := t } } es (i + 1)

/-- `rbus_regDataElements` (rbus.c:3275-3374): the code. -/
def register (w : World) (es : List Elem) : Res (World × Nat) :=
  if es = [] then .ok (w, 2)
  else do
    let (w', code, i) ← regLoop w es 0
    if code ≠ 0 ∧ 0 < i then do
      let (w'', _) ← unregister w' ((es.take i).map (·.name))
      .ok (w'', code)
    else .ok (w', code)

end Verif.Register
