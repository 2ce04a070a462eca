import Verif.Model.Method

/-!
# Model of sessions from end to end

The session manager (src/session_manager/session_manager.c) as the provider of three methods, the calls of its clients
(src/rbus/rbus.c:6240-6388) through the messages of `Method`, and the events it publishes. The manager serves one call at a
time (its methods are called by one thread).
-/

namespace Verif.SessionWire

open Verif Verif.Value Verif.Wire Verif.Method

/-- The names of the methods (rbus_session_mgr.h:24-26) and of the event (session_manager.c:28). -/
def getCurrentName : Bytes := str "get_curr_s"
def requestName : Bytes := str "req_new_s"
def endName : Bytes := str "end_of_s"
def signalName : Bytes := str "currentSessionIDSignal"

/-- `rbusValue_GetInt32` (rbus_value.c:1311-1315 and 1339): for a value of another type, whatever its memory has there,
`junk`. -/
def int32Of (junk : WVal → BitVec 32) : WVal → BitVec 32
  | .scalar (.int32 v) => v
  | v => junk v

/-- An object with one or two numbers, as the manager builds its answers and events (session_manager.c:44-56, 67-75, 82-86,
90-101, 139-144, 149-160). -/
def one (n : String) (v : BitVec 32) : Obj := .mk [] false (setProp (str n) (.scalar (.int32 v)) .nil) .nil
def two (v w : BitVec 32) : Obj :=
  .mk [] false (setProp (str "sessionid") (.scalar (.int32 w)) (setProp (str "return_value") (.scalar (.int32 v)) .nil)) .nil

/-- What the manager does in one call: `g_current_session_id` afterwards, the output parameters, and the data of the event
it publishes. All return RBUS_ERROR_SUCCESS. -/
structure Done where
  current : BitVec 32
  out : Obj
  event : Option Obj

/-- `sessionManager_methodHandler` (session_manager.c:35-176) with `g_current_session_id`. The constants are 0 for
RBUSCORE_SUCCESS and RBUS_ERROR_SUCCESS, 4 for RBUSCORE_ERROR_INVALID_STATE, 12 for RBUS_ERROR_SESSION_ALREADY_EXIST, 2 for
RBUS_ERROR_INVALID_INPUT. `g_counter` is never read and left out. The last case does not occur: only these three methods
are registered (session_manager.c:225-230). -/
def manager (junk : WVal → BitVec 32) (current : BitVec 32) (method : Bytes) (inp : Obj) : Done :=
  if method = getCurrentName then ⟨current, two 0 current, none⟩
  else if method = requestName then
    if current = 0 then ⟨1, two 0 1, some (two 0 1)⟩
    else ⟨current, one "return_value" 4, some (two 0 current)⟩
  else if method = endName then
    match inp with
    | .mk _ _ (.cons _ v _) _ =>
      if int32Of junk v ≠ 0 then
        if int32Of junk v = current then ⟨0, one "result" 0, some (two 0 0)⟩
        else ⟨current, one "result" 12, some (two 0 current)⟩
      else ⟨current, one "result" 2, some (two 0 current)⟩
    | .mk _ _ .nil _ => ⟨current, one "result" 2, some (two 0 current)⟩
  else ⟨current, .mk [] false .nil .nil, none⟩

/-- The elements of the manager (session_manager.c:225-230). -/
def elements (junk : WVal → BitVec 32) (current : BitVec 32) : Elements := fun n =>
  if n = getCurrentName ∨ n = requestName ∨ n = endName then
    some (some fun inp => ⟨0, (manager junk current n inp).out, none⟩)
  else none

/-- What a client sees, the event published on the way, and the number of objects never released. -/
structure Out where
  code : BitVec 32
  id : BitVec 32
  event : Option Obj
  leaked : Nat

/-- One method call and what it does to the manager. -/
def ask (fc : FloatConv) (junk : WVal → BitVec 32) (current : BitVec 32) (fate : Fate) (parent state : Bytes)
    (method : Bytes) (inp : Option Obj) : Res (BitVec 32 × Option Obj × Reply) := do
  let (called, r) ← call fc (elements junk current) fate parent state method inp
  match called with
  | some (n, o) => pure ((manager junk current n o).current, (manager junk current n o).event, r)
  | none => pure (current, none, r)

/-- How `rbus_createSession` and `rbus_getCurrentSession` read the answer (rbus.c:6250-6270, 6297-6317): code and id.
An object without properties is a NULL pointer there. -/
def readId (junk : WVal → BitVec 32) : Obj → Res (BitVec 32 × BitVec 32)
  | .mk _ _ .nil _ => .ub
  | .mk _ _ (.cons _ v r) _ =>
    if int32Of junk v ≠ 0 then .ok (12, 0)
    else match r with
      | .cons _ w _ => .ok (0, int32Of junk w)
      | .nil => .ok (0, 0)

/-- `rbus_createSession` (rbus.c:6240-6284). -/
def create (fc : FloatConv) (junk : WVal → BitVec 32) (current : BitVec 32) (fate : Fate) (parent state : Bytes) :
    Res (BitVec 32 × Out) := do
  let (c, ev, r) ← ask fc junk current fate parent state requestName none
  if r.code = 0 then do
    let (code, id) ← readId junk r.out
    pure (c, ⟨code, id, ev, 0⟩)
  else pure (c, ⟨r.code, 0, ev, 0⟩)

/-- `rbus_getCurrentSession` (rbus.c:6286-6332): if the call fails it returns without releasing the output parameters. -/
def getCurrent (fc : FloatConv) (junk : WVal → BitVec 32) (current : BitVec 32) (fate : Fate) (parent state : Bytes) :
    Res (BitVec 32 × Out) := do
  let (c, ev, r) ← ask fc junk current fate parent state getCurrentName none
  if r.code = 0 then do
    let (code, id) ← readId junk r.out
    pure (c, ⟨code, id, ev, 0⟩)
  else pure (c, ⟨r.code, 0, ev, 1⟩)

/-- `rbus_closeSession` (rbus.c:6334-6388). -/
def close (fc : FloatConv) (junk : WVal → BitVec 32) (current : BitVec 32) (fate : Fate) (parent state : Bytes)
    (id : BitVec 32) : Res (BitVec 32 × Out) :=
  if id = 0 then .ok (current, ⟨0, 0, none, 0⟩)
  else do
    let (c, ev, r) ← ask fc junk current fate parent state endName (some (one "session" id))
    if r.code = 0 then
      match r.out with
      | .mk _ _ .nil _ => .ub
      | .mk _ _ (.cons _ v _) _ => pure (c, ⟨if int32Of junk v = 0 then 0 else 12, 0, ev, 0⟩)
    else pure (c, ⟨r.code, 0, ev, 0⟩)

/-- What happens: a call by some client, with its fate and the client's trace context, or a new start of the manager. -/
inductive Event where
  | create (fate : Fate) (parent state : Bytes)
  | getCurrent (fate : Fate) (parent state : Bytes)
  | close (fate : Fate) (parent state : Bytes) (id : BitVec 32)
  | restart

/-- One event; `g_current_session_id` is 0 at the start (session_manager.c:31). -/
def step (fc : FloatConv) (junk : WVal → BitVec 32) (current : BitVec 32) : Event → Res (BitVec 32 × Out)
  | .create f p s => SessionWire.create fc junk current f p s
  | .getCurrent f p s => SessionWire.getCurrent fc junk current f p s
  | .close f p s id => SessionWire.close fc junk current f p s id
  | .restart => .ok (0, ⟨0, 0, none, 0⟩)

end Verif.SessionWire
