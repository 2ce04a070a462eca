import Verif.Model.Base

/-!
# Model of the session manager (src/session_manager/session_manager.c) and its client API
(src/rbus/rbus.c:6240-6388)

The method calls between a client and the session manager are taken to be delivered and answered; the
manager serves one at a time. The published `currentSessionIDSignal` events carry the state after the
call and are not modelled.
-/

namespace Verif.Session

/-- `g_current_session_id` (session_manager.c:29), 0 when no session is open. `g_counter` is never
read and left out. -/
structure State where
  current : BitVec 32
  deriving DecidableEq, Repr

/-- The state the session manager starts in (session_manager.c:29). -/
def init : State := { current := 0#32 }

/-- The results a client can see: `RBUS_ERROR_SUCCESS` and `RBUS_ERROR_SESSION_ALREADY_EXIST`. -/
inductive Rc where
  | success
  | sessionAlreadyExist
  deriving DecidableEq, Repr

/-- The `return_value` and `sessionid` the manager puts into the answer to a request for a session
(session_manager.c:60-86): 0 stands for `RBUSCORE_SUCCESS`. -/
def requestSession (s : State) : State × Nat × Option (BitVec 32) :=
  if 0#32 = s.current then
    ({ current := 1#32 }, 0, some 1#32)
  else
    (s, 4, none)

/-- The `result` the manager answers to the end of a session with the given session id property
(session_manager.c:112-138): 0 for success, the two error codes otherwise. -/
def endSession (s : State) (sessionid : BitVec 32) : State × Nat :=
  if sessionid ≠ 0#32 then
    if sessionid = s.current then
      ({ current := 0#32 }, 0)
    else
      (s, 12)
  else
    (s, 2)

/-- `rbus_createSession` (rbus.c:6240-6284) with the id left in `*pSessionId`. -/
def create (s : State) : State × Rc × BitVec 32 :=
  let r := requestSession s
  if r.2.1 ≠ 0 then (r.1, .sessionAlreadyExist, 0#32)
  else (r.1, .success, r.2.2.getD 0#32)

/-- `rbus_getCurrentSession` (rbus.c:6286-6332; the manager's side is session_manager.c:40-58). -/
def getCurrent (s : State) : State × Rc × BitVec 32 := (s, .success, s.current)

/-- `rbus_closeSession` (rbus.c:6334-6388): id 0 is answered without asking the manager. -/
def close (s : State) (id : BitVec 32) : State × Rc × BitVec 32 :=
  if id = 0#32 then (s, .success, 0#32)
  else
    let r := endSession s id
    if r.2 = 0 then (r.1, .success, 0#32) else (r.1, .sessionAlreadyExist, 0#32)

/-- A call by some client. -/
inductive Op where
  | create
  | close (id : BitVec 32)
  | getCurrent
  deriving DecidableEq, Repr

/-- One call. -/
def step (s : State) : Op → State × Rc × BitVec 32
  | .create => create s
  | .close id => close s id
  | .getCurrent => getCurrent s

/-- A history of calls, by any clients, with the results. -/
def run (s : State) : List Op → State × List (Rc × BitVec 32)
  | [] => (s, [])
  | o :: os =>
    let r := step s o
    let rest := run r.1 os
    (rest.1, r.2 :: rest.2)

end Verif.Session
