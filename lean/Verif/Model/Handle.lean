import Verif.Model.Base

/-!
# Model of the handle list (src/rbus/rbus_handle.c) and of opening and closing handles
(src/rbus/rbus.c:2941-3060, 3164-3271)

The vector of handles is a list, as justified by `C26_vector_is_list`. Allocation succeeds and hands
out addresses never used before. Subscriptions, elements, message callbacks and the files under
`/tmp/.rbus` are left out. The broker connection is a flag; whether connecting, registering the
component's name and reading the timeouts succeed is up to the environment. All of it runs under
`gMutex`, so calls are atomic (the lock is given up between closing the previous handle of the name and
going on, rbus.c:2972-2977; interleavings there are left out).
-/

namespace Verif.Handle

open Verif

/-- The parts of `struct _rbusHandle` (rbus_handle.h) that lookups look at, and its address. -/
structure Handle where
  addr : Nat
  id : Nat
  name : Bytes
  deriving DecidableEq, Repr

/-- `gHandleList` (rbus_handle.c:36), the next fresh address, `sLastComponentId` (rbus.c:2946) and
whether there is a broker connection. -/
structure State where
  handles : List Handle
  nextAddr : Nat
  lastId : Nat
  connected : Bool
  deriving DecidableEq, Repr

/-- A process at its start. -/
def init : State := { handles := [], nextAddr := 1, lastId := 0, connected := false }

/-- `RBUS_MAX_HANDLES` (rbus_handle.h:46). -/
def maxHandles : Nat := 16

/-- `rbusHandleList_IsValidHandle` (rbus_handle.c:48-69). -/
def isValid (s : State) (addr : Nat) : Bool := s.handles.any (fun h => h.addr = addr)

/-- The loop of `rbusHandleList_GetByComponentID` (rbus_handle.c:139-146) with what the variable
`handle` holds. -/
def getByIdLoop (id : Nat) : Option Handle → List Handle → Option Handle
  | handle, [] => handle
  | _, h :: hs => if h.id = id then some h else getByIdLoop id (some h) hs

/-- `rbusHandleList_GetByComponentID` (rbus_handle.c:131-149). -/
def getById (s : State) (id : Nat) : Option Handle := getByIdLoop id none s.handles

/-- The loop of `rbusHandleList_GetByName` (rbus_handle.c:160-168). -/
def getByNameLoop (name : Bytes) : List Handle → Option Handle
  | [] => none
  | h :: hs => if h.name = name then some h else getByNameLoop name hs

/-- `rbusHandleList_GetByName` (rbus_handle.c:151-171). -/
def getByName (s : State) (name : Bytes) : Option Handle := getByNameLoop name s.handles

/-- `rbusHandleList_IsFull` (rbus_handle.c:98-102). -/
def isFull (s : State) : Bool := s.handles.length ≥ maxHandles

/-- `rbusHandleList_Remove` (rbus_handle.c:80-91): the first handle at the address goes. -/
def remove (addr : Nat) : List Handle → List Handle
  | [] => []
  | h :: hs => if h.addr = addr then hs else h :: remove addr hs

/-- `rbus_close` (rbus.c:3164-3271): `false` is `RBUS_ERROR_INVALID_HANDLE` for a pointer that is
not an open handle. The broker connection is closed with the last handle. -/
def close (s : State) (addr : Nat) : State × Bool :=
  if isValid s addr then
    let hs := remove addr s.handles
    ({ s with handles := hs, connected := if hs = [] then false else s.connected }, true)
  else (s, false)

/-- What the environment decides during one `rbus_open`: the results of
`rbus_openBrokerConnection`, `rbus_registerObj` and `rbusHandle_TimeoutValuesInit`. -/
structure Env where
  connectOk : Bool
  registerOk : Bool
  timeoutsOk : Bool
  deriving DecidableEq, Repr

/-- Lines 3044-3047 (`exit_error1`): the memory `tmpHandle` points to is freed. When `tmpHandle` is
still the previous handle of the name, which `rbus_close` has freed, this is a double free. -/
def exitError1 (s : State) (previous : Option Handle) : Res (State × Option Handle) :=
  match previous with
  | none => .ok (s, none)
  | some _ => .ub

/-- Lines 2992-3023 and 3029-3037: allocate, register and add the new handle, or give up
(`exit_error2`) and close the connection when there is no handle. The increment of
`sLastComponentId` overflows after 2^31 - 1 handles. -/
def openNew (s : State) (name : Bytes) (env : Env) : Res (State × Option Handle) :=
  let s := { s with nextAddr := s.nextAddr + 1 }
  if env.registerOk = false ∨ env.timeoutsOk = false then
    .ok ({ s with connected := if s.handles = [] then false else s.connected }, none)
  else if s.lastId + 1 ≥ 2 ^ 31 then .ub
  else
    let h : Handle := { addr := s.nextAddr - 1, id := s.lastId + 1, name }
    .ok ({ s with handles := s.handles ++ [h], lastId := s.lastId + 1 }, some h)

/-- Lines 2980-2997 and 3039-3047, after the previous handle of the name was closed. -/
def openRest (s : State) (name : Bytes) (env : Env) (previous : Option Handle) :
    Res (State × Option Handle) :=
  if isFull s then exitError1 s previous
  else if s.connected then openNew s name env
  else if env.connectOk then openNew { s with connected := true } name env
  else exitError1 s previous

/-- `rbus_open` (rbus.c:2941-3060) with a non-NULL handle and name: the handle, or an error. -/
def openHandle (s : State) (name : Bytes) (env : Env) : Res (State × Option Handle) :=
  match getByName s name with
  | some prev => openRest (close s prev.addr).1 name env (some prev)
  | none => openRest s name env none

/-- A call of the API. -/
inductive Op where
  | open_ (name : Bytes) (env : Env)
  | close (addr : Nat)
  deriving DecidableEq, Repr

/-- What a call returned. -/
inductive Out where
  | opened (h : Handle)
  | openFailed
  | closed (ok : Bool)
  deriving DecidableEq, Repr

/-- One call. -/
def step (s : State) : Op → Res (State × Out)
  | .open_ name env => do
    let r ← openHandle s name env
    match r.2 with
    | some h => pure (r.1, .opened h)
    | none => pure (r.1, .openFailed)
  | .close addr =>
    let r := close s addr
    .ok (r.1, .closed r.2)

/-- A history of calls with the results. -/
def run (s : State) : List Op → Res (State × List Out)
  | [] => .ok (s, [])
  | o :: os => do
    let r ← step s o
    let rest ← run r.1 os
    pure (rest.1, r.2 :: rest.2)

end Verif.Handle
