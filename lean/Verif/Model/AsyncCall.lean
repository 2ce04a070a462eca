import Verif.Model.Method

/-!
# Model of calling methods asynchronously (src/rbus/rbus.c)

A program has handles and objects; it calls methods with `rbusMethod_InvokeAsync` and goes on. Each call has a thread
of its own, which encodes the parameters and sends the request (`ask`), gets the answer and calls the callback
(`enter`), and when the callback returned lets go of the parameters (`leave`). The steps of these threads and of the
program interleave in any way; what a step does is not interrupted. Of objects there is the number of references and
the content as bytes; a release is one step (see `Retain.Race` for two at once). Handles, objects and calls get numbers
that are not used again, although addresses can be. There is no private connection for the methods called. What is
sent for a request and what is made of an answer is in `Verif.Method`.
-/

namespace Verif.AsyncCall

open Verif

/-- Where the thread of a call is: before it sends the request; waiting for the answer, on a connection that still
exists or on one that is gone; in the callback, with the output parameters. -/
inductive Stage where
  | fresh
  | waiting
  | stranded
  | inside (out : Nat)
  deriving DecidableEq, Repr

/-- What a thread is started with (`rbusMethodInvokeAsyncData_t`, rbus.c:6133-6140). -/
structure Job where
  id : Nat
  handle : Nat
  name : Bytes
  params : Option Nat
  timeout : Int
  stage : Stage
  deriving DecidableEq, Repr

/-- Open handles; how many handles, objects and calls there were; references to and contents of objects, none being a
destroyed object; calls not ended. -/
structure State where
  handles : List Nat
  opened : Nat
  made : Nat
  refs : Nat → Nat
  content : Nat → Bytes
  jobs : List Job
  started : Nat

/-- Nothing yet. -/
def init : State := ⟨[], 0, 0, fun _ => 0, fun _ => [], [], 0⟩

/-- What the call ended with: the error and the output parameters. They are there also when there was no answer
(rbus.c:6082-6096). -/
structure Reply where
  error : Int
  out : Bytes
  deriving DecidableEq, Repr

/-- What happens: the program opens or closes a handle, makes an object, changes one, retains or releases it, calls a
method (`dflt` is the handle's timeout, `thread` whether there can be another thread); the thread of a call sends the
request, calls the callback, is back from the callback. -/
inductive Event where
  | openHandle
  | close (h : Nat)
  | make (c : Bytes)
  | write (o : Nat) (c : Bytes)
  | retain (o : Nat)
  | release (o : Nat)
  | invoke (h : Nat) (name : Bytes) (params : Option Nat) (seconds dflt : Int) (thread : Bool)
  | ask (j : Nat)
  | enter (j : Nat) (r : Reply)
  | leave (j : Nat)
  deriving DecidableEq, Repr

/-- What is seen: the new handle or object; the call started, numbered; the errors of a call; a request sent; the
callback called; objects destroyed. -/
inductive Out where
  | handle (h : Nat)
  | object (o : Nat)
  | started (j : Nat)
  | invalidHandle
  | busError
  | sent (name : Bytes) (params : Option Bytes) (timeout : Int)
  | called (h : Nat) (name : Bytes) (error : Int) (out : Nat)
  | gone (os : List Nat)
  deriving DecidableEq, Repr

/-- `rbusObject_Init` (rbus_object.c:44-55): one reference. -/
def State.create (s : State) (c : Bytes) : State :=
  { s with made := s.made + 1, refs := fun x => if x = s.made then 1 else s.refs x
           content := fun x => if x = s.made then c else s.content x }

/-- `rbusObject_Retain` (rbus_object.c:87-91): undefined for an object that was destroyed. -/
def State.take (s : State) (o : Nat) : Res State :=
  if s.refs o = 0 then .ub else .ok { s with refs := fun x => if x = o then s.refs x + 1 else s.refs x }

/-- `rbusObject_Release` (rbus_object.c:93-97), which destroys the object when there is no reference left: undefined for
an object that was destroyed. -/
def State.drop (s : State) (o : Nat) : Res (State × List Nat) :=
  if s.refs o = 0 then .ub else
  .ok ({ s with refs := fun x => if x = o then s.refs x - 1 else s.refs x }, if s.refs o = 1 then [o] else [])

/-- The same for a pointer that may be NULL, which is left alone. -/
def State.takeOpt (s : State) : Option Nat → Res State
  | none => .ok s
  | some o => s.take o

/-- The same for a pointer that may be NULL, which is left alone. -/
def State.dropOpt (s : State) : Option Nat → Res (State × List Nat)
  | none => .ok (s, [])
  | some o => s.drop o

/-- The parameters as they are read for the request (rbus.c:6062-6070): undefined if destroyed. -/
def State.read (s : State) : Option Nat → Res (Option Bytes)
  | none => .ok none
  | some o => if s.refs o = 0 then .ub else .ok (some (s.content o))

/-- The call with this number that has not ended. -/
def State.job (s : State) (j : Nat) : Option Job := s.jobs.find? (fun x => x.id == j)

/-- The thread of a call is somewhere else. -/
def State.move (s : State) (j : Nat) (st : Stage) : State :=
  { s with jobs := s.jobs.map (fun x => if x.id = j then { x with stage := st } else x) }

/-- What becomes of a thread when the connection is destroyed: one that waits for an answer is left with a connection
that is gone. -/
def Job.strand (x : Job) : Job := if x.stage = .waiting then { x with stage := .stranded } else x

/-- `rbus_close` (rbus.c:3164-3271) as far as calls are concerned: the handle is removed and freed, and with the last
one the connection is destroyed (3232-3256). Threads of calls are neither waited for nor stopped. -/
def State.close (s : State) (h : Nat) : State :=
  if s.handles.erase h = [] then { s with handles := [], jobs := s.jobs.map Job.strand }
  else { s with handles := s.handles.erase h }

/-- `rbusMethod_InvokeAsync` (rbus.c:6167-6205) on a handle that is open: the parameters are retained, then the thread is
created; if this fails neither is undone (6194-6198). -/
def State.invoke (s : State) (h : Nat) (name : Bytes) (params : Option Nat) (seconds dflt : Int) (thread : Bool) :
    Res (State × Out) := do
  let s ← s.takeOpt params
  let t ← Method.asyncTimeout dflt seconds
  if thread then
    pure ({ s with jobs := s.jobs ++ [⟨s.started, h, name, params, t, .fresh⟩], started := s.started + 1 },
      .started s.started)
  else pure (s, .busError)

/-- `rbusMethod_InvokeAsyncThreadFunc` up to sending the request (rbus.c:6142-6155, 6036-6086), which reads the handle:
undefined if it was freed. -/
def State.ask (s : State) (x : Job) : Res (State × Out) := do
  let p ← s.read x.params
  if s.handles.contains x.handle then pure (s.move x.id .waiting, .sent x.name p x.timeout) else .ub

/-- The same from the end of the request up to the callback (rbus.c:6087-6114, 6157). -/
def State.enter (s : State) (x : Job) (r : Reply) : State × Out :=
  ((s.create r.out).move x.id (.inside s.made), .called x.handle x.name r.error s.made)

/-- The same after the callback (rbus.c:6159-6165): parameters and output parameters are released. -/
def State.leave (s : State) (x : Job) (out : Nat) : Res (State × Out) := do
  let (s, a) ← s.dropOpt x.params
  let (s, b) ← s.drop out
  pure ({ s with jobs := s.jobs.filter (fun y => y.id != x.id) }, .gone (a ++ b))

/-- The thread's part of an event, for the thread of a call that has not ended: a step that does not come next in it does
not happen. -/
def State.thread (s : State) (x : Job) : Event → Res (State × Out)
  | .ask _ => match x.stage with
    | .fresh => s.ask x
    | _ => .fail
  | .enter _ r => match x.stage with
    | .waiting => .ok (s.enter x r)
    | .stranded => .ub
    | _ => .fail
  | .leave _ => match x.stage with
    | .inside o => s.leave x o
    | _ => .fail
  | _ => .fail

/-- One step of the program or of a thread. `VERIFY_HANDLE` finds out about closed handles (rbus_handle.h:88-96). -/
def step (s : State) (e : Event) : Res (State × Out) :=
  match e with
  | .openHandle => .ok ({ s with handles := s.handles ++ [s.opened], opened := s.opened + 1 }, .handle s.opened)
  | .close h => if s.handles.contains h then .ok (s.close h, .gone []) else .ok (s, .invalidHandle)
  | .make c => .ok (s.create c, .object s.made)
  | .write o c =>
    if s.refs o = 0 then .ub
    else .ok ({ s with content := fun x => if x = o then c else s.content x }, .gone [])
  | .retain o => do
    let s ← s.take o
    pure (s, .gone [])
  | .release o => do
    let (s, os) ← s.drop o
    pure (s, .gone os)
  | .invoke h name params seconds dflt thread =>
    if s.handles.contains h then s.invoke h name params seconds dflt thread else .ok (s, .invalidHandle)
  | .ask j | .enter j _ | .leave j => match s.job j with
    | some x => s.thread x e
    | none => .fail

/-- Steps in order. -/
def run (s : State) : List Event → Res (State × List Out)
  | [] => .ok (s, [])
  | e :: es => do
    let (s, o) ← step s e
    let (s, os) ← run s es
    pure (s, o :: os)

end Verif.AsyncCall
