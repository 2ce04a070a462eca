import Verif.Model.Wire
import Verif.Model.Params

/-!
# Model of calling a method (src/rbus/rbus.c)

One call from end to end: `rbusMethod_Invoke` at the caller (6036-6128), `_method_callback_handler` at the provider
(2457-2563) with the application's handler, perhaps `rbusMethod_SendAsyncResponse` later (6207-6238), and the messages
between them byte by byte. Routing and waiting are in other modules; here the caller either gets an error from
`rbus_invokeRemoteMethod2` or the response to its own request. Reference counts are not modelled.
-/

namespace Verif.Method

open Verif Verif.Message Verif.Value Verif.Wire

/-- The bytes of a text. -/
def str (s : String) : Bytes := s.toUTF8.data.toList

/-- "METHOD_RPC" and "METHOD_RESPONSE" (rbuscore_types.h:73-74). -/
def methodRpc : Bytes := str "METHOD_RPC"
def methodResponse : Bytes := str "METHOD_RESPONSE"

/-- The names of the properties about an error (rbus.c:2517-2518). -/
def errorCode : Bytes := str "error_code"
def errorString : Bytes := str "error_string"

/-- `RBUS_ERROR_ASYNC_RESPONSE` (include/rbus.h). -/
def eAsync : BitVec 32 := 21

/-- `rbusError_ToString` (rbus.c:6423-6457). -/
def errorText (e : BitVec 32) : Bytes :=
  match e.toNat with
  | 0 => str "ok"
  | 1 => str "generic error"
  | 2 => str "invalid input"
  | 3 => str "not initialized"
  | 4 => str "out of resources"
  | 5 => str "destination not found"
  | 6 => str "destination not reachable"
  | 7 => str "destination response failure"
  | 8 => str "invalid response from destination"
  | 9 => str "invalid operation"
  | 10 => str "invalid event"
  | 11 => str "invalid handle"
  | 12 => str "session already exists"
  | 13 => str "duplicate component name"
  | 14 => str "duplicate element name"
  | 15 => str "name missing"
  | 16 => str "component does not exist"
  | 17 => str "element name does not exist"
  | 18 => str "access denied"
  | 19 => str "invalid context"
  | 20 => str "timeout"
  | 21 => str "async operation in progress"
  | _ => str "unknown error"

/-- `rbusObject_Init(&obj, NULL)`. -/
def emptyObj : Obj := .mk [] false .nil .nil

/-- The first property with the name (`rbusObject_GetProperty`, rbus_object.c). -/
def getProp (n : Bytes) : PropList → Option WVal
  | .nil => none
  | .cons m v r => if m = n then some v else getProp n r

/-- `rbusObject_SetPropertyValue` (rbus_object.c) on the list: the value of the first property with the name, or a new
property at the end. -/
def setProp (n : Bytes) (v : WVal) : PropList → PropList
  | .nil => .cons n v .nil
  | .cons m w r => if m = n then .cons m v r else .cons m w (setProp n v r)

/-- Setting the two properties about an error (rbus.c:2515-2518, 6090-6093, 6227-6230). -/
def setError (code : BitVec 32) (text : Bytes) : Obj → Obj
  | .mk n t ps cs =>
    .mk n t (setProp errorString (.scalar (.string (some text))) (setProp errorCode (.scalar (.int32 code)) ps)) cs

/-- What the application's handler does: it returns a code and leaves the output parameters; if the code is
`RBUS_ERROR_ASYNC_RESPONSE` it calls `rbusMethod_SendAsyncResponse` later, with a code and an object or NULL, or never. -/
structure Outcome where
  code : BitVec 32
  out : Obj
  later : Option (BitVec 32 × Option Obj)

/-- The elements of the provider: none of the name, one without a method handler, one with a handler. -/
abbrev Elements := Bytes → Option (Option (Obj → Outcome))

/-- The body of the request (rbus.c:6060-6072). The session id is always 0. -/
def request (fc : FloatConv) (name : Bytes) (inp : Option Obj) : Res Bytes :=
  match inp with
  | some o => do
    let d ← appendObj fc o
    pure (setInt32 0 ++ (setString name ++ (setInt32 1 ++ d)))
  | none => .ok (setInt32 0 ++ (setString name ++ setInt32 0))

/-- What the provider does: the handler that is called, with the name and the input, and the response, if there is one. -/
structure Served where
  called : Option (Bytes × Obj)
  response : Option Bytes

/-- The body of a response: code and output parameters (rbus.c:2556-2558); nothing for a NULL object (681-684). The metadata
follow (rbuscore.c:2343). -/
def respond (fc : FloatConv) (code : BitVec 32) (out : Option Obj) : Res Bytes :=
  match out with
  | some o => do
    let d ← appendObj fc o
    pure (setMeta (setInt32 code ++ d) methodResponse [] [])
  | none => .ok (setMeta (setInt32 code) methodResponse [] [])

/-- The output parameters after the handler returned an error (rbus.c:2508-2520). A property without a value counts as
one with a value here. -/
def complete (code : BitVec 32) : Obj → Obj
  | .mk n t ps cs =>
    if code = 0 then .mk n t ps cs
    else match getProp errorCode ps with
      | some _ => .mk n t ps cs
      | none => setError code (errorText code) (.mk n t ps cs)

/-- The output parameters `rbusMethod_SendAsyncResponse` sends (rbus.c:6222-6232). -/
def completeAsync (code : BitVec 32) (out : Option Obj) : Option Obj :=
  match out with
  | some o => some o
  | none => if code = 0 then none else some (setError code (errorText code) emptyObj)

/-- The part of `_method_callback_handler` after the request is read (rbus.c:2486-2562), and what follows for an
asynchronous answer. -/
def handle (fc : FloatConv) (els : Elements) (name : Bytes) (inp : Obj) : Res Served :=
  match els name with
  | none => do
    let r ← respond fc 17 (some (setError 17 (str "RBUS_ERROR_ELEMENT_DOES_NOT_EXIST") emptyObj))
    pure ⟨none, some r⟩
  | some none => do
    let r ← respond fc 9 (some (setError 9 (str "RBUS_ERROR_INVALID_OPERATION") emptyObj))
    pure ⟨none, some r⟩
  | some (some h) =>
    if (h inp).code = eAsync then
      match (h inp).later with
      | some (code, out) => do
        let r ← respond fc code (completeAsync code out)
        pure ⟨some (name, inp), some r⟩
      | none => .ok ⟨some (name, inp), none⟩
    else do
      let r ← respond fc (h inp).code (some (complete (h inp).code (h inp).out))
      pure ⟨some (name, inp), some r⟩

/-- `_method_callback_handler` (rbus.c:2457-2563). -/
def serve (fc : FloatConv) (els : Elements) (msg : Bytes) : Res Served := do
  let (_, bs) ← orUb (getInt32 msg)
  let (name, bs) ← getStringU bs
  let (has, bs) := getInt32Z bs
  if has ≠ 0 then do
    let (o, _) ← readObject fc bs
    handle fc els name o
  else handle fc els name emptyObj

/-- The caller's end: what `rbusMethod_Invoke` returns and puts into `outParams`. -/
structure Reply where
  code : BitVec 32
  out : Obj

/-- `rbusCoreError_to_rbusError` (rbus.c:135-193) of the errors of `rbus_invokeRemoteMethod2` (rbuscore.c:1111-1186), by the
values of the enumerations. -/
def coreToRbus (e : Nat) : BitVec 32 :=
  match e with
  | 0 => 0
  | 1 => 1
  | 2 => 2
  | 3 => 4
  | 4 => 12
  | 5 => 7
  | 6 => 7
  | 7 => 20
  | 8 => 8
  | 9 => 22
  | 10 => 10
  | 11 => 4
  | 12 => 6
  | 13 => 21
  | 14 => 9
  | 17 => 5
  | _ => 1

/-- The code returned for the code in the response (rbus.c:6098-6105). The enumeration is compared as an unsigned number
(none of its values is negative). -/
def returned (code : BitVec 32) : BitVec 32 :=
  if 100 < code.toNat then BitVec.ofNat 32 (Params.ccspToRbus code.toNat) else code

/-- Reading the code of a response (rbus.c:6098); it stays as it was set when the next item is no number. -/
def getCode (dflt : BitVec 32) (bs : Bytes) : BitVec 32 × Bytes :=
  match unpackNext bs with
  | some (.int d, r) => (BitVec.ofInt 32 d, r)
  | some (_, r) => (dflt, r)
  | none => (dflt, bs)

/-- The rest of `rbusMethod_InvokeInternal` (rbus.c:6077-6111): `rbus_invokeRemoteMethod2` gives an error or the response.
The code stays RBUS_ERROR_INVALID_INPUT when the response has none. -/
def receive (fc : FloatConv) (r : Nat ⊕ Bytes) : Res Reply :=
  match r with
  | .inl e => .ok ⟨coreToRbus e, setError (coreToRbus e) (errorText (coreToRbus e)) emptyObj⟩
  | .inr msg => do
    let (code, bs) := getCode 2 msg
    let (o, _) ← readObject fc bs
    pure ⟨returned code, o⟩

/-- `RBUSCORE_ERROR_REMOTE_TIMED_OUT` (rbuscore_types.h:34). -/
def coreTimeout : Nat := 7

/-- What happens to a call on the way: the request arrives and so does the response, if there is one; the request does
not arrive; the response does not. In the last two cases `rbus_invokeRemoteMethod2` returns the error. -/
inductive Fate where
  | delivered
  | lost (e : Nat)
  | unanswered (e : Nat)

/-- One call: the handler called with what, and what the caller gets. The metadata of the request carry the trace context.
Without an answer the caller runs into its timeout. -/
def call (fc : FloatConv) (els : Elements) (fate : Fate) (parent state name : Bytes) (inp : Option Obj) :
    Res (Option (Bytes × Obj) × Reply) := do
  let req ← request fc name inp
  match fate with
  | .lost e => do
    let r ← receive fc (.inl e)
    pure (none, r)
  | .unanswered e => do
    let s ← serve fc els (setMeta req methodRpc parent state)
    let r ← receive fc (.inl e)
    pure (s.called, r)
  | .delivered => do
    let s ← serve fc els (setMeta req methodRpc parent state)
    match s.response with
    | some m => do
      let r ← receive fc (.inr m)
      pure (s.called, r)
    | none => do
      let r ← receive fc (.inl coreTimeout)
      pure (s.called, r)

/-- The timeout in milliseconds that `rbusMethod_InvokeAsync` waits for seconds given, all of type `int`
(rbus.c:6192): `ub` when it overflows. `dflt` is the handle's timeout for sets. -/
def asyncTimeout (dflt seconds : Int) : Res Int :=
  if seconds > 0 then (if seconds * 1000 < 2 ^ 31 then .ok (seconds * 1000) else .ub) else .ok dflt

end Verif.Method
