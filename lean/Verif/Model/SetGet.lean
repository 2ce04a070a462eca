import Verif.Model.Method

/-!
# Model of setting and getting values from end to end (src/rbus/rbus.c)

One exchange between a caller and one provider, byte by byte: `_setInternal` (3969-4056), one request of `_setMultiInternal`
(4239-4285), `rbus_setCommit` (4063-4126), `rbus_get` (3465-3560), one request of `rbus_getExt` (3807-3874) and the functions
for single types; at the provider `_callback_handler` (2845-2912) with the application's handlers. How names are spread over
providers is in `Params`, wildcards are in `Gather`, reference counts are left out, and allocation succeeds. The elements
of the provider do not change during a request.
-/

namespace Verif.SetGet

open Verif Verif.Message Verif.Value Verif.Wire
open Verif.Method (str Fate getCode methodResponse coreToRbus coreTimeout)

/-- Names of the methods (rbuscore_types.h:65-70). -/
def methodSet : Bytes := str "METHOD_SETPARAMETERVALUES"
def methodGet : Bytes := str "METHOD_GETPARAMETERVALUES"
def methodCommit : Bytes := str "METHOD_COMMIT"

/-- What a set handler is given: the property and `rbusSetHandlerOptions_t` (include/rbus.h). -/
structure SetArgs where
  name : Bytes
  value : WVal
  session : BitVec 32
  requester : Option Bytes
  commit : Bool

/-- What a get handler is given: the name of a property without a value, and `rbusGetHandlerOptions_t`. -/
structure GetArgs where
  name : Bytes
  requester : Option Bytes

/-- What a get handler does: its code, and the property as it leaves it. -/
structure Got where
  code : BitVec 32
  name : Bytes
  value : WVal

/-- A call of a handler and its result. -/
inductive Call where
  | set (a : SetArgs) (code : BitVec 32)
  | get (a : GetArgs) (r : Got)

/-- The application at the provider: which handlers an element has, and what they do, which may depend on all calls before.
Properties that a handler appends to the one it is given are left out. -/
structure App where
  elem : Bytes → Option (Bool × Bool)
  get : List Call → GetArgs → Got
  set : List Call → SetArgs → BitVec 32

/-- Calling a set handler. -/
def callSet (app : App) (calls : List Call) (a : SetArgs) : List Call × BitVec 32 :=
  (calls ++ [.set a (app.set calls a)], app.set calls a)

/-- Calling a get handler. -/
def callGet (app : App) (calls : List Call) (a : GetArgs) : List Call × Got :=
  (calls ++ [.get a (app.get calls a)], app.get calls a)

/-- Properties as a chain. -/
def toList : List (Bytes × WVal) → PropList
  | [] => .nil
  | (n, v) :: l => .cons n v (toList l)

/-- A chain of properties as a list. -/
def ofList : PropList → List (Bytes × WVal)
  | .nil => []
  | .cons n v l => (n, v) :: ofList l

/-! ## The provider -/

/-- A set request as read. -/
structure SetRequest where
  session : BitVec 32
  requester : Bytes
  rollBack : Bool
  props : List (Bytes × WVal)
  commit : Bool

/-- Answer of the provider: the code, the name sent with a failure, the old values sent with success. -/
structure SetReply where
  code : BitVec 32
  failed : Bytes
  old : List (Bytes × WVal)

/-- Putting old values back (rbus.c:1590-1605); the codes are ignored. -/
def restore (app : App) (session : BitVec 32) (requester : Bytes) (commit : Bool) : List (Bytes × WVal) → List Call → List Call
  | [], calls => calls
  | (n, v) :: l, calls => restore app session requester commit l (callSet app calls ⟨n, v, session, some requester, commit⟩).1

/-- Reading the old value (rbus.c:1557-1568): its code is overwritten (1574), and `options` was zeroed (1515). -/
def backup (app : App) (calls : List Call) (wanted : Bool) (n : Bytes) : List Call × List (Bytes × WVal) :=
  if wanted then
    let (calls, r) := callGet app calls ⟨n, none⟩
    (calls, [(r.name, r.value)])
  else (calls, [])

/-- The loop over the properties (rbus.c:1549-1632); `kept` is `cachedData`. -/
def setLoop (app : App) (r : SetRequest) : List (Bytes × WVal) → List (Bytes × WVal) → List Call → List Call × SetReply
  | [], kept, calls => (calls, ⟨0, [], kept⟩)
  | (n, v) :: l, kept, calls =>
    match app.elem n with
    | none => (calls, ⟨17, n, []⟩)
    | some (_, false) => (calls, ⟨27, n, []⟩)
    | some (readable, true) =>
      let (calls, old) := backup app calls (r.rollBack && readable) n
      let commit := r.commit && l.isEmpty
      let (calls, code) := callSet app calls ⟨n, v, r.session, some r.requester, commit⟩
      if code = 0 then setLoop app r l (kept ++ old) calls
      else (if r.rollBack then restore app r.session r.requester commit kept calls else calls, ⟨code, n, []⟩)

/-- Whether the text says to commit (rbus.c:1546-1547): `strncasecmp` of the first four characters. -/
def saysTrue (s : Bytes) : Bool :=
  (s.take 4).map (fun c => if 65 ≤ c ∧ c ≤ 90 then c + 32 else c) = str "true"

/-- Writing the answer to a set (rbus.c:1651-1660). -/
def writeSet (fc : FloatConv) (r : SetReply) : Res Bytes :=
  if r.code = 0 then do
    let d ← appendPropList fc (toList r.old)
    pure (setInt32 0 ++ d)
  else .ok (setInt32 r.code ++ setString r.failed)

/-- `_set_callback_handler` (rbus.c:1496-1672). -/
def serveSet (fc : FloatConv) (app : App) (calls : List Call) (bs : Bytes) : Res (List Call × Bytes) := do
  let (session, bs) := getInt32Z bs
  let (comp, bs) ← getStringN bs
  let (rollBack, bs) := getInt32Z bs
  let (n, bs) := getInt32Z bs
  if 0 < n.toInt then do
    let (ps, bs) ← readProps fc bs.length n.toInt.toNat bs
    let (c, _) ← getStringU bs
    let (calls, r) := setLoop app ⟨session, comp, decide (rollBack = 1), ofList ps, saysTrue c⟩ (ofList ps) [] calls
    let m ← writeSet fc r
    pure (calls, m)
  else do
    let m ← writeSet fc ⟨2, comp, []⟩
    pure (calls, m)

/-- The loop over the names of a get (rbus.c:2023-2079) with `_get_single_dml_handler` (1954-1994). Wildcards are not
represented (`fail`). -/
def getLoop (app : App) (requester : Bytes) : Nat → List (Bytes × WVal) → List Call → Bytes →
    Res (List Call × BitVec 32 × List (Bytes × WVal))
  | 0, acc, calls, _ => .ok (calls, 0, acc)
  | k + 1, acc, calls, bs => do
    let (n, bs) ← getStringU bs
    if Params.isWildcard n then .fail
    else
      match app.elem n with
      | none => .ok (calls, 17, [])
      | some (false, _) => .ok (calls, 9, [])
      | some (true, _) =>
        let (calls, r) := callGet app calls ⟨n, some requester⟩
        if r.code = 0 then getLoop app requester k (acc ++ [(r.name, r.value)]) calls bs
        else .ok (calls, r.code, [])

/-- `_get_callback_handler` (rbus.c:1999-2117). -/
def serveGet (fc : FloatConv) (app : App) (calls : List Call) (bs : Bytes) : Res (List Call × Bytes) := do
  let (comp, bs) ← getStringN bs
  let (n, bs) := getCode 1 bs
  if 0 < n.toInt then do
    let (calls, code, l) ← getLoop app comp n.toInt.toNat [] calls bs
    if code = 0 then do
      let d ← appendProps fc (toList l)
      pure (calls, setInt32 0 ++ (setInt32 n ++ d))
    else pure (calls, setInt32 code)
  else pure (calls, setInt32 2)

/-- `_callback_handler` (rbus.c:2845-2912) for these methods, with the metadata of the request and of the response
(rbuscore.c:443-460, 2343). Other methods are not represented (`fail`). -/
def serve (fc : FloatConv) (app : App) (calls : List Call) (msg : Bytes) : Res (List Call × Bytes) := do
  let ((method, _, _), _) ← getMeta msg 0
  if method = methodGet then do
    let (calls, m) ← serveGet fc app calls msg
    pure (calls, setMeta m methodResponse [] [])
  else if method = methodSet then do
    let (calls, m) ← serveSet fc app calls msg
    pure (calls, setMeta m methodResponse [] [])
  else if method = methodCommit then .ok (calls, setMeta (setInt32 0) methodResponse [] [])
  else .fail

/-! ## The caller -/

/-- One exchange: the calls made so far and what `rbus_invokeRemoteMethod2` gives: an error or the response. -/
def exchange (fc : FloatConv) (app : App) (calls : List Call) (fate : Fate) (parent state method body : Bytes) :
    Res (List Call × (Nat ⊕ Bytes)) :=
  match fate with
  | .lost e => .ok (calls, .inl e)
  | .unanswered e => do
    let (calls, _) ← serve fc app calls (setMeta body method parent state)
    pure (calls, .inl e)
  | .delivered => do
    let (calls, m) ← serve fc app calls (setMeta body method parent state)
    pure (calls, .inr m)

/-- How a code in a response is read (rbus.c:4030-4046, 3508-3546): 0 and 100 are success, larger ones are converted. -/
def readCode (code : BitVec 32) : BitVec 32 :=
  if code = 0 ∨ code = 100 then 0 else Method.returned code

/-- The set request (rbus.c:3990-4012, 4239-4285): session, requester, whether to roll back, number, properties, commit. -/
def setRequest (fc : FloatConv) (session : BitVec 32) (requester : Bytes) (rollBack : Bool) (props : List (Bytes × WVal))
    (commit : Bool) : Res Bytes := do
  let d ← appendProps fc (toList props)
  pure (setInt32 session ++ (setString requester ++ (setInt32 (if rollBack then 1 else 0) ++
    (setInt32 (BitVec.ofNat 32 props.length) ++ (d ++ setString (if commit then str "TRUE" else str "FALSE"))))))

/-- `_setInternal` (rbus.c:3969-4056): the calls and the code. `opts` are session and commit, or NULL. -/
def set (fc : FloatConv) (app : App) (calls : List Call) (fate : Fate) (parent state requester : Bytes) (n : Bytes) (v : WVal)
    (opts : Option (BitVec 32 × Bool)) : Res (List Call × BitVec 32) :=
  if Params.isWildcard n then .ok (calls, 2)
  else if v.ty = .none then .ok (calls, 2)
  else do
    let req ← setRequest fc ((opts.map (·.1)).getD 0) requester false [(n, v)] ((opts.map (·.2)).getD true)
    let (calls, r) ← exchange fc app calls fate parent state methodSet req
    match r with
    | .inl e => pure (calls, coreToRbus e)
    | .inr m => pure (calls, readCode (getCode (-1) m).1)

/-- What one request of `_setMultiInternal` gives: the code, the name read with a failure, the old values read with success. -/
structure SetResult where
  code : BitVec 32
  failed : Option Bytes
  old : List (Bytes × WVal)

/-- One request of `_setMultiInternal` (rbus.c:4239-4305). -/
def setMany (fc : FloatConv) (app : App) (calls : List Call) (fate : Fate) (parent state requester : Bytes) (rollBack : Bool)
    (props : List (Bytes × WVal)) (opts : Option (BitVec 32 × Bool)) : Res (List Call × SetResult) := do
  let req ← setRequest fc ((opts.map (·.1)).getD 0) requester rollBack props ((opts.map (·.2)).getD true)
  let (calls, r) ← exchange fc app calls fate parent state methodSet req
  match r with
  | .inl e => pure (calls, ⟨coreToRbus e, none, []⟩)
  | .inr m => do
    let (code, bs) := getCode (-1) m
    if readCode code = 0 then do
      let (ps, _) ← readPropList fc bs
      pure (calls, ⟨0, none, ofList ps⟩)
    else do
      let (n, _) ← getStringU bs
      pure (calls, ⟨readCode code, some n, []⟩)

/-- `rbus_setCommit` (rbus.c:4063-4126). -/
def commit (fc : FloatConv) (app : App) (calls : List Call) (fate : Fate) (parent state requester : Bytes)
    (opts : Option (BitVec 32 × Bool)) : Res (List Call × BitVec 32) := do
  let req := setInt32 ((opts.map (·.1)).getD 0) ++ (setString requester ++ (setInt32 1 ++
    setString (if (opts.map (·.2)).getD true then str "TRUE" else str "FALSE")))
  let (calls, r) ← exchange fc app calls fate parent state methodCommit req
  match r with
  | .inl e => pure (calls, coreToRbus e)
  | .inr m => pure (calls, readCode (getCode (-1) m).1)

/-- The get request (rbus.c:3490-3495, 3840-3858). -/
def getRequest (requester : Bytes) (names : List Bytes) : Bytes :=
  setString requester ++ (setInt32 (BitVec.ofNat 32 names.length) ++ names.flatMap setString)

/-- `_is_valid_get_query` (rbus.c:953-978), negated. The empty name reads before the text; the byte there is taken to be none
of those looked for. -/
def eventOrMethod (n : Bytes) : Bool := n.getLast? = some 33 || n.getLast? = some 41 || n.contains 40

/-- `rbus_get` (rbus.c:3465-3560): the calls, the code, and the value stored, if one is. -/
def get (fc : FloatConv) (app : App) (calls : List Call) (fate : Fate) (parent state requester : Bytes) (n : Bytes) :
    Res (List Call × BitVec 32 × Option WVal) :=
  if eventOrMethod n then .ok (calls, 2, none)
  else if Params.isWildcard n then .ok (calls, 18, none)
  else do
    let (calls, r) ← exchange fc app calls fate parent state methodGet (getRequest requester [n])
    match r with
    | .inl e => pure (calls, coreToRbus e, none)
    | .inr m => do
      let (code, bs) := getCode (-1) m
      if readCode code = 0 then do
        let (_, bs) := getCode 0 bs
        let (b, bs) ← getStringN bs
        if b = n then do
          let (v, _) ← readValue fc bs
          pure (calls, 0, some v)
        else pure (calls, 8, none)
      else pure (calls, readCode code, none)

/-- One request of `rbus_getExt` with several names (rbus.c:3836-3874) and `_getExt_response_parser` (3562-3618): the calls, the
code and the properties. The name in the request is that of the provider (3840), and not the caller's. -/
def getMany (fc : FloatConv) (app : App) (calls : List Call) (fate : Fate) (parent state _requester provider : Bytes) (names : List Bytes) :
    Res (List Call × BitVec 32 × List (Bytes × WVal)) := do
  let (calls, r) ← exchange fc app calls fate parent state methodGet (getRequest provider names)
  match r with
  | .inl e => pure (calls, coreToRbus e, [])
  | .inr m => do
    let (code, bs) := getCode (-1) m
    if readCode code = 0 then do
      let (ps, _) ← readPropList fc bs
      pure (calls, 0, ofList ps)
    else pure (calls, readCode code, [])

/-! ## Single types -/

/-- Values of the types that have their own functions. -/
inductive Plain where
  | boolean (b : Bool)
  | int (v : BitVec 32)
  | uint (v : BitVec 32)
  | string (s : Bytes)
  deriving DecidableEq

/-- The types with their own functions. -/
inductive Kind where
  | boolean
  | int
  | uint
  | string
  deriving DecidableEq

/-- `rbus_setByType` (rbus.c:4398-4430) with `rbus_setBoolean`, `rbus_setInt`, `rbus_setUInt`, `rbus_setStr` (4432-4453). -/
def setPlain (fc : FloatConv) (app : App) (calls : List Call) (fate : Fate) (parent state requester : Bytes) (n : Bytes)
    (v : Plain) : Res (List Call × BitVec 32) :=
  let w : WVal := match v with
    | .boolean b => .scalar (.boolean b)
    | .int v => .scalar (.int32 v)
    | .uint v => .scalar (.uint32 v)
    | .string s => .scalar (.string (some s))
  set fc app calls fate parent state requester n w none

/-- `rbus_getByType` (rbus.c:3904-3945) with `rbus_getBoolean`, `rbus_getInt`, `rbus_getUint`, `rbus_getStr` (3947-3966): the
calls, the code, and what is stored, if anything is. Copying a NULL string is undefined (3929). -/
def getPlain (fc : FloatConv) (app : App) (calls : List Call) (fate : Fate) (parent state requester : Bytes) (n : Bytes)
    (k : Kind) : Res (List Call × BitVec 32 × Option Plain) := do
  let (calls, code, v) ← get fc app calls fate parent state requester n
  if code = 0 then
    match k, v with
    | .boolean, some (.scalar (.boolean b)) => pure (calls, 0, some (.boolean b))
    | .int, some (.scalar (.int32 v)) => pure (calls, 0, some (.int v))
    | .uint, some (.scalar (.uint32 v)) => pure (calls, 0, some (.uint v))
    | .string, some (.scalar (.string (some s))) => pure (calls, 0, some (.string s))
    | .string, some (.scalar (.string none)) => .ub
    | _, _ => pure (calls, 1, none)
  else pure (calls, code, none)

end Verif.SetGet
