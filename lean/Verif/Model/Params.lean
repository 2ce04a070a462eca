import Verif.Model.Base

/-!
# Model of setting and getting parameters over the bus (src/rbus/rbus.c, src/core/rbuscore.c)

The consumer's `rbus_set`, `rbus_setMulti`, `rbus_setMultiExt` and `rbus_getExt` with a list of names, and
the provider's side of these calls.

The application's get and set handlers are modelled by a store and a list of result codes, one for each
coming handler call (0 once the list is used up): a handler that answers 0 reads or writes the store, and
a handler that answers anything else has changed nothing. Values are byte strings standing for a typed
content; `none` is a missing value (NULL or of type RBUS_NONE). Names, codes and values travel in messages
unchanged; C07 and C08 are about the encoding. Locks, logging, reference counts, session ids and
allocation failures are left out.
-/

namespace Verif.Params

open Verif

abbrev Name := Bytes

/-- Contents of a value; `none` is NULL or RBUS_NONE. -/
abbrev Value := Option Bytes

/-- Component names. -/
abbrev Comp := Bytes

abbrev Prop' := Name × Value

/-- `rbusError_t` (include/rbus.h:104-136) as far as used here. -/
def eSuccess : Nat := 0
def eBusError : Nat := 1
def eInvalidInput : Nat := 2
def eOutOfResources : Nat := 4
def eDestinationNotFound : Nat := 5
def eInvalidResponse : Nat := 8
def eInvalidOperation : Nat := 9
def eElementMissing : Nat := 17
def eAccess : Nat := 18
def eTimeout : Nat := 20
def eNamespace : Nat := 25
def eNotWritable : Nat := 27
def eParameterType : Nat := 29
def eParameterValue : Nat := 30

/-- `RBUS_LEGACY_ERR_SUCCESS` (rbus.c:96). -/
def legacySuccess : Nat := 100

/-- `_is_wildcard_query` (rbus.c:980-1006): the name ends with '.' or contains '*'. For the empty name
`name[length - 1]` lies before the string; that case is taken as "no '.' there". -/
def isWildcard (n : Name) : Bool := n.getLast? = some 46 || n.contains 42

/-- `CCSPError_to_rbusError` (rbus.c:195-241). -/
def ccspToRbus (e : Nat) : Nat :=
  if e = 100 then eSuccess
  else if e = 101 then eOutOfResources
  else if e = 190 then eOutOfResources
  else if e = 191 then eTimeout
  else if e = 192 then eDestinationNotFound
  else if e = 9004 then eOutOfResources
  else if e = 9005 then eNamespace
  else if e = 9006 then eParameterType
  else if e = 9007 then eParameterValue
  else if e = 9008 then eNotWritable
  else eBusError

/-! ## The provider -/

/-- Which handlers an element has (`cbTable`). -/
structure Elem where
  get : Bool
  set : Bool
  deriving DecidableEq, Repr

/-- A handler call and its result code. -/
inductive Call where
  | get (n : Name) (code : Nat)
  | set (n : Name) (v : Value) (commit : Bool) (code : Nat)
  deriving DecidableEq, Repr

/-- A provider: what `retrieveInstanceElementEx` finds for a name (the tree does not change during the
call), what it finds for a wildcard query, the application's store, the result codes of the coming handler
calls and the handler calls made so far. -/
structure Provider where
  elem : Name → Option Elem
  wild : Name → Nat × List Prop'
  store : Name → Value
  codes : List Nat
  calls : List Call

/-- The result code of the next handler call. -/
def Provider.code (p : Provider) : Nat := p.codes.headD 0

/-- Writing one entry of the application's store. -/
def write (s : Name → Value) (n : Name) (v : Value) : Name → Value := fun m => if m = n then v else s m

/-- `el->cbTable.getHandler(handle, property, &options)` on a property without a value: the value found and
the code. -/
def callGet (p : Provider) (n : Name) : Provider × Value × Nat :=
  ({ p with codes := p.codes.tail, calls := p.calls ++ [.get n p.code] },
    if p.code = 0 then p.store n else none, p.code)

/-- `el->cbTable.setHandler(handle, property, &opts)`. -/
def callSet (p : Provider) (n : Name) (v : Value) (commit : Bool) : Provider × Nat :=
  ({ p with
      store := if p.code = 0 then write p.store n v else p.store,
      codes := p.codes.tail, calls := p.calls ++ [.set n v commit p.code] }, p.code)

/-- One property of a set request, as `rbusProperty_initFromMessage` (rbus.c:609-631) gives it: `bad` if it
reported an error, in which case the value is left empty. -/
structure Item where
  name : Name
  value : Value
  bad : Bool := false
  deriving DecidableEq, Repr

/-- A METHOD_SETPARAMETERVALUES request. -/
structure SetRequest where
  comp : Comp
  rollBack : Bool
  items : List Item
  commit : Bool

/-- The answer to a set request: the code, the name sent with a failure, the old values sent with success. -/
structure SetReply where
  code : Nat
  failed : Option Name
  old : List Prop'
  deriving DecidableEq, Repr

/-- Rolling back (rbus.c:1590-1605): the kept values are written in the order of the list; results are
ignored. -/
def restore (p : Provider) (commit : Bool) : List Prop' → Provider
  | [] => p
  | (n, v) :: rest => restore (callSet p n v commit).1 commit rest

/-- The old value kept before a set (rbus.c:1557-1571): only if a rollback may be asked for and there is a get
handler; its result code is lost, because `rc` is overwritten by the set handler's. -/
def backup (p : Provider) (rollBack : Bool) (e : Elem) (n : Name) : Provider × List Prop' :=
  if rollBack ∧ e.get then ((callGet p n).1, [(n, (callGet p n).2.1)]) else (p, [])

/-- The loop over the properties (rbus.c:1549-1632); `kept` is the list `cachedData`. `opts.commit` is set
for the last property of the request (rbus.c:1572-1573) and stays set during the rollback. -/
def setLoop (rollBack commit : Bool) : List Item → List Prop' → Provider → Provider × SetReply
  | [], kept, p => (p, ⟨eSuccess, none, kept⟩)
  | it :: rest, kept, p =>
    match p.elem it.name with
    | none => (p, ⟨eElementMissing, some it.name, []⟩)
    | some e =>
      if e.set then
        let b := backup p rollBack e it.name
        let last := commit && rest.isEmpty
        let r := callSet b.1 it.name it.value last
        if r.2 ≠ 0 then
          (if rollBack then restore r.1 last kept else r.1, ⟨r.2, some it.name, []⟩)
        else setLoop rollBack commit rest (kept ++ b.2) r.1
      else (p, ⟨eNotWritable, some it.name, []⟩)

/-- `_set_callback_handler` (rbus.c:1496-1672). Only the error of the last property's value stops the
request (rbus.c:1532-1537). The commit string is present. -/
def handleSet (p : Provider) (r : SetRequest) : Provider × SetReply :=
  match r.items.getLast? with
  | none => (p, ⟨eInvalidInput, some r.comp, []⟩)
  | some lastItem =>
    if lastItem.bad then (p, ⟨eInvalidInput, none, []⟩)
    else setLoop r.rollBack r.commit r.items [] p

/-- The answer to a get request: the code and, with success, the values. -/
structure GetReply where
  code : Nat
  props : List Prop'
  deriving DecidableEq, Repr

/-- The loop of `_get_callback_handler` (rbus.c:2023-2079) with `_get_single_dml_handler` (rbus.c:1949-1994).
A wildcard name ends the request with an answer made of that name's values alone (rbus.c:2034-2066). -/
def getLoop : List Name → List Prop' → Provider → Provider × GetReply
  | [], got, p => (p, ⟨eSuccess, got⟩)
  | n :: rest, got, p =>
    if isWildcard n then
      (p, ⟨(p.wild n).1, if (p.wild n).1 = eSuccess then (p.wild n).2 else []⟩)
    else
      match p.elem n with
      | none => (p, ⟨eElementMissing, []⟩)
      | some e =>
        if e.get then
          let r := callGet p n
          if r.2.2 ≠ 0 then (r.1, ⟨r.2.2, []⟩) else getLoop rest (got ++ [(n, r.2.1)]) r.1
        else (p, ⟨eInvalidOperation, []⟩)

/-- `_get_callback_handler` (rbus.c:1999-2117). -/
def handleGet (p : Provider) (names : List Name) : Provider × GetReply :=
  if names = [] then (p, ⟨eInvalidInput, []⟩) else getLoop names [] p

/-! ## The bus -/

/-- Why a call brings no answer (`rbus_invokeRemoteMethod2`, rbuscore.c:1111-1186). -/
inductive CoreErr where
  | notFound
  | timedOut
  | malformed
  | general
  deriving DecidableEq, Repr

/-- `rbusCoreError_to_rbusError` (rbus.c:135-193) for these. -/
def coreToRbus : CoreErr → Nat
  | .notFound => eDestinationNotFound
  | .timedOut => eTimeout
  | .malformed => eInvalidResponse
  | .general => eBusError

/-- What happens to one call: the provider gets it and its answer arrives; the call is lost; the provider
gets it but the answer is lost. -/
inductive Fate where
  | answered
  | lost (e : CoreErr)
  | unanswered (e : CoreErr)
  deriving DecidableEq, Repr

/-- All providers, the routes the router has for each name, the fates of the coming calls (answered once the
list is used up) and the codes in the answers received so far. -/
structure World where
  at' : Comp → Provider
  routes : Name → List Comp
  fates : List Fate
  answers : List Nat

/-- The fate of the next call. -/
def World.fate (w : World) : Fate := w.fates.headD .answered

/-- The world with one provider replaced. -/
def World.put (w : World) (c : Comp) (p : Provider) : World :=
  { w with at' := fun d => if d = c then p else w.at' d }

/-- A call of provider `c`, with what the provider does and the code in its answer. -/
def invoke {α : Type} (w : World) (c : Comp) (act : Provider → Provider × α) (code : α → Nat) :
    World × (CoreErr ⊕ α) :=
  let w' := { w with fates := w.fates.tail }
  let r := act (w.at' c)
  match w.fate with
  | .answered => ({ w'.put c r.1 with answers := w.answers ++ [code r.2] }, .inr r.2)
  | .lost e => (w', .inl e)
  | .unanswered e => (w'.put c r.1, .inl e)

/-- The array of component names made by `rbus_discoverElementsObjects` (rbuscore.c:2125-2238) from the
router's answer (`rtRouted_OnMessageDiscoverElementObjects`, rtrouted.c:1062-1150): the answer holds the
routes of all names one after the other, and one count per name, of which only the first is ever found
(`cJSON_GetObjectItem` by name); every round reads that many items on from where the last one ended and gives
up if there are too few. Component names are not empty. -/
def discoverLoop (count : Nat) (items : List Comp) : Nat → List Comp → Option (List Comp)
  | 0, got => some got
  | k + 1, got =>
    let next := (items.drop got.length).take count
    if next.length < count then none else discoverLoop count items k (got ++ next)

/-- `rbus_discoverComponentName` (rbus.c:3411-3440) with the check of its callers that there are as many
components as names (rbus.c:3763, 4196). `none` is their DESTINATION_NOT_FOUND. -/
def discover (w : World) (names : List Name) : World × Option (List Comp) :=
  let w' := { w with fates := w.fates.tail }
  match w.fate with
  | .answered =>
    match discoverLoop ((names.head?.map fun n => (w.routes n).length).getD 0) (names.flatMap w.routes)
        names.length [] with
    | none => (w', none)
    | some cs => (w', if cs.length = names.length then some cs else none)
  | _ => (w', none)

/-! ## The consumer -/

/-- Whether an answer says success (rbus.c:4296, 3581): 0 or 100. -/
def isSuccess (ret : Nat) : Bool := ret = eSuccess || ret = legacySuccess

/-- How the code in an answer is read (rbus.c:4026-4046, 4291-4348, 3575-3612): 0 and 100 are success, larger
codes are translated. -/
def readCode (ret : Nat) : Nat :=
  if isSuccess ret then eSuccess
  else if ret > legacySuccess then ccspToRbus ret
  else ret

/-- Result of a set: the code and the name stored through `failedParameterName`. -/
structure SetResult where
  code : Nat
  failed : Option Name
  deriving DecidableEq, Repr

/-- `_setInternal` (rbus.c:3969-4056) on a regular handle. The request goes to the first provider the router
has for the name, and does not ask for a rollback. -/
def setOne (w : World) (comp : Comp) (n : Name) (v : Value) (commit : Bool) : World × SetResult :=
  if isWildcard n then (w, ⟨eInvalidInput, none⟩)
  else if v = none then (w, ⟨eInvalidInput, none⟩)
  else
    match w.routes n with
    | [] => (w, ⟨coreToRbus .notFound, none⟩)
    | c :: _ =>
      match invoke w c (fun p => handleSet p ⟨comp, false, [{ name := n, value := v }], commit⟩) (·.code) with
      | (w', .inl e) => (w', ⟨coreToRbus e, none⟩)
      | (w', .inr r) => (w', ⟨readCode r.code, none⟩)

/-- The components of a list in the order of their first appearance. -/
def firsts : List Comp → List Comp
  | [] => []
  | c :: cs => c :: (firsts cs).filter (· ≠ c)

/-- The batches (rbus.c:4227-4280, 3786-3836): each round takes the component of the first entry left and all
entries left for it. Which batches there are does not depend on the answers, so they are made beforehand. -/
def batches {α : Type} (l : List (Comp × α)) : List (Comp × List α) :=
  (firsts (l.map (·.1))).map fun c => (c, (l.filter (·.1 = c)).map (·.2))

/-- The requests of `_setMultiInternal` (rbus.c:4227-4362). `kept` is `cachedProperties`: the old values of the
last provider that succeeded, for it is overwritten by every successful answer (rbus.c:4301). `tell` is whether
`pFailedElement` still points somewhere; it is cleared by the first successful answer (rbus.c:4302). An error
of the bus is noted in `errorcode` and the loop goes on; a failure reported by a provider ends it. -/
def setBatches (comp : Comp) (rollBack commit : Bool) (revert : World → List Prop' → World) :
    List (Comp × List Prop') → (err : Nat) → (kept : List Prop') → (tell : Bool) → World → World × SetResult
  | [], err, _, _, w => (w, ⟨err, none⟩)
  | (c, mine) :: rest, _, kept, tell, w =>
    match invoke w c
        (fun p => handleSet p ⟨comp, rollBack, mine.map fun y => { name := y.1, value := y.2 }, commit⟩)
        (·.code) with
    | (w', .inl e) => setBatches comp rollBack commit revert rest (coreToRbus e) kept tell w'
    | (w', .inr r) =>
      if isSuccess r.code then setBatches comp rollBack commit revert rest eSuccess r.old false w'
      else
        (if rollBack then revert w' kept else w',
          ⟨readCode r.code, if tell then r.failed else none⟩)

/-- `_setMultiInternal` (rbus.c:4128-4386) on a regular handle; `tell` is whether the caller wants the failed
name. The loop checking for wildcards and missing values stops at the first one found; both answers are the
same. -/
def setProps (comp : Comp) (rollBack commit tell : Bool) (revert : World → List Prop' → World) (w : World)
    (numProps : Nat) (props : List Prop') : World × SetResult :=
  match props with
  | [] => (w, ⟨eInvalidInput, none⟩)
  | x :: xs =>
    if numProps = 0 then (w, ⟨eInvalidInput, none⟩)
    else if xs = [] then setOne w comp x.1 x.2 commit
    else
      let used := (x :: xs).take numProps
      if used.any (fun y => isWildcard y.1 || y.2.isNone) then (w, ⟨eInvalidInput, none⟩)
      else if used.length ≠ numProps then (w, ⟨eInvalidInput, none⟩)
      else
        match discover w (used.map (·.1)) with
        | (w', none) => (w', ⟨eDestinationNotFound, none⟩)
        | (w', some cs) => setBatches comp rollBack commit revert (batches (cs.zip used)) eSuccess [] tell w'

/-- The inner `_setMultiInternal` call that puts old values back (rbus.c:4318-4342): no rollback of its own,
committing; its result is only logged. -/
def revertProps (comp : Comp) (w : World) (kept : List Prop') : World :=
  (setProps comp false true true (fun w _ => w) w kept.length kept).1

/-- `rbus_setMulti` (rbus.c:4388-4391) with `tell = false`, `rbus_setMultiExt` (rbus.c:4393-4396) with
`tell = true`. -/
def setMulti (w : World) (comp : Comp) (numProps : Nat) (props : List Prop') (commit tell : Bool) :
    World × SetResult :=
  setProps comp true commit tell (revertProps comp) w numProps props

/-- Result of a get: the code, `*numValues` and `*retProperties`. -/
structure GetResult where
  code : Nat
  num : Nat
  props : List Prop'
  deriving DecidableEq, Repr

/-- The requests of `rbus_getExt` (rbus.c:3786-3874), with `_getExt_response_parser` (rbus.c:3562-3618). An error
of the bus ends the loop; an error reported by a provider is noted and the loop goes on. -/
def getBatches : List (Comp × List Name) → (acc : GetResult) → World → World × GetResult
  | [], acc, w => (w, acc)
  | (c, mine) :: rest, acc, w =>
    match invoke w c (fun p => handleGet p mine) (·.code) with
    | (w', .inl e) => (w', { acc with code := coreToRbus e })
    | (w', .inr r) =>
      if isSuccess r.code then
        getBatches rest ⟨eSuccess, acc.num + r.props.length, acc.props ++ r.props⟩ w'
      else getBatches rest { acc with code := readCode r.code } w'

/-- `rbus_getExt` (rbus.c:3620-3902) with more than one name, on a regular handle. The one-name cases go
through `rbus_get` and `rbus_discoverWildcardDestinations` and are left out. -/
def getMany (w : World) (names : List Name) : World × GetResult :=
  match discover w names with
  | (w', none) => (w', ⟨eDestinationNotFound, 0, []⟩)
  | (w', some cs) => getBatches (batches (cs.zip names)) ⟨eSuccess, 0, []⟩ w'

end Verif.Params
