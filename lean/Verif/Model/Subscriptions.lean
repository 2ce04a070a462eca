import Verif.Model.Filter
import Verif.Model.TokenChain

/-!
# Model of a provider's subscription registry

`src/rbus/rbus_subscriptions.c` without the cache file's format, and from `src/rbus/rbus.c`
`subscribeHandlerImpl`, `valueChangeTableRowUpdate`, `registerTableRow`, `unregisterTableRow` and the part of
`_subscribe_callback_handler` that decides.

The list of subscriptions is a Lean list, as justified by `C27_list_is_sequence`. Subscriptions and element
nodes are identified by their addresses; an address that is not in the tree stands for freed memory.
(A node that re-registration of its table has dropped from the tree is not freed in the code; here touching
it counts as undefined too.) Allocation succeeds. Subscription ids do not wrap around. The polling threads
are represented by the records they work on: `polled` for rbus_valuechange.c, `intervals` for
rbus_intervalsubscription.c. Each operation runs by itself, as under the handle's subscription mutex.
Logging and publishing are left out; `told` lists the calls of the provider's subscribe handlers.
-/

namespace Verif.Subs

open Verif Verif.Element Verif.TokenChain Verif.Filter

/-- What identifies a subscription (rbus_subscriptions.c:48-70). -/
structure Key where
  listener : Bytes
  eventName : Bytes
  componentId : Int
  filter : Filter
  interval : Int
  duration : Int
  rawData : Bool
  deriving DecidableEq, Repr

/-- `rbusSubscription_t` (rbus_subscriptions.h:35-51). A subscription loaded from the cache has neither
tokens nor element, and its `instances` is NULL, which behaves as an empty list. -/
structure Sub where
  addr : Nat
  key : Key
  autoPublish : Bool
  chain : Option Chain
  element : Option Nat
  instances : List Nat
  subscriptionId : Nat
  deriving DecidableEq, Repr

/-- The provider's registry and what belongs to it. `attached n` is the list `subscriptions` of node `n`.
`limbo` is a subscription taken from the list but not freed yet (rbus_subscriptions.c:770-776, 817-820).
`cache` is what the cache file was last written with. -/
structure State where
  tree : Tree
  subs : List Sub
  nextAddr : Nat
  nextId : Nat
  attached : Nat → List Nat
  limbo : Option Sub
  polled : List Nat
  intervals : List (Nat × Nat)
  cache : List Key
  told : List (Bool × Bytes)

/-- A new registry (rbus_subscriptions.c:99-108) without a cache file; the static counter starts at 3
(rbus_subscriptions.c:126). -/
def State.init : State :=
  ⟨Tree.init, [], 0, 3, fun _ => [], none, [], [], [], []⟩

/-- Answers of the provider's functions: the subscribe handler's error code and `autoPublish`, for an action
(subscribe or not), a request and the value `autoPublish` has before; and whether the get handler of a node
succeeds. -/
structure Env where
  handler : Bool → Key → Bool → Nat × Bool
  readable : Nat → Bool

/-- `rbusError_t` (include/rbus.h:103-136). -/
def eOk : Nat := 0
def eInvalidInput : Nat := 2
def eInvalidOperation : Nat := 9
def eInvalidEvent : Nat := 10
def eNoElement : Nat := 17
def eExists : Nat := 24

/-! ### Walks over the element tree -/

mutual

/-- The nodes visited by `rbusSubscriptions_onSubscriptionCreated` (rbus_subscriptions.c:234-262),
`rbusSubscriptions_onElementDeleted` (309-380) and `valueChangeTableRowUpdate` (rbus.c:1035-1068) at a node:
itself unless it is an object, then those below it unless it is a row template. Each with the data of its
node and those above. -/
def visit (up : List Info) : Node → List (Nat × List Info)
  | ⟨a, i, cs⟩ =>
    (if i.type ≠ tObject then [(a, i :: up)] else []) ++
    (if parentIsTable (i :: up) ∧ i.name = template then [] else visitList (i :: up) cs)

/-- The same for the children of a node. -/
def visitList (up : List Info) : List Node → List (Nat × List Info)
  | [] => []
  | n :: ns => visit up n ++ visitList up ns

end

mutual

/-- The nodes visited by `rbusSubscriptions_onElementCreated` (rbus_subscriptions.c:267-306) at a node: those
that are not objects, without going below them. -/
def fresh (up : List Info) : Node → List (Nat × List Info)
  | ⟨a, i, cs⟩ => if i.type = tObject then freshList (i :: up) cs else [(a, i :: up)]

/-- The same for the children of a node. -/
def freshList (up : List Info) : List Node → List (Nat × List Info)
  | [] => []
  | n :: ns => fresh up n ++ freshList up ns

end

mutual

/-- The node at an address, with its data and that of the nodes above it. -/
def findUp (id : Nat) (up : List Info) : Node → Option (List Info × Node)
  | ⟨a, i, cs⟩ => if a = id then some (i :: up, ⟨a, i, cs⟩) else findUpList id (i :: up) cs

/-- The same among the children of a node. -/
def findUpList (id : Nat) (up : List Info) : List Node → Option (List Info × Node)
  | [] => none
  | n :: ns =>
    match findUp id up n with
    | some r => some r
    | none => findUpList id up ns

end

/-- A node of the tree other than the root, by address. -/
def locate (T : Tree) (id : Nat) : Option (List Info × Node) := findUpList id [] T.root.children

/-! ### The registry -/

/-- `subscriptionKeyCompare(..) == 0` (rbus_subscriptions.c:48-70). -/
def sameKey (sc : Bool) (a b : Key) : Res Bool :=
  if a.listener = b.listener ∧ a.componentId = b.componentId ∧ a.eventName = b.eventName then do
    let c ← cmp sc a.filter b.filter
    pure (c = .eq && a.interval = b.interval && a.duration = b.duration && a.rawData = b.rawData)
  else .ok false

/-- `rbusSubscriptions_getSubscription` (rbus_subscriptions.c:171-201): the first one with the key. `self` is
the subscription the key was taken from, if any: it compares equal to itself because filter values are
compared by address first (rbus_value.c:907-908). -/
def getSub (sc : Bool) (k : Key) (self : Option Nat) : List Sub → Res (Option Sub)
  | [] => .ok none
  | s :: ss =>
    if self = some s.addr then .ok (some s)
    else do
      let b ← sameKey sc s.key k
      if b then pure (some s) else getSub sc k self ss

/-- `f` with another value at `n`. -/
def update (f : Nat → List Nat) (n : Nat) (v : List Nat) : Nat → List Nat :=
  fun m => if m = n then v else f m

/-- The matching ones among visited nodes. -/
def matching (c : Chain) : List (Nat × List Info) → Res (List Nat)
  | [] => .ok []
  | (a, el) :: rest => do
    let b ← «match» c el
    let r ← matching c rest
    pure (if b then a :: r else r)

/-- `addElementSubscription` (rbus_element.c:799-830) of one subscription at several nodes. -/
def attach (a : Nat) (f : Nat → List Nat) (ids : List Nat) : Nat → List Nat :=
  ids.foldl (fun f n => update f n (f n ++ [a])) f

/-- `removeElementSubscription` (rbus_element.c:832-859) of one subscription at several nodes. -/
def detach (a : Nat) (f : Nat → List Nat) (ids : List Nat) : Nat → List Nat :=
  ids.foldl (fun f n => update f n ((f n).erase a)) f

/-- `rbusSubscriptions_saveCache` (rbus_subscriptions.c:633-698), which writes the whole list. -/
def save (s : State) : State := { s with cache := s.subs.map (·.key) }

/-- `rbusSubscriptions_addSubscription` (rbus_subscriptions.c:121-168). `none`: NULL. -/
def addSub (s : State) (k : Key) (auto : Bool) (el : Nat) : Res (State × Option Sub) :=
  match locate s.tree el with
  | none => .ub
  | some (up, _) =>
    match TokenChain.create k.eventName up with
    | .ub => .ub
    | .fail => .ok (s, none)
    | .ok c => do
      let ids ← matching c (visitList [] s.tree.root.children)
      let sub : Sub := ⟨s.nextAddr, k, auto, some c, some el, ids, s.nextId⟩
      pure (save { s with
        subs := s.subs ++ [sub]
        nextAddr := s.nextAddr + 1
        nextId := s.nextId + 1
        attached := attach s.nextAddr s.attached ids }, some sub)

/-- `subscriptionFree` (rbus_subscriptions.c:73-97): unhook it from its elements; `TokenChain_destroy` frees
through the first token. -/
def freeSub (s : State) (x : Sub) : Res State :=
  if x.instances.all (fun n => (locate s.tree n).isSome) ∧ x.chain.all (·.owned) then
    .ok { s with attached := detach x.addr s.attached x.instances }
  else .ub

/-- `rbusSubscriptions_removeSubscription` (rbus_subscriptions.c:204-227). -/
def removeSub (s : State) (a : Nat) : Res State :=
  match s.subs.find? (fun x => x.addr = a) with
  | none => .ok (save s)
  | some x => do
    let s ← freeSub { s with subs := s.subs.eraseP (fun x => x.addr = a) } x
    pure (save s)

/-- A subscription by address, in the list or in limbo. -/
def byAddr (s : State) (a : Nat) : Option Sub :=
  (s.subs ++ s.limbo.toList).find? (fun x => x.addr = a)

/-- `elementHasAutoPubSubscriptions` (rbus_element.c:861-892) on the list of a node. -/
def hasAuto (s : State) (excluding : Option Nat) : List Nat → Res Bool
  | [] => .ok false
  | a :: as =>
    match byAddr s a with
    | none => .ub
    | some x =>
      if x.autoPublish ∧ excluding ≠ some a ∧ x.key.interval = 0 then .ok true
      else hasAuto s excluding as

/-- `rbusValueChange_AddPropertyNode` (rbus_valuechange.c:247-328): nothing if there is a record, or if the
value cannot be read now. -/
def pollAdd (env : Env) (s : State) (n : Nat) : State :=
  if n ∈ s.polled then s
  else if env.readable n then { s with polled := s.polled ++ [n] } else s

/-- `rbusValueChange_RemovePropertyNode` (rbus_valuechange.c:330-370). -/
def pollRemove (s : State) (n : Nat) : State := { s with polled := s.polled.erase n }

/-- The walk over the instances for a subscription without interval (rbus.c:1213-1229). -/
def pollUpdate (env : Env) (added : Bool) (x : Sub) : List Nat → State → Res State
  | [], s => .ok s
  | n :: ns, s =>
    if (locate s.tree n).isSome then do
      let b ← hasAuto s (some x.addr) (s.attached n)
      pollUpdate env added x ns (if b then s else if added then pollAdd env s n else pollRemove s n)
    else .ub

/-- rbus.c:1190-1229: the polling records of a property's subscription. With an interval only the first
instance counts; `rbusInterval_AddSubscriptionRecord` (rbus_intervalsubscription.c:217-263) needs a get
handler there, and its error is not reported. -/
def polling (env : Env) (s : State) (added : Bool) (x : Sub) : Res State :=
  if x.key.interval ≠ 0 then
    match x.instances with
    | [] => .ok s
    | n :: _ =>
      if added then
        match locate s.tree n with
        | none => .ub
        | some (_, node) =>
          if node.info.type = tProperty ∧ node.info.cb.get.isSome ∧ ¬ s.intervals.any (fun r => r.2 = x.addr)
          then .ok { s with intervals := s.intervals ++ [(n, x.addr)] }
          else .ok s
      else .ok { s with intervals := s.intervals.eraseP (fun r => r.2 = x.addr) }
  else pollUpdate env added x x.instances s

/-- The end of `subscribeHandlerImpl` (rbus.c:1177-1236), with the subscription found or made. -/
def finish (env : Env) (s : State) (added : Bool) (el : Node) (k : Key) (x : Sub) : Res (State × Nat) :=
  if k.rawData ∧ el.info.type ≠ tEvent then .ok (s, eInvalidInput)
  else do
    let s ← (if el.info.type = tProperty ∧ x.autoPublish then polling env s added x else .ok s)
    let s ← (if added then .ok s else removeSub s x.addr)
    pure (s, eOk)

/-- `subscribeHandlerImpl` (rbus.c:1132-1236) from where `autoPublish` is settled. -/
def register (sc : Bool) (env : Env) (s : State) (added : Bool) (el : Node) (k : Key) (auto : Bool) :
    Res (State × Nat) :=
  if added ∧ k.interval ≠ 0 ∧ k.eventName.getLast? = some dot then .ok (s, eInvalidOperation)
  else do
    let found ← getSub sc k none s.subs
    if added then
      match found with
      | some _ => pure (s, eExists)
      | none => do
        let (s, made) ← addSub s k auto el.id
        match made with
        | none => pure (s, eInvalidInput)
        | some x => finish env s added el k x
    else
      match found with
      | none => pure (s, eInvalidInput)
      | some x => finish env s added el k x

/-- `subscribeHandlerImpl` (rbus.c:1070-1237) on an element that is not NULL: ask the provider's handler
first. -/
def subscribeImpl (sc : Bool) (env : Env) (s : State) (added : Bool) (el : Node) (k : Key) :
    Res (State × Nat) :=
  match el.info.cb.sub with
  | some _ =>
    let (err, auto) := env.handler added k (!k.rawData)
    let s := { s with told := s.told ++ [(added, k.eventName)] }
    if k.rawData ∧ auto then .ok (s, eInvalidInput)
    else if err ≠ eOk then .ok (s, err)
    else register sc env s added el k auto
  | none => register sc env s added el k (if k.interval ≠ 0 then true else !k.rawData)

/-- `_subscribe_callback_handler` (rbus.c:2613-2635): find the element, refuse a table name without a dot at
the end, then the above. -/
def request (sc : Bool) (env : Env) (s : State) (added : Bool) (k : Key) : Res (State × Nat) :=
  match retrieveInstance s.tree k.eventName with
  | none => .ok (s, eNoElement)
  | some el =>
    if el.info.type = tTable ∧ k.eventName.getLast? ≠ some dot then .ok (s, eInvalidEvent)
    else subscribeImpl sc env s added el k

/-! ### Disconnection -/

/-- `rtListItem_GetNext` on the list of subscriptions. -/
def nextOf (a : Nat) : List Sub → Option Nat
  | x :: y :: r => if x.addr = a then some y.addr else nextOf a (y :: r)
  | _ => none

/-- The loop of `rbusSubscriptions_handleClientDisconnect` (rbus_subscriptions.c:844-861). The next item is
taken before the current one is treated; if it has been removed meanwhile its data is NULL, and
dereferenced. The request for removal has no interval, duration, filter or rawness. At most `fuel` items. -/
def disconnectFrom (sc : Bool) (env : Env) (listener : Bytes) : Nat → Option Nat → State → Res State
  | _, none, s => .ok s
  | 0, some _, _ => .ub
  | fuel + 1, some a, s =>
    match s.subs.find? (fun x => x.addr = a) with
    | none => .ub
    | some x =>
      let next := nextOf a s.subs
      if x.key.listener = listener ∧ (retrieveInstance s.tree x.key.eventName).isSome then
        match x.element with
        | none => disconnectFrom sc env listener fuel next s
        | some e =>
          match locate s.tree e with
          | none => .ub
          | some (_, el) => do
            let (s, _) ← subscribeImpl sc env s false el
              ⟨x.key.listener, x.key.eventName, x.key.componentId, .null, 0, 0, false⟩
            disconnectFrom sc env listener fuel next s
      else disconnectFrom sc env listener fuel next s

/-- `rbusSubscriptions_handleClientDisconnect` (rbus_subscriptions.c:832-862). -/
def disconnect (sc : Bool) (env : Env) (s : State) (listener : Bytes) : Res State :=
  disconnectFrom sc env listener (s.subs.length + 1) (s.subs.head?.map (·.addr)) s

/-! ### Rows -/

/-- `TokenChain_match` for a subscription in the list (rbus_subscriptions.c:288-289). The tokens refer to the
node of the subscription's element and those above it; if that node is freed, so may be the others. -/
def matchSub (T : Tree) (x : Sub) (el : List Info) : Res Bool :=
  match x.chain, x.element with
  | some c, some e => if (locate T e).isSome then «match» c el else .ub
  | some c, none => «match» c el
  | none, _ => .ok false

/-- One new element and all subscriptions (rbus_subscriptions.c:282-298): the subscriptions with the element
added to those that match, and the addresses of these. -/
def meet (T : Tree) (n : Nat) (el : List Info) : List Sub → Res (List Sub × List Nat)
  | [] => .ok ([], [])
  | x :: xs => do
    let b ← matchSub T x el
    let (xs', as) ← meet T n el xs
    if b then pure ({ x with instances := x.instances ++ [n] } :: xs', x.addr :: as)
    else pure (x :: xs', as)

/-- `rbusSubscriptions_onElementCreated` (rbus_subscriptions.c:267-306). -/
def created : List (Nat × List Info) → State → Res State
  | [], s => .ok s
  | (n, el) :: rest, s => do
    let (subs, as) ← meet s.tree n el s.subs
    created rest { s with subs := subs, attached := update s.attached n (s.attached n ++ as) }

/-- `valueChangeTableRowUpdate` (rbus.c:1035-1068). -/
def rowPolling (env : Env) (added : Bool) : List (Nat × List Info) → State → Res State
  | [], s => .ok s
  | (n, el) :: rest, s =>
    if (el.head?.map (·.type)) = some tProperty then do
      let b ← hasAuto s none (s.attached n)
      rowPolling env added rest (if b then (if added then pollAdd env s n else pollRemove s n) else s)
    else rowPolling env added rest s

/-- The loop over the subscriptions for one element below a deleted row (rbus_subscriptions.c:326-369).
`val` is not reset from one subscription to the next. -/
def dropFrom (sc : Bool) (n : Nat) : Nat → Bool → Option Nat → State → Res State
  | _, _, none, s => .ok s
  | 0, _, some _, _ => .ub
  | fuel + 1, val, some a, s =>
    match s.subs.find? (fun x => x.addr = a) with
    | none => .ub
    | some x =>
      let next := nextOf a s.subs
      let s := if n ∈ x.instances then
          { s with
            subs := s.subs.map (fun y => if y.addr = a then { y with instances := y.instances.erase n } else y)
            attached := update s.attached n ((s.attached n).erase a) }
        else s
      let val := val || decide (n ∈ x.instances)
      if val then do
        let found ← getSub sc x.key (some a) s.subs
        match found with
        | none => dropFrom sc n fuel val next s
        | some y => do
          let s ← removeSub s y.addr
          dropFrom sc n fuel val next s
      else dropFrom sc n fuel val next s

/-- `rbusSubscriptions_onElementDeleted` (rbus_subscriptions.c:309-380) over the visited elements. -/
def dropAll (sc : Bool) : List (Nat × List Info) → State → Res State
  | [], s => .ok s
  | (n, _) :: rest, s => do
    let s ← dropFrom sc n (s.subs.length + 1) false (s.subs.head?.map (·.addr)) s
    dropAll sc rest s

/-- A cached subscription is made again under its old request (rbus_subscriptions.c:769-776, 816-820):
taken from the list, requested, and freed; the result is not looked at. -/
def resubscribe (sc : Bool) (env : Env) (s : State) (x : Sub) (el : Node) : Res State := do
  let s := { s with subs := s.subs.eraseP (fun y => y.addr = x.addr), limbo := some x }
  let (s, _) ← subscribeImpl sc env s true el x.key
  freeSub { s with limbo := none } x

/-- `rbusSubscriptions_resubscribeRowElementCache` (rbus_subscriptions.c:786-830) over the subscriptions there
were at the start; names are compared as prefixes of the text. -/
def resubscribeRow (sc : Bool) (env : Env) (rowName : Bytes) : List Sub → State → Res State
  | [], s => .ok s
  | x :: xs, s =>
    if rowName <+: x.key.eventName then
      match retrieveInstance s.tree x.key.eventName with
      | none => resubscribeRow sc env rowName xs s
      | some el => do
        let s ← resubscribe sc env s x el
        resubscribeRow sc env rowName xs s
    else resubscribeRow sc env rowName xs s

/-- The text of a full name. -/
def fullText : Path → Bytes
  | [] => []
  | [t] => t
  | t :: u :: ts => t ++ dot :: fullText (u :: ts)

/-- `registerTableRow` (rbus.c:1239-1300) without publishing. Nothing happens if the address is not a
table's or the table has no row template. -/
def addRow (sc : Bool) (env : Env) (s : State) (table : Nat) (inst : Nat) (alias : Option Bytes) :
    Res State :=
  match locate s.tree table with
  | none => .ok s
  | some (up, node) =>
    match instantiate s.tree node inst alias with
    | none => .ok s
    | some (T, row) => do
      let s ← created (freshList (row.info :: up) row.children) { s with tree := T }
      let s ← rowPolling env true (visitList (row.info :: up) row.children) s
      resubscribeRow sc env (fullText row.info.full) s.subs s

/-- `unregisterTableRow` (rbus.c:1303-1349) without publishing. -/
def delRow (sc : Bool) (env : Env) (s : State) (row : Nat) : Res State :=
  match locate s.tree row with
  | none => .ok s
  | some (up, node) => do
    let s ← rowPolling env false (visitList up node.children) s
    let s ← dropAll sc (visitList up node.children) s
    pure { s with tree := deleteRow s.tree node }

/-! ### Registration of elements -/

/-- `_compareEventNameToElemName(..) == 0` (rbus_subscriptions.c:702-744). -/
def eventIsElem : Bytes → Bytes → Bool
  | [], [] => true
  | [], _ :: _ => false
  | _ :: _, [] => false
  | c :: cs, d :: ds =>
    if c = d then eventIsElem cs ds
    else if c = 42 ∧ d = 123 then
      match ds with
      | 105 :: 125 :: ds' => eventIsElem cs ds'
      | _ => false
    else false

/-- `rbusSubscriptions_resubscribeElementCache` (rbus_subscriptions.c:746-784) over the subscriptions there
were at the start; those it makes are bound and not looked at again. -/
def resubscribeElement (sc : Bool) (env : Env) (name : Bytes) (el : Node) : List Sub → State → Res State
  | [], s => .ok s
  | x :: xs, s =>
    if x.element = none ∧ x.chain = none ∧ eventIsElem x.key.eventName name then do
      let s ← resubscribe sc env s x el
      resubscribeElement sc env name el xs s
    else resubscribeElement sc env name el xs s

/-- The node at the end of a path of names. -/
def nodeOf : Path → Node → Option Node
  | [], n => some n
  | t :: ts, n =>
    match child n t with
    | some c => nodeOf ts c
    | none => none

/-- One element of `rbus_regDataElements` (rbus.c:3296-3348), accepted by the router. -/
def regElement (sc : Bool) (env : Env) (s : State) (name : Bytes) (type : Nat) (cb : Cb) : Res State :=
  let T := Element.insert s.tree name type cb
  let s := { s with tree := T }
  match nodeOf (tokens (if type = tTable then tableName name else name)) T.root with
  | none => .ok s
  | some el => resubscribeElement sc env name el s.subs s

/-! ### Histories -/

/-- What can happen to a provider. -/
inductive Op where
  | subscribe (k : Key)
  | unsubscribe (k : Key)
  | disconnect (listener : Bytes)
  | addRow (table inst : Nat) (alias : Option Bytes)
  | delRow (row : Nat)
  | register (name : Bytes) (type : Nat) (cb : Cb)

/-- One event; the answer is the error code of the request, if it is one. -/
def step (sc : Bool) (s : State) (e : Op × Env) : Res (State × Option Nat) :=
  match e.1 with
  | .subscribe k => do
    let (s, r) ← request sc e.2 s true k
    pure (s, some r)
  | .unsubscribe k => do
    let (s, r) ← request sc e.2 s false k
    pure (s, some r)
  | .disconnect l => do
    let s ← disconnect sc e.2 s l
    pure (s, none)
  | .addRow t i a => do
    let s ← addRow sc e.2 s t i a
    pure (s, none)
  | .delRow r => do
    let s ← delRow sc e.2 s r
    pure (s, none)
  | .register n t cb => do
    let s ← regElement sc e.2 s n t cb
    pure (s, none)

/-- A history. -/
def run (sc : Bool) (s : State) : List (Op × Env) → Res (State × List (Option Nat))
  | [] => .ok (s, [])
  | e :: es => do
    let (s, o) ← step sc s e
    let (s, os) ← run sc s es
    pure (s, o :: os)

end Verif.Subs
