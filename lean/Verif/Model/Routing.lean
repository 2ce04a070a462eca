import Verif.Model.Base

/-!
# Model of the routing tree of the router (src/rtmessage/rtRoutingTree.c)

Linked lists are Lean lists, as justified by `C27_list_is_sequence`; a list that was never created and
an empty one are told apart only where the code does (`routes`). Topics are identified by their path
from the root, which is unique among the topics in the tree (`Routing.WF` below, proved). Routes
(`rtTreeRoute`) are identified by a number standing for their address; a number that is no longer in
the list of routes stands for freed memory. Allocation succeeds and gives fresh addresses. Logging,
statistics and the unused option `ENABLE_ROUTE2_QUICK_GET_OPTIMIZATION` are left out.
-/

namespace Verif.Routing

open Verif

/-- One component of a topic's name. -/
abbrev Token := Bytes

/-- The components of a name. -/
abbrev Path := List Token

/-- `rtTreeTopic` (rtRoutingTree.h); `routes` is `routeList` with `none` for NULL, `routes2` is
`routeList2`, and a topic's `fullName` is its path. The root's name is not used. -/
structure Topic where
  name : Token
  isTable : Bool
  routes : Option (List Nat)
  routes2 : List Nat
  children : List Topic

/-- `rtTreeRoute` (rtRoutingTree.h): its address, the caller's pointer `route`, and `topicList`. -/
structure TRoute where
  id : Nat
  data : Nat
  topics : List Path
  deriving DecidableEq, Repr

/-- `struct _rtRoutingTree`, and the next fresh address. -/
structure State where
  root : Topic
  routes : List TRoute
  nextId : Nat

/-- `rtRoutingTree_Create` (rtRoutingTree.c:461-467). -/
def init : State := { root := ⟨[], false, none, [], []⟩, routes := [], nextId := 0 }

/-- '.' -/
def dot : UInt8 := 46

/-- The inner and outer loop of `tokenizeExpression` (rtRoutingTree.c:149-160): the characters up to
the next '.', and the tokens after it. -/
def split : Bytes → Token × List Token
  | [] => ([], [])
  | c :: cs =>
    if c = dot then
      ([], if cs = [] then [] else (split cs).1 :: (split cs).2)
    else (c :: (split cs).1, (split cs).2)

/-- The tokens `tokenizeExpression` (rtRoutingTree.c:143-162) makes of a C string. -/
def tokens (s : Bytes) : Path := if s = [] then [] else (split s).1 :: (split s).2

/-- `MAX_TOKENS` (rtRoutingTree.c:47). -/
def maxTokens : Nat := 32

/-- `MAX_TOKEN_BUFFER_SIZE` (rtRoutingTree.c:48). -/
def maxBuffer : Nat := 512

/-- `tokenizeExpression` (rtRoutingTree.c:143-162) with the two static arrays it fills without looking
at their sizes: each token takes its length and a NUL. -/
def tokenize (s : Bytes) : Res Path :=
  if (tokens s).length ≤ maxTokens ∧ ((tokens s).map (fun t => t.length + 1)).sum ≤ maxBuffer then
    .ok (tokens s)
  else .ub

/-- Whether `..` occurs. -/
def hasDotDot : Bytes → Bool
  | a :: b :: cs => (a = dot ∧ b = dot) || hasDotDot (b :: cs)
  | _ => false

/-- `validateExpression` (rtRoutingTree.c:114-141): `true` for 0. -/
def validate (s : Bytes) : Bool :=
  !(hasDotDot s) && s.length ≤ maxBuffer && s.count dot ≤ maxTokens

/-- `name[0] == '{'`. -/
def brace (t : Token) : Bool := t.head? = some 123

/-- `isdigit(name[0]) || name[0] == '[' || name[0] == '*'` (rtRoutingTree.c:228). -/
def instLike (t : Token) : Bool :=
  match t with
  | c :: _ => (48 ≤ c.toNat ∧ c.toNat ≤ 57) || c = 91 || c = 42
  | [] => false

/-- How `getChildByName` came to return a child: an exact match (line 207), a row of a table (line
228), or neither, which is an error if the caller asks for errors (line 235). -/
inductive Kind where
  | exact
  | inst
  | conflict
  deriving DecidableEq, Repr

/-- What `getChildByName` finds: a child with those before and after it, or nothing. -/
inductive Found where
  | hit (kind : Kind) (pre : List Topic) (child : Topic) (post : List Topic)
  | missing

/-- The search loop of `getChildByName` (rtRoutingTree.c:202-244). -/
def find (name : Token) : List Topic → List Topic → Found
  | _, [] => .missing
  | pre, c :: cs =>
    if c.name = name then .hit .exact pre c cs
    else if brace c.name = true ∧ instLike name = true then .hit .inst pre c cs
    else if brace c.name = true ∨ brace name = true then .hit .conflict pre c cs
    else find name (pre ++ [c]) cs

/-- `addPointerToListOnce` (rtRoutingTree.c:277-295). -/
def addOnce {α} [DecidableEq α] (l : List α) (x : α) : List α := if x ∈ l then l else l ++ [x]

/-- The result of adding: RT_OK with the path of the topic, `RT_ERROR_PROTOCOL_ERROR` or
`RT_ERROR_DUPLICATE_ENTRY`. -/
inductive Added where
  | ok (path : Path)
  | protocolError
  | duplicate
  deriving DecidableEq, Repr

/-- `createTreeTopic` (rtRoutingTree.c:59-88), the new topic itself. -/
def newTopic (name : Token) : Topic := ⟨name, false, none, [], []⟩

/-- Lines 507-534 of `rtRoutingTree_AddTopicRoute`, from the topic `t` (with path `path`, `root` when
it is the root, `created` when it was just created) down the remaining tokens: topics missing are
created, with the table flag set on the parent (line 83); the route is added to the last one, and on
the way back (`optimizeTopicsBackpropagate`, lines 297-304, 532) to `routeList2` of those above except
the root. -/
def add (id : Nat) (errOnDup : Bool) : List Token → Bool → Bool → Path → Topic → Topic × Added
  | [], created, _, path, t =>
    if errOnDup = true ∧ created = false ∧ t.routes.isSome = true then (t, .duplicate)
    else ({ t with routes := some (t.routes.getD [] ++ [id]) }, .ok path)
  | tok :: ts, _, root, path, t =>
    match find tok [] t.children with
    | .hit .conflict _ _ _ => (t, .protocolError)
    | .hit _ pre c post =>
      let r := add id errOnDup ts false false (path ++ [c.name]) c
      let t' := { t with children := pre ++ r.1 :: post }
      match r.2 with
      | .ok p => ({ t' with routes2 := if root then t.routes2 else addOnce t.routes2 id }, .ok p)
      | e => (t', e)
    | .missing =>
      let r := add id errOnDup ts true false (path ++ [tok]) (newTopic tok)
      let t' := { t with children := t.children ++ [r.1], isTable := t.isTable || brace tok }
      match r.2 with
      | .ok p => ({ t' with routes2 := if root then t.routes2 else addOnce t.routes2 id }, .ok p)
      | e => (t', e)

/-- `"_RTROUTED.ADVISORY"` (rtRoutingTree.c:518). -/
def advisory : Bytes := [95, 82, 84, 82, 79, 85, 84, 69, 68, 46, 65, 68, 86, 73, 83, 79, 82, 89]

/-- What `rtRoutingTree_AddTopicRoute` returns. -/
inductive Rc where
  | ok
  | invalidExpression
  | protocolError
  | duplicate
  deriving DecidableEq, Repr

/-- `getTreeRoute` and the creation of a route (rtRoutingTree.c:495-502). -/
def getOrCreate (s : State) (data : Nat) : State × Nat :=
  match s.routes.find? (fun r => r.data = data) with
  | some r => (s, r.id)
  | none =>
    ({ s with routes := s.routes ++ [⟨s.nextId, data, []⟩], nextId := s.nextId + 1 }, s.nextId)

/-- Lines 529: the topic is remembered with the route. -/
def recordTopic (id : Nat) (p : Path) (rs : List TRoute) : List TRoute :=
  rs.map (fun r => if r.id = id then { r with topics := addOnce r.topics p } else r)

/-- `rtRoutingTree_AddTopicRoute` (rtRoutingTree.c:477-535). -/
def addTopicRoute (s : State) (expr : Bytes) (data : Nat) (errOnDup : Bool) : Res (State × Rc) := do
  if validate expr = false then pure (s, .invalidExpression)
  else
    let ts ← tokenize expr
    if ts = [] then pure (s, .ok)
    else
      let g := getOrCreate s data
      let r := add g.2 (errOnDup && expr ≠ advisory) ts false true [] g.1.root
      match r.2 with
      | .ok p => pure ({ g.1 with root := r.1, routes := recordTopic g.2 p g.1.routes }, .ok)
      | .protocolError => pure ({ g.1 with root := r.1 }, .protocolError)
      | .duplicate => pure ({ g.1 with root := r.1 }, .duplicate)

/-- The loops of `rtRoutingTree_GetTopicRoutes` (rtRoutingTree.c:549-554),
`rtRoutingTree_ResolvePartialPath` (689-695): a child returned for whatever reason is taken. -/
def walk : List Token → Topic → Option Topic
  | [], t => some t
  | tok :: ts, t =>
    match find tok [] t.children with
    | .hit _ _ c _ => walk ts c
    | .missing => none

/-- `"{i}"` (rtRoutingTree.c:615). -/
def curlyI : Token := [123, 105, 125]

/-- Lines 600-626: the list chosen at the topic found; NULL and an empty list come to the same for all
callers. -/
def chosen (text : Bytes) (t : Topic) : List Nat :=
  if text.getLast? = some dot then t.routes2
  else if t.isTable then
    match find curlyI [] t.children with
    | .hit _ _ c _ => c.routes.getD []
    | .missing => []
  else t.routes.getD []

/-- `rtRoutingTree_GetTopicRoutes` (rtRoutingTree.c:537-627): the routes, by address. -/
def getTopicRoutes (s : State) (text : Bytes) : Res (List Nat) := do
  let ts ← tokenize text
  if ts = [] then pure []
  else
    match walk ts s.root with
    | none => pure []
    | some t => pure (chosen text t)

/-- The caller's pointer of a route, `treeRoute->route`: freed memory is read when the route is gone. -/
def deref (s : State) (id : Nat) : Res Nat :=
  match s.routes.find? (fun r => r.id = id) with
  | some r => .ok r.data
  | none => .ub

/-- All of a list. -/
def derefAll (s : State) : List Nat → Res (List Nat)
  | [] => .ok []
  | i :: is => do
    let d ← deref s i
    let ds ← derefAll s is
    pure (d :: ds)

/-- What every caller of `rtRoutingTree_GetTopicRoutes` does with the list (for example
rtrouted.c:1422-1432): go through it and take the pointers. -/
def lookup (s : State) (text : Bytes) : Res (List Nat) := do
  let l ← getTopicRoutes s text
  derefAll s l

mutual
/-- The topics and their routes in the order `removeTopicFromRoutes` visits them
(rtRoutingTree.c:164-192). -/
def entries : Path → Topic → List (Path × Nat)
  | p, ⟨_, _, routes, _, children⟩ => (routes.getD []).map (fun i => (p, i)) ++ entriesL p children

/-- The same for the children of a topic with path `p`. -/
def entriesL : Path → List Topic → List (Path × Nat)
  | _, [] => []
  | p, c :: cs => entries (p ++ [c.name]) c ++ entriesL p cs
end

/-- One round of the loop in `removeTopicFromRoutes` (rtRoutingTree.c:172-183): the topic is taken off
the route's list, and a route without topics is freed. -/
def dropTopic (rs : List TRoute) (e : Path × Nat) : Res (List TRoute) :=
  match rs.find? (fun r => r.id = e.2) with
  | none => .ub
  | some r =>
    if r.topics.erase e.1 = [] then .ok (rs.eraseP (fun r => r.id = e.2))
    else .ok (rs.map (fun r => if r.id = e.2 then { r with topics := r.topics.erase e.1 } else r))

/-- `removeTopicFromRoutes` (rtRoutingTree.c:164-192). -/
def dropTopics : List (Path × Nat) → List TRoute → Res (List TRoute)
  | [], rs => .ok rs
  | e :: es, rs => do
    let rs ← dropTopic rs e
    dropTopics es rs

/-- The loop of `rtRoutingTree_RemoveTopic` (rtRoutingTree.c:670-676) from a topic with path `path`:
the tree without the topic removed, and the topic with its path. Only an exact match is removed
(line 210). -/
def detach (path : Path) : List Token → Topic → Option (Topic × Path × Topic)
  | [], _ => none
  | [tok], t =>
    match find tok [] t.children with
    | .hit .exact pre c post => some ({ t with children := pre ++ post }, path ++ [c.name], c)
    | _ => none
  | tok :: tok' :: ts, t =>
    match find tok [] t.children with
    | .hit _ pre c post =>
      (detach (path ++ [c.name]) (tok' :: ts) c).map
        (fun r => ({ t with children := pre ++ r.1 :: post }, r.2))
    | .missing => none

/-- `rtRoutingTree_RemoveTopic` (rtRoutingTree.c:659-677). -/
def removeTopic (s : State) (expr : Bytes) : Res State := do
  let ts ← tokenize expr
  match detach [] ts s.root with
  | none => pure s
  | some (root, p, c) =>
    let rs ← dropTopics (entries p c) s.routes
    pure { s with root := root, routes := rs }

mutual
/-- The body of the loop in `removeRouteFromTopicTree` for one child (rtRoutingTree.c:329-348). -/
def eraseRoute (id : Nat) : Topic → Topic
  | ⟨name, isTable, routes, routes2, children⟩ =>
    ⟨name, isTable, routes.map (·.erase id), routes2.erase id, eraseRouteL id children⟩

/-- `removeRouteFromTopicTree` (rtRoutingTree.c:313-362) on the children of a topic: a child left with
neither children nor routes is freed. -/
def eraseRouteL (id : Nat) : List Topic → List Topic
  | [] => []
  | c :: cs =>
    let c' := eraseRoute id c
    if c'.children.isEmpty = true ∧ (c'.routes.getD []).isEmpty = true then eraseRouteL id cs
    else c' :: eraseRouteL id cs
end

/-- `rtRoutingTree_RemoveRoute` (rtRoutingTree.c:643-657). -/
def removeRoute (s : State) (data : Nat) : State :=
  match s.routes.find? (fun r => r.data = data) with
  | none => s
  | some r =>
    { s with
      root := { s.root with children := eraseRouteL r.id s.root.children }
      routes := s.routes.eraseP (fun x => x.data = data) }

/-- `rtRoutingTree_GetRouteTopics` (rtRoutingTree.c:629-641). -/
def routeTopics (s : State) (data : Nat) : List Path :=
  match s.routes.find? (fun r => r.data = data) with
  | none => []
  | some r => r.topics

/-- The first topic of a route (rtRoutingTree.c:705-716); a route that was freed is read, and without
a topic the name of a NULL topic is taken. -/
def firstTopic (s : State) (id : Nat) : Res Path :=
  match s.routes.find? (fun r => r.id = id) with
  | none => .ub
  | some r =>
    match r.topics with
    | [] => .ub
    | p :: _ => .ok p

/-- The first topics of all routes of a list. -/
def firstTopics (s : State) : List Nat → Res (List Path)
  | [] => .ok []
  | i :: is => do
    let p ← firstTopic s i
    let ps ← firstTopics s is
    pure (p :: ps)

/-- `rtRoutingTree_ResolvePartialPath` (rtRoutingTree.c:679-721). -/
def resolvePartial (s : State) (text : Bytes) : Res (List Path) := do
  let ts ← tokenize text
  if ts = [] then pure []
  else
    match walk ts s.root with
    | none => pure []
    | some t => firstTopics s t.routes2

/-- A call that changes the tree. -/
inductive Op where
  | add (expr : Bytes) (data : Nat) (errOnDup : Bool)
  | removeRoute (data : Nat)
  | removeTopic (expr : Bytes)
  deriving DecidableEq, Repr

/-- One call; removals return nothing, for which `ok` stands. -/
def step (s : State) : Op → Res (State × Rc)
  | .add e d b => addTopicRoute s e d b
  | .removeRoute d => .ok (removeRoute s d, .ok)
  | .removeTopic e => do
    let s ← removeTopic s e
    pure (s, .ok)

/-- A history of calls with what they return. -/
def run (s : State) : List Op → Res (State × List Rc)
  | [] => .ok (s, [])
  | o :: os => do
    let r ← step s o
    let rest ← run r.1 os
    pure (rest.1, r.2 :: rest.2)

end Verif.Routing
