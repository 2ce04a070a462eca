import Verif.Model.Base

/-!
# Model of a provider's tree of data elements (src/rbus/rbus_element.c)

Nodes carry a number standing for their address; numbers are given out in order and never again.
`freed` lists the addresses that were given back. Child and sibling pointers are lists, in the order of
the sibling links; the parent of a node is the node it is listed under. Allocation succeeds. Names are
shorter than RBUS_MAX_NAME_LENGTH, so that `snprintf` does not cut `fullName`. Locks, logging,
`changeComp`, `changeTime` and the printing functions are left out. `removeElement`
(rbus_element.c:606-720) is not called by anything and is left out, and with it `pruneTree`, which only it
calls: `nextPrune` has no effect.
-/

namespace Verif.Element

open Verif

/-- One component of a name. -/
abbrev Token := Bytes

/-- The components of a name. -/
abbrev Path := List Token

/-- '.' -/
def dot : UInt8 := 46

/-- `{i}`, the name of a row template. -/
def template : Token := [123, 105, 125]

/-- `*` -/
def star : Token := [42]

/-- `rbusElementType_t` (include/rbus.h:354-369); 0 is used for objects. -/
def tObject : Nat := 0
def tProperty : Nat := 1
def tTable : Nat := 2
def tEvent : Nat := 3
def tMethod : Nat := 4

/-- `rbusElementCallbackTable_t` as far as it decides anything: which handlers are present (given by a
number standing for the function). -/
structure Cb where
  get : Option Nat := none
  set : Option Nat := none
  addRow : Option Nat := none
  removeRow : Option Nat := none
  sub : Option Nat := none
  method : Option Nat := none
  sync : Option Nat := none
  deriving DecidableEq, Repr

/-- The data of `struct elementNode` (rbus_element.h:59-74) apart from the links. `full` is `fullName`, by
components. -/
structure Info where
  name : Token
  full : Path
  type : Nat
  alias : Option Bytes
  cb : Cb
  deriving DecidableEq, Repr

/-- `struct elementNode` (rbus_element.h:59-74). -/
structure Node where
  id : Nat
  info : Info
  children : List Node

/-- `getEmptyElementNode` (rbus_element.c:63-75), with the names the callers give it. -/
def empty (id : Nat) (full : Path) (name : Token) : Node :=
  ⟨id, ⟨name, full, tObject, none, {}⟩, []⟩

/-- `strtok_r(name, ".", ..)` until NULL: the non-empty stretches between dots. `acc` is the current
stretch, reversed. -/
def strtok : Bytes → Bytes → List Token
  | acc, [] => if acc = [] then [] else [acc.reverse]
  | acc, c :: cs =>
    if c = dot then (if acc = [] then strtok [] cs else acc.reverse :: strtok [] cs)
    else strtok (c :: acc) cs

/-- The tokens of a name. -/
def tokens (s : Bytes) : Path := strtok [] s

/-- rbus_element.c:264-281: a table registered as `T.{i}.` or `T.{i}` is the table `T`. -/
def tableName (s : Bytes) : Bytes :=
  if s.length > 4 then
    if s.drop (s.length - 5) = dot :: template ++ [dot] then s.take (s.length - 5)
    else if s.drop (s.length - 4) = dot :: template then s.take (s.length - 4)
    else s
  else s

/-- Threading the address counter through a list. -/
def mapIds (f : Node → Nat → Node × Nat) : List Node → Nat → List Node × Nat
  | [], k => ([], k)
  | n :: ns, k =>
    let (n', k1) := f n k
    let (ns', k2) := mapIds f ns k1
    (n' :: ns', k2)

/-- Change the first node with the given name; if there is none, append the given node, changed. -/
def upsert (t : Token) (f : Node → Nat → Node × Nat) (mk : Nat → Node) :
    List Node → Nat → List Node × Nat
  | [], k =>
    let (n', k') := f (mk k) (k + 1)
    ([n'], k')
  | n :: ns, k =>
    if n.info.name = t then
      let (n', k') := f n k
      (n' :: ns, k')
    else
      let (ns', k') := upsert t f mk ns k
      (n :: ns', k')

/-- The walk of `insertElement` (rbus_element.c:283-337): descend, making the nodes that are missing as
last sibling or only child, and change the node reached. -/
def insertAt (f : Node → Nat → Node × Nat) : Path → Node → Nat → Node × Nat
  | [], n, k => f n k
  | t :: ts, n, k =>
    let (cs, k') := upsert t (insertAt f ts) (fun id => empty id (n.info.full ++ [t]) t) n.children k
    ({ n with children := cs }, k')

/-- rbus_element.c:338-366: type and handlers of the element, and for a table a new row template as its
only child. -/
def setElement (type : Nat) (cb : Cb) (n : Node) (k : Nat) : Node × Nat :=
  if type = tTable then
    ({ n with
        info := { n.info with
          type := type
          cb := { cb with method := n.info.cb.method, sync := cb.method } }
        children := [empty k (n.info.full ++ [template]) template] }, k + 1)
  else
    ({ n with info := { n.info with
          type := type
          cb := { cb with sync := n.info.cb.sync } } }, k)

mutual

/-- `duplicateNode` (rbus_element.c:919-955), without the linking into the parent, which the callers
below do by appending. -/
def dup (full : Path) (name : Token) : Node → Nat → Node × Nat
  | ⟨_, i, cs⟩, k =>
    let (cs', k') := dupList full cs (k + 1)
    (⟨k, { i with name := name, full := full, alias := none }, cs'⟩, k')

/-- The loop over the children of the source (rbus_element.c:951-956). -/
def dupList (full : Path) : List Node → Nat → List Node × Nat
  | [], k => ([], k)
  | c :: cs, k =>
    let (c', k1) := dup (full ++ [c.info.name]) c.info.name c k
    let (cs', k2) := dupList full cs k1
    (c' :: cs', k2)

end

/-- First child with a name. -/
def child (n : Node) (t : Token) : Option Node := n.children.find? (fun c => c.info.name = t)

/-- `replicateAcrossTableRowInstancesInternal` (rbus_element.c:1091-1150): `reg` is the registration node
just above the chain, whose nodes are found below it by name. -/
def replicate : Path → Node → Node → Nat → Node × Nat
  | [], _, cur, k => (cur, k)
  | t :: ts, reg, cur, k =>
    match child reg t with
    | none => (cur, k)
    | some r =>
      if cur.info.type = tTable then
        let (cs, k') := mapIds (replicate ts r) cur.children k
        ({ cur with children := cs }, k')
      else if (child cur t).isSome then
        let (cs, k') := upsert t (replicate ts r) (fun id => empty id [] []) cur.children k
        ({ cur with children := cs }, k')
      else
        let (d, k') := dup (cur.info.full ++ [t]) t r k
        ({ cur with children := cur.children ++ [d] }, k')

/-- `replicateAcrossTableRowInstances` (rbus_element.c:1154-1187): at the first table above the new node,
treat every row. -/
def replicateRows : Path → Node → Nat → Node × Nat
  | [], n, k => (n, k)
  | t :: ts, n, k =>
    if n.info.type = tTable then
      match child n t with
      | none => (n, k)
      | some r =>
        let (cs, k') := mapIds (fun c k =>
          if c.info.type = tObject ∧ c.info.name ≠ template then replicate ts r c k else (c, k))
          n.children k
        ({ n with children := cs }, k')
    else
      let (cs, k') := upsert t (replicateRows ts) (fun id => empty id [] []) n.children k
      ({ n with children := cs }, k')

/-- A provider's element tree, the next address and the addresses given back. -/
structure Tree where
  root : Node
  next : Nat
  freed : List Nat

/-- The root made by `rbus_regDataElements` (rbus.c:3306-3312); its `fullName` is NULL, and the first
level's full names have one component. -/
def Tree.init : Tree := ⟨⟨0, ⟨[], [], tObject, none, {}⟩, []⟩, 1, []⟩

/-- `insertElement` (rbus_element.c:224-386). -/
def insert (T : Tree) (name : Bytes) (type : Nat) (cb : Cb) : Tree :=
  let ts := tokens (if type = tTable then tableName name else name)
  let (r, k) := insertAt (setElement type cb) ts T.root T.next
  let (r, k) := replicateRows ts r k
  { T with root := r, next := k }

/-- The walk of `retrieveElement` (rbus_element.c:404-465). Below a table the only node looked for is the
row template. -/
def retrieveFrom : Path → Node → Option Node
  | [], n => some n
  | t :: ts, n =>
    match child n (if n.info.type = tTable then template else t) with
    | some c => retrieveFrom ts c
    | none => none

/-- `retrieveElement` (rbus_element.c:388-478). -/
def retrieve (T : Tree) (name : Bytes) : Option Node :=
  match tokens name with
  | [] => none
  | ts => retrieveFrom ts T.root

/-- Whether a token names a row by its alias: `[alias]` (rbus_element.c:539-553). -/
def aliasToken (t : Token) (a : Option Bytes) : Bool :=
  match a with
  | some a => a.length > 0 && t = 91 :: a ++ [93]
  | none => false

/-- The search among siblings in `retrieveInstanceElementEx` (rbus_element.c:519-562): the first one by
name only, the others by name or, below a table, by alias. -/
def findInstance (table : Bool) (t : Token) : List Node → Option Node
  | [] => none
  | c :: cs =>
    if c.info.name = t then some c
    else cs.find? (fun d => d.info.name = t || (table && aliasToken t d.info.alias))

/-- The walk of `retrieveInstanceElementEx` (rbus_element.c:506-588) without table synchronisation
(`syncTables` false, as in `retrieveInstanceElement`, or no sync handlers). `wild` is `isWildcard`. -/
def instanceFrom : Bool → Path → Node → Option Node
  | _, [], n => some n
  | wild, t :: ts, n =>
    let table : Bool := n.info.type = tTable
    let wild' := wild || (table && t = star)
    let t' := if table && (wild' || n.info.cb.get.isSome) then template else t
    match findInstance table t' n.children with
    | some c => instanceFrom wild' ts c
    | none => none

/-- `retrieveInstanceElement` (rbus_element.c:480-604). -/
def retrieveInstance (T : Tree) (name : Bytes) : Option Node :=
  match tokens name with
  | [] => none
  | ts => instanceFrom false ts T.root

mutual

/-- Change the node at an address. -/
def modify (id : Nat) (f : Node → Node) : Node → Node
  | ⟨a, i, cs⟩ => if a = id then f ⟨a, i, cs⟩ else ⟨a, i, modifyList id f cs⟩

/-- The same in a list of nodes. -/
def modifyList (id : Nat) (f : Node → Node) : List Node → List Node
  | [] => []
  | n :: ns => modify id f n :: modifyList id f ns

end

mutual

/-- A node and all below it, from top to bottom and left to right. -/
def nodes : Node → List Node
  | ⟨a, i, cs⟩ => ⟨a, i, cs⟩ :: nodesList cs

/-- The same for a list of nodes. -/
def nodesList : List Node → List Node
  | [] => []
  | n :: ns => nodes n ++ nodesList ns

end

/-- The node at an address, if it is in the tree. -/
def nodeAt (T : Tree) (id : Nat) : Option Node := (nodes T.root).find? (fun n => n.id = id)

/-- `snprintf("%u", n)`. -/
def decimal (n : Nat) : Bytes := (Nat.toDigits 10 n).map (fun c => UInt8.ofNat c.toNat)

/-- `instantiateTableRow` (rbus_element.c:987-1051): the table's copy of the row template under the
instance number, appended; gives the row made. `none`: there is no row template (the assertion is taken
as compiled out). -/
def instantiate (T : Tree) (table : Node) (inst : Nat) (alias : Option Bytes) : Option (Tree × Node) :=
  match child table template with
  | none => none
  | some tmpl =>
    let name := decimal inst
    let (row, k) := dup (table.info.full ++ [name]) name tmpl T.next
    let row := { row with info := { row.info with alias := alias } }
    some ({ T with
      root := modify table.id (fun n => { n with children := n.children ++ [row] }) T.root
      next := k }, row)

mutual

/-- Unlink the node at an address (rbus_element.c:124-147). -/
def unlink (id : Nat) : Node → Node
  | ⟨a, i, cs⟩ => ⟨a, i, unlinkList id cs⟩

/-- The same in a list of siblings. -/
def unlinkList (id : Nat) : List Node → List Node
  | [] => []
  | n :: ns => if n.id = id then ns else unlink id n :: unlinkList id ns

end

/-- `deleteTableRow` (rbus_element.c:1053-1089) and `freeElementNode` (114-180): the row and all below it
are unlinked and freed. -/
def deleteRow (T : Tree) (row : Node) : Tree :=
  { T with root := unlink row.id T.root, freed := T.freed ++ (nodes row).map (·.id) }

end Verif.Element
