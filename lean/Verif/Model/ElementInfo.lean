import Verif.Model.Rows
import Verif.Model.Wire
import Verif.Model.Subscriptions

/-!
# Model of listing elements and rows (src/rbus/rbus.c)

`rbusElementInfo_get` and `rbusTable_getRowNames` with the provider's `_get_parameter_names_handler`, down to the bytes of the
messages. Every message has a meta section behind its body (`_rbusMessage_SetMetaInfo`, rbuscore.c:424-441); what it is does not
matter here, so it is a parameter. Tables have no sync handlers; logging and allocation failures are left out.
-/

namespace Verif.ElementInfo

open Verif Verif.Element Verif.Message Verif.Wire
open Verif.Params (Fate CoreErr Comp coreToRbus ccspToRbus)

/-- `RBUS_MAX_NAME_LENGTH` (include/rbus.h:96). -/
def maxName : Nat := 256

/-- `RBUS_MAX_NAME_DEPTH` (include/rbus.h:99). -/
def maxDepth : Nat := 16

/-! ## The provider -/

/-- A bit of `rbusAccess_t` (include/rbus.h:684-692) for a handler. -/
def bit (handler : Option Nat) (b : BitVec 32) : BitVec 32 := if handler.isSome then b else 0

/-- What can be done with an element (rbus.c:2134-2154). `row` is whether it is a row of a table. -/
def access (cb : Cb) (row : Bool) : BitVec 32 :=
  bit cb.get 1 ||| bit cb.set 2 ||| bit cb.addRow 4 ||| bit cb.removeRow 8 ||| bit cb.sub 16 ||| bit cb.method 32 |||
    (if row then 1 ||| 2 else 0)

/-- The name of an element (rbus.c:2156-2165): objects and tables get a dot, in a buffer. -/
def shown (i : Info) : Bytes :=
  if i.type = tObject ∨ i.type = tTable then (Subs.fullText i.full ++ [dot]).take (maxName - 1) else Subs.fullText i.full

/-- What the response has for an element (rbus.c:2128-2168). `inTable` is whether it stands below a table. -/
def record (i : Info) (inTable : Bool) : Bytes :=
  setString (shown i) ++ setInt32 (BitVec.ofNat 32 i.type) ++ setInt32 (access i.cb (decide (i.type = tObject) && inTable))

mutual

/-- `_get_parameter_names_recurse` (rbus.c:2119-2188). It runs once to count and once to write the response; `visit` is what is
done with an element. -/
def recurse {α : Type} (visit : Info → Bool → α → α) (depth : Int) : Nat → Bool → Node → α → α
  | cur, inTable, ⟨_, i, cs⟩, s =>
    let s' := if 0 ≤ depth ∨ depth.natAbs = cur then visit i inTable s else s
    if cur < depth.natAbs then recurseList visit depth (cur + 1) (decide (i.type = tTable)) cs s' else s'

/-- The loop over the children (rbus.c:2177-2186): tables with a get handler and row templates are passed over. -/
def recurseList {α : Type} (visit : Info → Bool → α → α) (depth : Int) : Nat → Bool → List Node → α → α
  | _, _, [], s => s
  | cur, table, ⟨a, i, gs⟩ :: cs, s =>
    if (i.type = tTable ∧ i.cb.get.isSome) ∨ (table = true ∧ i.name = template) then recurseList visit depth cur table cs s
    else recurseList visit depth cur table cs (recurse visit depth cur table ⟨a, i, gs⟩ s)

end

/-- Whether the node above the one `retrieveInstanceElementEx` finds is a table: `el->parent->type`. -/
def parentTable (T : Tree) (name : Bytes) : Bool :=
  match instanceFrom false (tokens name).dropLast T.root with
  | some n => decide (n.info.type = tTable)
  | none => false

/-- The rows in a response (rbus.c:2232-2258). -/
def rowRecords (cs : List Node) : Bytes :=
  cs.flatMap fun c => setInt32 (BitVec.ofInt 32 (Rows.atoi c.info.name)) ++ setString (c.info.alias.getD [])

/-- `_get_parameter_names_handler` (rbus.c:2190-2334): the body of the response. A missing name is dereferenced. The absolute
value of the smallest number is undefined. -/
def namesHandler (T : Tree) (request : Bytes) : Res Bytes := do
  let (name, r) ← getStringU request
  let (depth, r) := getInt32Z r
  let (rowsOnly, _) := getInt32Z r
  match retrieveInstance T name with
  | none => .ok (setInt32 17)
  | some el =>
    if rowsOnly ≠ 0 then
      if el.info.type ≠ tTable then .ok (setInt32 2)
      else
        let rows := el.children.filter (fun c => c.info.name ≠ template)
        .ok (setInt32 0 ++ setInt32 (BitVec.ofNat 32 rows.length) ++ rowRecords rows)
    else if el.info.type = tTable ∧ el.info.cb.get.isSome then .ok []
    else if depth = BitVec.intMin 32 then .ub
    else
      let count := recurse (fun _ _ k => k + 1) depth.toInt 0 (parentTable T name) el 0
      .ok (recurse (fun i t bs => bs ++ record i t) depth.toInt 0 (parentTable T name) el
        (setInt32 0 ++ setInt32 (BitVec.ofNat 32 count)))

/-! ## The consumer -/

/-- `rbusElementInfo_t` (include/rbus.h:673-694). -/
structure Listed where
  name : Bytes
  type : BitVec 32
  access : BitVec 32
  component : Comp
  deriving DecidableEq, Repr

/-- `rbusMessage_GetInt32` into memory that is not initialised, with the error ignored. -/
def getInt32U (bs : Bytes) : Res (BitVec 32 × Bytes) :=
  match getInt32 bs with
  | some x => .ok x
  | none => .ub

/-- The elements of a response (rbus.c:4876-4884). -/
def readRecords (c : Comp) : Nat → Bytes → Res (List Listed)
  | 0, _ => .ok []
  | n + 1, bs => do
    let (name, r) ← getStringU bs
    let (type, r) ← getInt32U r
    let (acc, r) ← getInt32U r
    let l ← readRecords c n r
    pure (⟨name, type, acc, c⟩ :: l)

/-- A response (rbus.c:4841-4891): the code and the elements. What cannot be read is 0. -/
def readAnswer (c : Comp) (msg : Bytes) : Res (Int × List Listed) :=
  let (e, r) := getInt32Z msg
  let code : Int := if e.toInt < 100 then e.toInt else ccspToRbus e.toNat
  if code = 0 then do
    let (n, r) := getInt32Z r
    let l ← readRecords c n.toInt.toNat r
    pure (0, l)
  else .ok (code, [])

/-- All providers, the fates of the coming calls (answered once the list is used up), and what follows the body of a message. -/
structure World where
  trees : Comp → Tree
  fates : List Fate
  trailer : Bytes → Bytes

/-- A request for elements (rbus.c:4831-4834) or rows (4684-4687). -/
def request (name : Bytes) (depth rowsOnly : BitVec 32) : Bytes := setString name ++ setInt32 depth ++ setInt32 rowsOnly

/-- One call: the response as it arrives. -/
def call (w : World) (c : Comp) (body : Bytes) : Res (CoreErr ⊕ Bytes) :=
  match w.fates.headD .answered with
  | .lost e => .ok (.inl e)
  | .unanswered e => do
    let _ ← namesHandler (w.trees c) (body ++ w.trailer body)
    pure (.inl e)
  | .answered => do
    let b ← namesHandler (w.trees c) (body ++ w.trailer body)
    pure (.inr (b ++ w.trailer b))

/-- The loop over the destinations (rbus.c:4829-4893): the code is that of the last one, the elements those of all. -/
def infoLoop (body : Bytes) : List Comp → World → Int → List Listed → Res (Int × List Listed)
  | [], _, code, l => .ok (code, l)
  | c :: cs, w, _, l => do
    let r ← call w c body
    match r with
    | .inl e => infoLoop body cs { w with fates := w.fates.tail } (coreToRbus e : Nat) l
    | .inr msg => do
      let (code, more) ← readAnswer c msg
      infoLoop body cs { w with fates := w.fates.tail } code (l ++ more)

/-- `rbusElementInfo_get` (rbus.c:4788-4899) on a regular handle. `found` is what `rbus_discoverElementObjects` gives. The absolute
value of the smallest number is undefined. -/
def elementInfo (w : World) (name : Bytes) (depth : BitVec 32) (found : Option (List Comp)) : Res (Int × List Listed) :=
  if depth = BitVec.intMin 32 then .ub
  else if depth.toInt.natAbs > maxDepth then .ok (2, [])
  else
    match found with
    | none => .ok (17, [])
    | some cs => infoLoop (request name depth 0) cs w 0 []

/-- The rows of a response (rbus.c:4733-4748): number and alias. A missing number is not initialised, a missing alias NULL. -/
def readRows : Nat → Bytes → Res (List (Int × Bytes))
  | 0, _ => .ok []
  | n + 1, bs => do
    let (i, r) ← getInt32U bs
    let (a, r) ← getStringN r
    let l ← readRows n r
    pure ((i.toInt, a) :: l)

/-- `rbusTable_getRowNames` (rbus.c:4666-4766): the code, and number and alias of the rows. The code that cannot be read is -1, the
number of rows that cannot be read is not initialised. -/
def rowNames (w : World) (c : Comp) (table : Bytes) : Res (Int × List (Int × Bytes)) := do
  let r ← call w c (request table (-1) 1)
  match r with
  | .inl e => .ok ((coreToRbus e : Nat), [])
  | .inr msg =>
    let (e, r) : Int × Bytes := match getInt32 msg with
      | some (e, r) => (e.toInt, r)
      | none => (-1, msg)
    if e = 0 ∨ e = 100 then do
      let (n, r) ← getInt32U r
      let l ← readRows n.toInt.toNat r
      pure (0, l)
    else .ok (if e > 100 then (ccspToRbus e.toNat : Nat) else e, [])

end Verif.ElementInfo
