import Verif.Model.Rows
import Verif.Model.SetGet

/-!
# Model of adding and removing rows from end to end (src/rbus/rbus.c)

The messages between a caller and the provider of a table, byte by byte: `rbusTable_addRow` (4455-4535) and
`rbusTable_removeRow` (4537-4597), at the provider `_callback_handler` (2845-2912) with `_table_add_row_callback_handler`
(2336-2391) and `_table_remove_row_callback_handler` (2393-2455), the application's handlers, and the tree of elements. What
happens to subscriptions is in the model of the registry; tables have no sync handlers; handles are regular ones; locks and
reference counts are left out, and allocation succeeds.
-/

namespace Verif.RowWire

open Verif Verif.Message Verif.Wire Verif.Element
open Verif.Method (str Fate getCode methodResponse coreToRbus)

/-- Names of the methods (rbuscore_types.h:71-72). -/
def methodAdd : Bytes := str "METHOD_ADDTBLROW"
def methodRemove : Bytes := str "METHOD_DELETETBLROW"

/-- A call of a handler of a table, which is given by its number: what it was given, its code, and for a new row its
number. -/
inductive Call where
  | add (handler : Nat) (table : Bytes) (alias : Option Bytes) (code inst : BitVec 32)
  | remove (handler : Nat) (row : Bytes) (code : BitVec 32)
  deriving DecidableEq, Repr

/-- The application at the provider: what its handlers do, which may depend on all calls before. -/
structure App where
  add : List Call → Nat → Bytes → Option Bytes → BitVec 32 × BitVec 32
  remove : List Call → Nat → Bytes → BitVec 32

/-- The provider: its elements, and the calls of handlers so far. -/
structure World where
  tree : Tree
  calls : List Call

/-- Reading the alias (rbus.c:2348-2351): none if there is no text, or an empty one. -/
def getAlias (bs : Bytes) : Res (Option Bytes) :=
  match getString bs with
  | .ok (s, _) => .ok (if s = [] then none else some s)
  | .fail => .ok none
  | .ub => .ub

/-- `_table_add_row_callback_handler` (rbus.c:2336-2391). The pointer to the name is not initialised. -/
def serveAdd (app : App) (w : World) (bs : Bytes) : Res (World × Bytes) := do
  let (_, bs) := getInt32Z bs
  let (table, bs) ← getStringU bs
  let aliasName ← getAlias bs
  match retrieve w.tree table, retrieveInstance w.tree table with
  | some reg, some ins =>
    match reg.info.cb.addRow with
    | some f =>
      let (code, inst) := app.add w.calls f table aliasName
      let calls := w.calls ++ [.add f table aliasName code inst]
      if code = 0 then do
        let T ← Rows.registerTableRow w.tree ins inst.toNat aliasName
        pure (⟨T, calls⟩, setInt32 code ++ setInt32 inst)
      else pure (⟨w.tree, calls⟩, setInt32 code ++ setInt32 inst)
    | none => pure (w, setInt32 9 ++ setInt32 0)
  | _, _ => pure (w, setInt32 17 ++ setInt32 0)

/-- `_table_remove_row_callback_handler` (rbus.c:2393-2455). -/
def serveRemove (app : App) (w : World) (bs : Bytes) : Res (World × Bytes) := do
  let (_, bs) := getInt32Z bs
  let (row, _) ← getStringU bs
  match retrieve w.tree row, retrieveInstance w.tree row with
  | some _, some ins =>
    match Rows.regParent w.tree row with
    | some table =>
      match table.info.cb.removeRow with
      | some f =>
        let code := app.remove w.calls f row
        let calls := w.calls ++ [.remove f row code]
        if code = 0 then pure (⟨deleteRow w.tree ins, calls⟩, setInt32 code)
        else pure (⟨w.tree, calls⟩, setInt32 code)
      | none => pure (w, setInt32 9)
    | none => pure (w, setInt32 17)
  | _, _ => pure (w, setInt32 17)

/-- `_callback_handler` (rbus.c:2845-2912) for these methods, with the metadata of the request and of the response
(rbuscore.c:443-460, 2343). Other methods are not represented (`fail`). -/
def serve (app : App) (w : World) (msg : Bytes) : Res (World × Bytes) := do
  let ((method, _, _), _) ← getMeta msg 0
  if method = methodAdd then do
    let (w, m) ← serveAdd app w msg
    pure (w, setMeta m methodResponse [] [])
  else if method = methodRemove then do
    let (w, m) ← serveRemove app w msg
    pure (w, setMeta m methodResponse [] [])
  else .fail

/-- One exchange (`rbus_invokeRemoteMethod2`, rbuscore.c:1111-1186). -/
def exchange (app : App) (w : World) (fate : Fate) (parent state method body : Bytes) : Res (World × (Nat ⊕ Bytes)) :=
  match fate with
  | .lost e => .ok (w, .inl e)
  | .unanswered e => do
    let (w, _) ← serve app w (setMeta body method parent state)
    pure (w, .inl e)
  | .delivered => do
    let (w, m) ← serve app w (setMeta body method parent state)
    pure (w, .inr m)

/-- `rbusTable_addRow` (rbus.c:4455-4535): the provider, the code, and what is stored as the number of the row, if anything is.
The last character of an empty name is read before it. -/
def addRow (app : App) (w : World) (fate : Fate) (parent state table : Bytes) (aliasName : Option Bytes) :
    Res (World × BitVec 32 × Option (BitVec 32)) :=
  if table = [] then .ub
  else if table.getLast? ≠ some dot then .ok (w, 2, none)
  else do
    let (w, r) ← exchange app w fate parent state methodAdd (setInt32 0 ++ (setString table ++ setString (aliasName.getD [])))
    match r with
    | .inl e => pure (w, coreToRbus e, none)
    | .inr m =>
      let (code, m) := getCode 0 m
      let (inst, _) := getCode 0 m
      pure (w, SetGet.readCode code, some inst)

/-- `rbusTable_removeRow` (rbus.c:4537-4597): the provider and the code. -/
def removeRow (app : App) (w : World) (fate : Fate) (parent state row : Bytes) : Res (World × BitVec 32) := do
  let (w, r) ← exchange app w fate parent state methodRemove (setInt32 0 ++ setString row)
  match r with
  | .inl e => pure (w, coreToRbus e)
  | .inr m => pure (w, SetGet.readCode (getCode 0 m).1)

/-- What callers do, with what happens to the messages and the trace context. -/
inductive Op where
  | add (fate : Fate) (parent state table : Bytes) (alias : Option Bytes)
  | remove (fate : Fate) (parent state row : Bytes)

/-- One call: the provider afterwards, the code, the number stored. -/
def step (app : App) (w : World) : Op → Res (World × BitVec 32 × Option (BitVec 32))
  | .add f p s t a => addRow app w f p s t a
  | .remove f p s r => do
    let (w, c) ← removeRow app w f p s r
    pure (w, c, none)

end Verif.RowWire
