import Verif.Model.Element
import Verif.Model.Params

/-!
# Model of adding, removing and listing table rows (src/rbus/rbus.c)

Each operation from the caller's end to the provider's tree of elements and back: `rbusTable_addRow`,
`rbusTable_removeRow`, `rbusTable_getRowNames` with the provider's handlers, `rbusTable_registerRow`,
`rbusTable_unregisterRow`. The messages are taken to arrive. What happens to subscriptions is in the model of the
registry; tables have no sync handlers.
-/

namespace Verif.Rows

open Verif Verif.Element

/-- `RBUS_MAX_NAME_LENGTH` (include/rbus.h:96). -/
def maxName : Nat := 256

/-- `snprintf("%d", n)` of an `unsigned`. -/
def signedDecimal (n : Nat) : Bytes :=
  if n < 2 ^ 31 then decimal n else 45 :: decimal (2 ^ 32 - n)

/-- `atoi`: the digits in front, as the `long` of `strtol` turned into an `int`. -/
def atoi (s : Bytes) : Int :=
  (BitVec.ofNat 32 ((s.takeWhile (fun c => 48 ≤ c.toNat && c.toNat ≤ 57)).foldl (fun a c => 10 * a + (c.toNat - 48)) 0)).toInt

/-- The calls, with what the provider's handler answers: its code and the number it gives the new row. -/
inductive Op where
  | add (table : Bytes) (alias : Option Bytes) (code inst : Nat)
  | remove (row : Bytes) (code : Nat)
  | register (table : Bytes) (inst : Nat) (alias : Option Bytes)
  | unregister (row : Bytes)
  | list (table : Bytes)
  deriving DecidableEq, Repr

/-- What the caller gets: the code, the number of the new row, the rows listed with number and alias (empty for none); and
whether the provider's handler was called. -/
structure Out where
  code : Nat
  inst : Nat := 0
  rows : List (Int × Bytes) := []
  called : Bool := false
  deriving DecidableEq, Repr

/-- The code the caller gets for the code in the response (rbus.c:4518-4532, 4580-4594). -/
def returned (c : Nat) : Nat :=
  if c = 0 ∨ c = 100 then 0 else if 100 < c then Params.ccspToRbus c else c

/-- `registerTableRow` (rbus.c:1239-1300): the row is dereferenced also when it could not be made. -/
def registerTableRow (T : Tree) (table : Node) (inst : Nat) (alias : Option Bytes) : Res Tree :=
  match instantiate T table inst alias with
  | some (T', _) => .ok T'
  | none => .ub

/-- The alias the provider reads (rbus.c:2346-2350, 4486-4489): none for an empty one. -/
def wireAlias (a : Option Bytes) : Option Bytes :=
  match a with
  | some [] => none
  | a => a

/-- `rbusTable_addRow` (rbus.c:4455-4535) and `_table_add_row_callback_handler` (2336-2391). The last character of an empty
name is read before it. -/
def addRow (T : Tree) (table : Bytes) (alias : Option Bytes) (code inst : Nat) : Res (Tree × Out) :=
  if table = [] then .ub
  else if table.getLast? ≠ some dot then .ok (T, { code := 2 })
  else
    match retrieve T table, retrieveInstance T table with
    | some reg, some ins =>
      if reg.info.cb.addRow.isSome then
        if code = 0 then do
          let T' ← registerTableRow T ins inst (wireAlias alias)
          pure (T', { code := returned code, inst := inst, called := true })
        else .ok (T, { code := returned code, inst := inst, called := true })
      else .ok (T, { code := returned 9 })
    | _, _ => .ok (T, { code := returned 17 })

/-- The node above the end of a path in the walk of `retrieveElement`: `->parent`. -/
def regParent (T : Tree) (row : Bytes) : Option Node := retrieveFrom (tokens row).dropLast T.root

/-- `rbusTable_removeRow` (rbus.c:4537-4597) and `_table_remove_row_callback_handler` (2393-2455). A node that is found has
one above it. -/
def removeRow (T : Tree) (row : Bytes) (code : Nat) : Res (Tree × Out) :=
  match retrieve T row, retrieveInstance T row with
  | some _, some ins =>
    match regParent T row with
    | some table =>
      if table.info.cb.removeRow.isSome then
        if code = 0 then .ok (deleteRow T ins, { code := returned code, called := true })
        else .ok (T, { code := returned code, called := true })
      else .ok (T, { code := returned 9 })
    | none => .ok (T, { code := returned 17 })
  | _, _ => .ok (T, { code := returned 17 })

/-- `rbusTable_registerRow` (rbus.c:4599-4640). -/
def registerRow (T : Tree) (table : Bytes) (inst : Nat) (alias : Option Bytes) : Res (Tree × Out) :=
  let rowName := table ++ signedDecimal inst
  if maxName ≤ rowName.length then .ok (T, { code := 2 })
  else if (retrieveInstance T rowName).isSome then .ok (T, { code := 2 })
  else
    match retrieveInstance T table with
    | none => .ok (T, { code := 2 })
    | some ins => do
      let T' ← registerTableRow T ins inst alias
      pure (T', { code := 0 })

/-- `rbusTable_unregisterRow` (rbus.c:4642-4664) and `unregisterTableRow` (1302-1354). -/
def unregisterRow (T : Tree) (row : Bytes) : Res (Tree × Out) :=
  match retrieveInstance T row with
  | none => .ok (T, { code := 2 })
  | some ins => .ok (deleteRow T ins, { code := 0 })

/-- `rbusTable_getRowNames` (rbus.c:4666-4770) and the part of `_get_parameter_names_handler` for it (2205-2261). -/
def listRows (T : Tree) (table : Bytes) : Res (Tree × Out) :=
  match retrieveInstance T table with
  | none => .ok (T, { code := 17 })
  | some ins =>
    if ins.info.type = tTable then
      .ok (T, ⟨0, 0, (ins.children.filter (fun c => c.info.name ≠ template)).map
        (fun c => (atoi c.info.name, c.info.alias.getD [])), false⟩)
    else .ok (T, { code := 2 })

/-- The name `rbusTable_getRowNames` gives a row (rbus.c:4738): cut to the buffer. -/
def rowName (table : Bytes) (n : Int) : Bytes :=
  (table ++ (if n < 0 then 45 :: decimal (-n).toNat else decimal n.toNat) ++ [dot]).take (maxName - 1)

/-- One call. -/
def step (T : Tree) : Op → Res (Tree × Out)
  | .add t a c i => addRow T t a c i
  | .remove r c => removeRow T r c
  | .register t i a => registerRow T t i a
  | .unregister r => unregisterRow T r
  | .list t => listRows T t

/-- Several calls. -/
def run (T : Tree) : List Op → Res (Tree × List Out)
  | [] => .ok (T, [])
  | o :: os => do
    let (T, x) ← step T o
    let (T, xs) ← run T os
    pure (T, x :: xs)

end Verif.Rows
