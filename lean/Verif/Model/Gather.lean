import Verif.Model.Subscriptions
import Verif.Model.Params

/-!
# Model of the provider's answer to partial paths and wildcard queries (src/rbus/rbus.c)

What `_get_callback_handler` answers when a name ends with '.' or contains '*'. The get handlers are a function of what was
called before, of the handler and of the name it is called with. Sync handlers of tables are left out, as are locks,
logging, reference counts and the name of the requesting component. Values are byte strings standing for a typed content.
-/

namespace Verif.Gather

open Verif Verif.Element
open Verif.Params (Value Prop')

/-- `RBUS_MAX_NAME_LENGTH` (include/rbus.h:96). -/
def maxName : Nat := 256

/-- What a get handler does with the property it is given: its code, the value it sets, the properties it appends. -/
structure Ret where
  code : Nat
  value : Value := none
  more : List Prop' := []
  deriving DecidableEq, Repr

/-- A call of a get handler: the handler, the name of the property it is given, and what it did. -/
structure Call where
  handler : Nat
  name : Bytes
  ret : Ret
  deriving DecidableEq, Repr

/-- The get handlers of a provider: what they do may depend on all calls before. -/
abbrev Handlers := List Call → Nat → Bytes → Ret

/-- The handler calls so far, the properties after the first one of the list `properties`, and `*pCount`. -/
structure St where
  calls : List Call := []
  props : List Prop' := []
  count : Nat := 0
  deriving DecidableEq, Repr

/-- What a function that may run forever gives. -/
inductive Out (α : Type) where
  | done (a : α)
  | hang
  | ub
  deriving DecidableEq, Repr

/-- Statements one after another. -/
def Out.bind {α β : Type} : Out α → (α → Out β) → Out β
  | .done a, f => f a
  | .hang, _ => .hang
  | .ub, _ => .ub

instance : Monad Out where
  pure := .done
  bind := Out.bind

/-- `while(*preg == *pinst)` (rbus.c:1690-1695): the characters copied and what is left. `none`: both ended at the same time
and the loop reads on behind them. -/
def common : Bytes → Bytes → Option (Bytes × Bytes × Bytes)
  | [], [] => none
  | r :: rs, q :: qs => if r = q then (common rs qs).map (fun x => (r :: x.1, x.2)) else some ([], r :: rs, q :: qs)
  | rs, qs => some ([], rs, qs)

/-- The outer loop of `_convert_reg_name_to_instance_name` (rbus.c:1688-1739), `fuel` rounds of it. A round that uses up no
character repeats itself forever; with as many rounds as there are characters, running out of them means that. -/
def convertLoop : Nat → Bytes → Bytes → Bytes → Out Bytes
  | 0, _, _, _ => .hang
  | fuel + 1, reg, query, buf =>
    if reg = [] ∨ query = [] then .done buf
    else
      match common reg query with
      | none => .ub
      | some (c, reg, query) =>
        let brace := reg.head? = some 123
        let buf := buf ++ c ++ (if brace then query.takeWhile (· ≠ dot) else [])
        let reg := if brace then reg.dropWhile (· ≠ dot) else reg
        let query := if brace then query.dropWhile (· ≠ dot) else query
        if query = [] then convertLoop fuel [] query (buf ++ reg)
        else convertLoop fuel reg query buf

/-- `_convert_reg_name_to_instance_name` (rbus.c:1682-1746) into a buffer of RBUS_MAX_NAME_LENGTH bytes. -/
def convert (reg query : Bytes) : Out Bytes :=
  match convertLoop (reg.length + query.length + 1) reg query [] with
  | .done b => if b.length < maxName then .done b else .ub
  | x => x

/-- The name handlers are called with: the full name, made into the name of an instance if there is a query
(rbus.c:1776-1777, 1831). -/
def nameFor (query : Option Bytes) (full : Path) : Out Bytes :=
  match query with
  | some q => convert (Subs.fullText full) q
  | none => .done (Subs.fullText full)

/-- Calling a get handler. -/
def call (H : Handlers) (s : St) (h : Nat) (name : Bytes) : St × Ret :=
  ({ s with calls := s.calls ++ [⟨h, name, H s.calls h name⟩] }, H s.calls h name)

/-- A table with a get handler (rbus.c:1768-1807): the handler is called with the partial path, cut to 254 bytes, and what it
appended is taken. -/
def askTable (H : Handlers) (query : Option Bytes) (full : Path) (h : Nat) (s : St) : Out St := do
  let name ← nameFor query full
  let (s, r) := call H s h ((name ++ [dot]).take (maxName - 2))
  pure (if r.code = 0 then { s with props := s.props ++ r.more, count := s.count + r.more.length } else s)

/-- A get handler of something else (rbus.c:1823-1840): with success, the property is appended with all that the handler
appended to it, and counted as one. -/
def askProperty (H : Handlers) (name : Bytes) (h : Nat) (s : St) : St × Nat :=
  let (s, r) := call H s h name
  (if r.code = 0 then { s with props := s.props ++ (name, r.value) :: r.more, count := s.count + 1 } else s, r.code)

mutual

/-- `_get_recursive_partialpath_handler` (rbus.c:1752-1857). -/
def below (H : Handlers) (query : Option Bytes) : Node → St → Out St
  | ⟨_, i, cs⟩, s =>
    if i.type = tTable then
      match i.cb.get with
      | some h => askTable H query i.full h s
      | none => children H query true cs s
    else children H query false cs s

/-- The loop over the children (rbus.c:1816-1855); `table` is whether they are children of a table. -/
def children (H : Handlers) (query : Option Bytes) (table : Bool) : List Node → St → Out St
  | [], s => .done s
  | ⟨a, i, gs⟩ :: cs, s =>
    match (if i.type = tTable then none else i.cb.get) with
    | some h => do
      let name ← nameFor query i.full
      children H query table cs (askProperty H name h s).1
    | none =>
      if gs ≠ [] ∧ ¬ (table = true ∧ i.name = template ∧ i.cb.get = none) then do
        let s ← below H query ⟨a, i, gs⟩ s
        children H query table cs s
      else children H query table cs s

end

/-- Whether `strstr(fullName, "{i}")` finds something. -/
def hasTemplate : Bytes → Bool
  | [] => false
  | c :: cs => template.isPrefixOf (c :: cs) || hasTemplate cs

/-- A query that ends with '.' (rbus.c:1912-1925); `param` is the name as asked for. -/
def wildPartial (H : Handlers) (T : Tree) (name param : Bytes) (s : St) : Out (Nat × St) :=
  match retrieveInstance T name with
  | none => .done (17, s)
  | some el => do
    let s ← below H (if hasTemplate (Subs.fullText el.info.full) then some param else none) el s
    pure (0, s)

/-- A query without '*' that does not end with '.' (rbus.c:1926-1948). -/
def wildLeaf (H : Handlers) (T : Tree) (name : Bytes) (s : St) : Nat × St :=
  match retrieveInstance T name with
  | none => (17, s)
  | some el =>
    match (if el.info.type = tTable then none else el.info.cb.get) with
    | some h => ((askProperty H name h s).2, (askProperty H name h s).1)
    | none => (0, s)

/-- The loop over the rows (rbus.c:1897-1910): it stops at the first error. -/
def overRows (f : Bytes → St → Out (Nat × St)) (pre post : Bytes) : List Node → St → Out (Nat × St)
  | [], s => .done (0, s)
  | c :: cs, s =>
    if c.info.name = template then overRows f pre post cs s
    else do
      let (r, s) ← f ((pre ++ c.info.name ++ post).take (maxName - 1)) s
      if r = 0 then overRows f pre post cs s else pure (r, s)

/-- `get_recursive_wildcard_handler` (rbus.c:1859-1951), recursing at most `fuel` times: once for each '*', as long as names
of rows contain none. The name of a single '*' is read before its start. -/
def wildcard (H : Handlers) (T : Tree) : Nat → Bytes → St → Out (Nat × St)
  | 0, _, _ => .ub
  | fuel + 1, param, s =>
    let name := param.take (maxName - 1)
    if name = star then .ub
    else
      let name := if dot :: star <:+ name then name.dropLast else name
      if name.contains 42 then
        let pre := name.takeWhile (· ≠ 42)
        let post := (name.dropWhile (· ≠ 42)).drop 1
        match retrieveInstance T pre with
        | none => .done (17, s)
        | some el =>
          if el.info.type = tTable then overRows (wildcard H T fuel) pre post el.children s
          else .done (18, s)
      else if name.getLast? = some dot then wildPartial H T name param s
      else .done (wildLeaf H T name s)

/-- The answer of `_get_callback_handler` to a partial path or wildcard query (rbus.c:2042-2074): the code and, with success,
the first `count` properties; and the handler calls made. -/
def answer (H : Handlers) (T : Tree) (param : Bytes) : Out (Nat × List Prop' × List Call) := do
  let (r, s) ← wildcard H T (param.count 42 + 1) param {}
  pure (r, if r = 0 then s.props.take s.count else [], s.calls)

end Verif.Gather
