import Verif.Model.Base

/-!
# Model of tables whose rows a handler keeps up to date (src/rbus/rbus.c:1857-1952, 2119-2334, 4599-4664,
6526-6552; src/rbus/rbus_element.c:480-602, 919-1051)

A provider may give a table a handler that is called before the rows are looked at; the handler registers and
unregisters rows so that they are those of its data. The data may change at any time: it is a function of a
clock that ticks with each call of a handler. Names are split into tokens, and row numbers are numbers. Aliases,
tables with a get handler, the events that tell of rows and the locks are left out (see `Verif.Rows`,
`Verif.Gather`, `Verif.Locks`), and so is the row template's place among the rows, which every loop skips.
-/

namespace Verif.DynamicTable

/-- A part of a name between dots: a word or the number of a row (rbus_element.c:506, 1029). -/
inductive Token where
  | word (b : Bytes)
  | row (n : Nat)
  deriving DecidableEq, Repr

/-- The full name of an element (rbus_element.c:926), as tokens. -/
abbrev Path := List Token

/-- `elementNode` (rbus_element.h:60-75): a property, an object (also a row), or a table with the children of its
row template `{i}` and its rows. `handler` tells whether there is a `tableSyncHandler`. -/
inductive Node where
  | leaf (tok : Token)
  | object (tok : Token) (children : List Node)
  | table (tok : Token) (handler : Bool) (template rows : List Node)

/-- The type of an element (rbus_element.h:60-75, field `type`). -/
inductive Kind where
  | leaf
  | object
  | table
  deriving DecidableEq, Repr

/-- Field `name` of `elementNode` (rbus_element.h:60-75). -/
def Node.tok : Node → Token
  | .leaf t => t
  | .object t _ => t
  | .table t _ _ _ => t

/-- Field `type` of `elementNode` (rbus_element.h:60-75). -/
def Node.kind : Node → Kind
  | .leaf _ => .leaf
  | .object _ _ => .object
  | .table _ _ _ _ => .table

/-- The provider's data: the rows a table should have when a handler is called for the n-th time. Not in the
code under test; the handler is the provider's (include/rbus.h:538-552). -/
abbrev World := Nat → Path → List Nat

/-- `rbusTable_registerRow` (rbus.c:4599-4640) with `duplicateNode` (rbus_element.c:919-956), which puts a copy of
the template at the end. The row's name is made with "%s%d" (line 4615): `dot` tells whether the name of the table
ends in a dot. Without it the name asked for is not that of a row, so the check for an existing row finds none.
Simplified: no element beside the table happens to have that other name. -/
def registerRow (dot : Bool) (template : List Node) (rows : List Node) (n : Nat) : List Node :=
  if dot && rows.any (fun r => r.tok == .row n) then rows else rows ++ [.object (.row n) template]

/-- `rbusTable_unregisterRow` (rbus.c:4642-4664) for all rows that are not among `data`. -/
def dropRows (data : List Nat) (rows : List Node) : List Node :=
  rows.filter (fun r => match r.tok with
    | .row n => data.contains n
    | .word _ => true)

/-- A handler as the description asks for it (include/rbus.h:538-552): it unregisters the rows that are gone and
registers those of its data, with a dot after the name of the table. -/
def syncRows (data : List Nat) (template rows : List Node) : List Node :=
  data.foldl (registerRow true template) (dropRows data rows)

/-- A handler that puts the name it is given into `rbusTable_registerRow` as it is: the calls hand over `fullName`,
which has no dot at the end (rbus_element.c:571, rbus.c:1810, 1896, 2175, 2233). -/
def syncRowsAsGiven (data : List Nat) (template rows : List Node) : List Node :=
  data.foldl (registerRow false template) (dropRows data rows)

/-- A call of the handler of the table at `p`, if there is one (rbus_element.c:568-573, rbus.c:1893-1898, 2172-2177,
2230-2235): the rows afterwards and the clock. -/
def callHandler (w : World) (p : Path) (t : Nat) (handler : Bool) (template rows : List Node) : List Node × Nat :=
  if handler then (syncRows (w t p) template rows, t + 1) else (rows, t)

/-- The loop over the children (rbus.c:2179-2188, 1816-1852), with what each gives put one after the other. -/
def each (g : Nat → Node → Node × Nat × List Path) : Nat → List Node → List Node × Nat × List Path
  | t, [] => ([], t, [])
  | t, c :: cs =>
    ((g t c).1 :: (each g (g t c).2.1 cs).1, (each g (g t c).2.1 cs).2.1, (g t c).2.2 ++ (each g (g t c).2.1 cs).2.2)

/-- `_get_parameter_names_recurse` (rbus.c:2119-2190) and `_get_recursive_partialpath_handler` (rbus.c:1752-1855) from
the element at `p`, with `k` levels to go: `emit` tells which elements are given. -/
def visit (w : World) (sync : Bool) (emit : Nat → Kind → Bool) :
    Nat → Path → Nat → Node → Node × Nat × List Path
  | 0, p, t, node => (node, t, if emit 0 node.kind then [p] else [])
  | k + 1, p, t, node =>
    let here := if emit (k + 1) node.kind then [p] else []
    match node with
    | .leaf tok => (.leaf tok, t, here)
    | .object tok cs =>
      let r := each (fun t c => visit w sync emit k (p ++ [c.tok]) t c) t cs
      (.object tok r.1, r.2.1, here ++ r.2.2)
    | .table tok h tm rs =>
      let s := callHandler w p t (sync && h) tm rs
      let r := each (fun t c => visit w sync emit k (p ++ [c.tok]) t c) s.2 s.1
      (.table tok h tm r.1, r.2.1, here ++ r.2.2)

/-- What a request is answered with. -/
inductive Answer where
  /-- `RBUS_ERROR_ELEMENT_DOES_NOT_EXIST` (rbus.c:2216, 1888, 1927, 1933). -/
  | absent
  /-- The element is not a table (rbus.c:2227, 1891). -/
  | notTable
  /-- The number of names told before, and the names (rbus.c:2264-2278). -/
  | names (count : Nat) (list : List Path)
  /-- Row numbers (rbus.c:2239-2261). -/
  | rows (list : List Nat)
  /-- The elements whose values are given. -/
  | values (list : List Path)
  deriving DecidableEq, Repr

/-- The search for one token among siblings (rbus_element.c:508-560): the first that has it is given to `g`. -/
def onFirst (tok : Token) (g : Node → Node × Nat × Answer) (t : Nat) : List Node → List Node × Nat × Answer
  | [] => ([], t, .absent)
  | n :: ns =>
    if n.tok = tok then ((g n).1 :: ns, (g n).2)
    else (n :: (onFirst tok g t ns).1, (onFirst tok g t ns).2)

/-- `retrieveInstanceElementEx` with `syncTables` (rbus_element.c:485-602), and what is done to the element found:
`f` is given the path of the element, the clock and the element. The handler of a table on the way is called when a
token follows (lines 568-573). -/
def descend (w : World) (f : Path → Nat → Node → Node × Nat × Answer) :
    Path → Path → Nat → List Node → List Node × Nat × Answer
  | [], _, t, ns => (ns, t, .absent)
  | tok :: rest, pre, t, ns =>
    let p := pre ++ [tok]
    onFirst tok (fun node =>
      match rest with
      | [] => f p t node
      | _ :: _ =>
        match node with
        | .leaf tk => (.leaf tk, t, .absent)
        | .object tk cs =>
          let r := descend w f rest p t cs
          (.object tk r.1, r.2)
        | .table tk h tm rs =>
          let s := callHandler w p t h tm rs
          let r := descend w f rest p s.2 s.1
          (.table tk h tm r.1, r.2)) t ns

/-- `abs` and the sign of the depth asked for (rbus.c:2121-2123): a negative depth gives one level only. -/
def wanted (depth : Int) (left : Nat) (_ : Kind) : Bool := decide (0 ≤ depth) || left == 0

/-- The last part of `_get_parameter_names_handler` (rbus.c:2264-2278): the first pass counts and calls handlers, the
second lists and calls none. -/
def namesAt (w : World) (depth : Int) (p : Path) (t : Nat) (node : Node) : Node × Nat × Answer :=
  let one := visit w true (wanted depth) depth.natAbs p t node
  let two := visit w false (wanted depth) depth.natAbs p one.2.1 one.1
  (two.1, two.2.1, .names one.2.2.length two.2.2)

/-- `atoi` of the names of rows (rbus.c:2256). -/
def rowNumbers (rows : List Node) : List Nat :=
  rows.filterMap (fun r => match r.tok with
    | .row n => some n
    | .word _ => none)

/-- The row names part of `_get_parameter_names_handler` (rbus.c:2220-2262), and the first half of a wildcard
(rbus.c:1881-1898): the handler is called once. -/
def rowsAt (w : World) (p : Path) (t : Nat) : Node → Node × Nat × Answer
  | .table tk h tm rs =>
    let s := callHandler w p t h tm rs
    (.table tk h tm s.1, s.2, .rows (rowNumbers s.1))
  | n => (n, t, .notTable)

/-- The end of a read of one element (rbus.c:1929-1950): only properties have values here. -/
def valueAt (p : Path) (t : Nat) (node : Node) : Node × Nat × Answer :=
  (node, t, .values (if node.kind = .leaf then [p] else []))

/-- The number of levels below an element, which the recursion of a read of a whole branch is followed for. The code
follows it to the end (rbus.c:1816-1852); rows are as deep as their template. -/
def Node.height : Node → Nat
  | .leaf _ => 0
  | .object _ cs => 1 + heights cs
  | .table _ _ tm _ => 2 + heights tm
where
  /-- The greatest of the heights. -/
  heights : List Node → Nat
  | [] => 0
  | c :: cs => max (Node.height c) (heights cs)

/-- A read of everything below an element (rbus.c:1916-1928, 1752-1855). -/
def branchAt (w : World) (p : Path) (t : Nat) (node : Node) : Node × Nat × Answer :=
  let r := visit w true (fun _ k => k == .leaf) node.height p t node
  (r.1, r.2.1, .values r.2.2)

/-- Is there an element of this name now? `retrieveInstanceElement` (rbus_element.c:480-483), which calls no handler. -/
def holds : Path → List Node → Bool
  | [], _ => true
  | tok :: rest, ns =>
    match ns.find? (fun n => n.tok == tok) with
    | none => false
    | some (.leaf _) => rest.isEmpty
    | some (.object _ cs) => holds rest cs
    | some (.table _ _ _ rs) => holds rest rs

/-- The loop over the rows in `get_recursive_wildcard_handler` (rbus.c:1900-1914). Each row is read by its full name
from the root, which calls the handlers on the way again. The loop then goes from the row to the next one, which must
not be done if the row has been removed meanwhile. Rows removed before the loop comes to them are not seen. Simplified:
rows added while the loop runs are not seen either. A row that is removed is not registered again during one read, as
each handler on the way is called once, so a row is known by its name. -/
def wildcardLoop (w : World) (table rest : Path) :
    List Nat → Nat → List Node → List Path → Res (List Node × Nat × Answer)
  | [], t, ns, acc => .ok (ns, t, .values acc)
  | r :: rs, t, ns, acc =>
    if holds (table ++ [.row r]) ns then
      let g := descend w valueAt (table ++ .row r :: rest) [] t ns
      match g.2.2 with
      | .values l =>
        if holds (table ++ [.row r]) g.1 then wildcardLoop w table rest rs g.2.1 g.1 (acc ++ l)
        else .ub
      | a => .ok (g.1, g.2.1, a)
    else wildcardLoop w table rest rs t ns acc

/-- What a consumer can ask for. -/
inductive Request where
  /-- `rbusElementInfo_get` (rbus.c:2192-2334). -/
  | names (p : Path) (depth : Int)
  /-- `rbusTable_getRowNames` (rbus.c:4666-4760). -/
  | rowNames (p : Path)
  /-- `rbus_get` of one element (rbus.c:1956-1990). -/
  | value (p : Path)
  /-- `rbus_getExt` of a name that ends in a dot (rbus.c:1916-1928). -/
  | branch (p : Path)
  /-- `rbus_getExt` of `table.*.rest` (rbus.c:1876-1914). -/
  | wildcard (table rest : Path)
  deriving DecidableEq, Repr

/-- A request is served (rbus.c:1857-1952, 1956-1990, 2192-2334): the tree, the clock and the answer. -/
def serve (w : World) (ns : List Node) : Request → Res (List Node × Nat × Answer)
  | .names p depth => .ok (descend w (namesAt w depth) p [] 0 ns)
  | .rowNames p => .ok (descend w (rowsAt w) p [] 0 ns)
  | .value p => .ok (descend w valueAt p [] 0 ns)
  | .branch p => .ok (descend w (branchAt w) p [] 0 ns)
  | .wildcard table rest =>
    let r := descend w (rowsAt w) table [] 0 ns
    match r.2.2 with
    | .rows l => wildcardLoop w table rest l r.2.1 r.1 []
    | a => .ok (r.1, r.2.1, a)

/-- The tree after requests, each with the data as it was then. -/
def after (ns : List Node) : List (World × Request) → Res (List Node)
  | [] => .ok ns
  | (w, q) :: h => do
    let r ← serve w ns q
    after r.1 h

/-- `retrieveElement` (rbus_element.c:388-478) and the rest of `rbus_registerDynamicTableSyncHandler` (rbus.c:6526-6552):
the table of that name gets a handler. The names of tables inside tables have `{i}` for rows, and it is the template
that is gone into; rows there already have copies of what the template had (rbus_element.c:930). `{i}` is left out of
the names here. -/
def setHandler : List Bytes → List Node → List Node
  | [], ns => ns
  | b :: rest, ns => ns.map (fun n =>
      if n.tok = .word b then
        match n with
        | .leaf tk => .leaf tk
        | .object tk cs => .object tk (setHandler rest cs)
        | .table tk h tm rs =>
          match rest with
          | [] => .table tk true tm rs
          | _ :: _ => .table tk h (setHandler rest tm) rs
      else n)

end Verif.DynamicTable
