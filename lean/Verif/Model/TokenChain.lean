import Verif.Model.Element

/-!
# Model of `src/rbus/rbus_tokenchain.c`

An element is given by what its node and the nodes above it hold, the element first and the top-level node
last; the root is not listed. The empty list is the root.
-/

namespace Verif.TokenChain

open Verif Verif.Element

/-- `TokenType` (rbus_tokenchain.h:29-35). -/
inductive Kind where
  | nonRow | alias | instNum | wildcard
  deriving DecidableEq, Repr

/-- `Token` (rbus_tokenchain.h:37-44). `mem` is the memory from where `text` points to the separator after
it, in which characters may have been overwritten by 0. Of `node` what `TokenChain_match` looks at: its
type, and whether its parent is a table. Types are taken when the chain is made; the code reads them through
the pointer when matching. -/
structure Token where
  mem : Bytes
  kind : Kind
  type : Nat
  row : Bool
  deriving DecidableEq, Repr

/-- The C string at `text`. -/
def Token.text (t : Token) : Bytes := t.mem.takeWhile (· ≠ 0)

/-- `TokenChain` (rbus_tokenchain.h:46-50): the tokens from first to last, and whether the first token's
`text` is the start of the block of memory that all texts are in, which `TokenChain_destroy`
(rbus_tokenchain.c:234-249) frees through it. -/
structure Chain where
  toks : List Token
  owned : Bool
  deriving DecidableEq, Repr

/-- Whether `node->parent` is a table. -/
def parentIsTable : List Info → Bool
  | _ :: p :: _ => p.type = tTable
  | _ => false

/-- `isspace` in the C locale. -/
def isSpace (c : UInt8) : Bool := c = 32 || (9 ≤ c.toNat && c.toNat ≤ 13)

/-- Value of leading decimal digits. -/
def digitsVal : Nat → Bytes → Nat
  | v, c :: cs => if 48 ≤ c.toNat ∧ c.toNat ≤ 57 then digitsVal (v * 10 + (c.toNat - 48)) cs else v
  | v, [] => v

/-- `atoi(s) > 0` as in the GNU C library: `(int)strtol(s, NULL, 10)`, with `long` of 64 bits. -/
def atoiPos (s : Bytes) : Bool :=
  let s := s.dropWhile isSpace
  let (neg, s) := match s with
    | 45 :: r => (true, r)
    | 43 :: r => (false, r)
    | r => (false, r)
  let v := digitsVal 0 s
  let l : Int := if neg then max (- (v : Int)) (-(2 ^ 63)) else min (v : Int) (2 ^ 63 - 1)
  0 < Int.bmod l (2 ^ 32)

/-- The inner loop of `TokenChain_create` (rbus_tokenchain.c:118-121), on the name reversed from `ptr` on:
go back to the previous dot or to the start. -/
def scan : Bytes → Bytes → Bytes × Bytes
  | acc, c :: d :: r => if c = dot then (acc, c :: d :: r) else scan (c :: acc) (d :: r)
  | acc, r => (acc, r)

/-- rbus_tokenchain.c:128-135: the text starts after the dot, or at the start of the name. -/
def textAt (x : Bytes × Bytes) : Bytes :=
  match x.2 with
  | c :: _ => if c = dot then x.1 else c :: x.1
  | [] => x.1

/-- Overwrite the first `]` by 0. -/
def cut : Bytes → Option Bytes
  | [] => none
  | c :: cs => if c = 93 then some (0 :: cs) else (cut cs).map (c :: ·)

/-- The search for `]` goes on into the tokens after the current one. -/
def cutLater : List Token → Option (List Token)
  | [] => none
  | t :: ts =>
    match cut t.mem with
    | some m => some ({ t with mem := m } :: ts)
    | none => (cutLater ts).map (t :: ·)

/-- rbus_tokenchain.c:152-205: the kind of a token, given its text and the tokens after it. For an alias
the search for the closing bracket starts at the second character after `[`; when `[` ends the whole
name, that is outside the memory. -/
def classify (text : Bytes) (type : Nat) (row : Bool) (later : List Token) : Res (Token × List Token) :=
  if row then
    match text with
    | 91 :: m =>
      match m with
      | [] =>
        if later = [] then .ub
        else match cutLater later with
          | some l => .ok (⟨[], .alias, type, row⟩, l)
          | none => .fail
      | c :: r =>
        match cut r with
        | some r' => .ok (⟨c :: r', .alias, type, row⟩, later)
        | none => match cutLater later with
          | some l => .ok (⟨c :: r, .alias, type, row⟩, l)
          | none => .fail
    | _ =>
      if text = star then .ok (⟨text, .wildcard, type, row⟩, later)
      else if atoiPos text then .ok (⟨text, .instNum, type, row⟩, later)
      else .fail
  else .ok (⟨text, .nonRow, type, row⟩, later)

/-- The outer loop of `TokenChain_create` (rbus_tokenchain.c:108-212) and the check after it (214-218). The
name is reversed, its head is the character at `ptr`. -/
def build : List Info → Bytes → List Token → Res (List Token × Bytes)
  | [], rev, toks => if rev.length = 1 then .ok (toks, rev) else .fail
  | i :: up, rev, toks =>
    if rev.length ≤ 1 then .fail
    else
      let rev := if rev.head? = some dot then rev.tail else rev
      let x := scan [] rev
      match classify (textAt x) i.type (parentIsTable (i :: up)) toks with
      | .ok (t, later) => build up x.2 (t :: later)
      | .fail => .fail
      | .ub => .ub

/-- `TokenChain_create` (rbus_tokenchain.c:71-232) for a non-NULL node; `fail` is NULL. -/
def create (name : Bytes) (reg : List Info) : Res Chain :=
  if name = [] then .fail
  else do
    let (toks, rest) ← build reg name.reverse []
    pure ⟨toks, toks = [] || rest ≠ [dot]⟩

/-- The loop of `TokenChain_match` (rbus_tokenchain.c:262-345), tokens from the last to the first. `rc`
tells whether the local `rc` has been assigned; if it has, it is 0 whenever the loop goes on. Reading it
unassigned (line 319) is `ub`. Afterwards (347-354) both must have come to their end. -/
def matchFrom : Bool → List Token → List Info → Res Bool
  | rc, t :: ts, i :: up =>
    if t.type ≠ i.type then .ok false
    else if t.row then
      if parentIsTable (i :: up) then
        match t.kind with
        | .instNum => if i.name = t.text then matchFrom true ts up else .ok false
        | .alias =>
          match i.alias with
          | some a => if a = t.text then matchFrom true ts up else .ok false
          | none => if rc then matchFrom rc ts up else .ub
        | _ => matchFrom rc ts up
      else .ok false
    else if i.name = t.text then matchFrom true ts up else .ok false
  | _, [], [] => .ok true
  | _, [], _ :: _ => .ok false
  | _, _ :: _, [] => .ok false

/-- `TokenChain_match` (rbus_tokenchain.c:251-360) on a chain and an element that are not NULL. -/
def «match» (c : Chain) (inst : List Info) : Res Bool := matchFrom false c.toks.reverse inst

end Verif.TokenChain
