import Verif.Model.Router
/-!
# Discovery as the caller sees it

What `rbus_discoverRegisteredComponents`, `rbus_discoverWildcardDestinations`, `rbus_discoverObjectElements` and
`rbus_discoverElementObjects` make of the router's answer (rbuscore.c:1880-1965, 1967-2047, 2049-2123, 2240-2306).

The memory allocations of one call are numbered; an oracle says which succeed. The caller's two variables may hold anything before
the call.
-/

namespace Verif.Discover

/-- The answer to a request: the fields of the message, `none` for a field that is missing, and in the list `none` for an item that
is no text. A `count` that is no number reads as 0 (`valueint`). -/
structure Reply where
  result : Option Int := none
  count : Option (BitVec 32)
  items : List (Option Bytes)
  deriving DecidableEq, Repr

/-- A place in the array given to the caller. -/
inductive Cell where
  | text (s : Bytes)
  | null
  | garbage
  deriving DecidableEq, Repr

/-- The caller's pointer after the call. -/
inductive Slot where
  | untouched
  | null
  /-- An array of its own. -/
  | array (cells : List Cell)
  /-- An array that has been freed. -/
  | dangling
  deriving DecidableEq, Repr

/-- `rbusCoreError_t` as far as it occurs here (rbuscore.h). -/
inductive Code where
  | success | general | noMemory | malformed | invalidState | invalidParam
  deriving DecidableEq, Repr

/-- The result of a call: the code, the caller's counter (`none` if it was not written) and pointer (blocks
allocated are freed or in the caller's array). -/
structure Out where
  code : Code
  count : Option Int
  slot : Slot
  deriving DecidableEq, Repr

/-- `strndup(value, MAX_OBJECT_NAME_LENGTH)` (rbuscore.h:28, rtMessageHeader.h:31). -/
def strndup (s : Bytes) : Bytes := s.take 256

/-- The loop that copies the names `i`, `i + 1`, …: `none` when one cannot be read or copied, `.ub` when an item is no text and
`strndup` is given NULL. `reads` is how many names it goes for (rbuscore.c:1931-1942, 2016-2029, 2091-2102, 2277-2288). -/
def copy (mem : Nat → Bool) (items : List (Option Bytes)) : Nat → Nat → Res (Option (List Bytes))
  | _, 0 => .ok (some [])
  | i, reads + 1 =>
    match items[i]? with
    | none => .ok none
    | some none => .ub
    | some (some s) =>
      if mem (i + 1) then do
        let rest ← copy mem items (i + 1) reads
        return rest.map (strndup s :: ·)
      else .ok none

/-- What to do when a name cannot be copied: the caller's pointer is set to NULL by one of them only. -/
inductive Undo where
  | leave | clear
  deriving DecidableEq, Repr

/-- Allocating `size` places, zeroing `zeroed` of them and copying `reads` names into them. -/
def fill (mem : Nat → Bool) (items : List (Option Bytes)) (size : Int) (zeroed reads : Nat) (undo : Undo) (before : Slot) : Res Out :=
  if 0 ≤ size ∧ mem 0 then
    if size < zeroed then .ub
    else do
      let r ← copy mem items 0 reads
      match r with
      | some names =>
        return ⟨.success, some size, .array (names.map .text ++ List.replicate (zeroed - reads) .null ++
          List.replicate (size.toNat - zeroed) .garbage)⟩
      | none => return ⟨.general, some size, (if undo = .clear then .null else .dangling)⟩
  else return ⟨.noMemory, some size, before⟩

/-- `rbus_discoverRegisteredComponents` (rbuscore.c:2240-2306); `reply = none` when no answer came. -/
def components (connected : Bool) (mem : Nat → Bool) (reply : Option Reply) : Res Out :=
  if connected = false then .ok ⟨.invalidState, none, .untouched⟩
  else
    match reply with
    | none => .ok ⟨.general, none, .untouched⟩
    | some r =>
      match r.count with
      | none => .ub
      | some size => fill mem r.items size.toInt r.items.length r.items.length .leave .untouched

/-- `rbus_discoverWildcardDestinations` (rbuscore.c:1880-1965). -/
def wildcard (connected : Bool) (mem : Nat → Bool) (reply : Option Reply) : Res Out :=
  if connected = false then .ok ⟨.invalidState, none, .untouched⟩
  else
    match reply with
    | none => .ok ⟨.malformed, none, .untouched⟩
    | some r =>
      if r.result = some 0 then
        match r.count with
        | none => .ub
        | some size =>
          if size.toInt ≠ 0 ∧ r.items.length ≠ 0 then
            fill mem r.items size.toInt r.items.length r.items.length .leave .untouched
          else .ok ⟨.success, none, .untouched⟩
      else .ok ⟨.general, none, .untouched⟩

/-- `rbus_discoverObjectElements` (rbuscore.c:1967-2047). -/
def elements (connected : Bool) (mem : Nat → Bool) (reply : Option Reply) : Res Out :=
  if connected = false then .ok ⟨.invalidState, none, .untouched⟩
  else
    match reply with
    | none => .ok ⟨.general, none, .untouched⟩
    | some r =>
      match r.count with
      | none => .ub
      | some size =>
        if size.toInt ≠ 0 ∧ r.items.length ≠ 0 then
          fill mem r.items size.toInt r.items.length r.items.length .clear .null
        else .ok ⟨.success, some size.toInt, .null⟩

/-- `rbus_discoverElementObjects` (rbuscore.c:2049-2123): without a connection the request fails. A negative number is refused by
`malloc`. -/
def objects (connected : Bool) (mem : Nat → Bool) (reply : Option Reply) : Res Out :=
  if connected = false then .ok ⟨.malformed, none, .untouched⟩
  else
    match reply with
    | none => .ok ⟨.malformed, none, .untouched⟩
    | some r =>
      if r.result = some 0 then
        let size := (r.count.getD 0).toInt
        if size ≠ 0 then fill mem r.items size size.toNat size.toNat .leave .untouched
        else .ok ⟨.success, some 0, .untouched⟩
      else .ok ⟨.general, none, .untouched⟩

/-- `rbus_discoverComponentDataElements` (rbus.c:3442-3462): the caller's variables are set to 0 and NULL first. The code is
`RBUS_ERROR_SUCCESS` or `RBUS_ERROR_BUS_ERROR`. -/
def dataElements (connected : Bool) (mem : Nat → Bool) (reply : Option Reply) : Res (Bool × Int × Slot) := do
  let o ← elements connected mem reply
  return (o.code = .success, o.count.getD 0, if o.slot = .untouched then .null else o.slot)

/-- The message for an answer of the router (rtrouted.c:889-1152): the count is set, and a list is there if something was added to
it. For several names asked for, each sets the count anew. -/
def replyOf : Router.Content → Option Reply
  | .components l => some ⟨none, some (BitVec.ofNat 32 l.length), l.map some⟩
  | .wildcard none => some ⟨some 1, none, []⟩
  | .wildcard (some l) => some ⟨some 0, some (BitVec.ofNat 32 l.length), l.map some⟩
  | .elements l => some ⟨none, some (BitVec.ofNat 32 l.length), l.map some⟩
  | .objects none => some ⟨some 1, none, []⟩
  | .objects (some (ns, l)) => some ⟨some 0, ns.getLast?.map (BitVec.ofNat 32), l.map some⟩
  | _ => none

end Verif.Discover
