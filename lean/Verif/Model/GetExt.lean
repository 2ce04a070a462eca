import Verif.Model.Params

/-!
# Model of getting one name (src/rbus/rbus.c): `rbus_get`, and `rbus_getExt` with a wildcard

The consumer's side; what the providers answer is in `Params`. Private connections, logging and allocation failures are left
out. That the pointer the result goes to may hold anything before the call, and that lists of values are freed, is modelled.
-/

namespace Verif.GetExt

open Verif Verif.Params

/-- `_is_valid_get_query` (rbus.c:953-978). For the empty name the byte before the string is read; that case is taken as
"none of these". -/
def validQuery (n : Name) : Bool := !(n.getLast? = some 33 || n.getLast? = some 41 || n.contains 40)

/-- `rbus_get` (rbus.c:3465-3560) on a regular handle: the code and, with success, the value. The first value of the answer
is taken, if it has the name asked for. -/
def getOne (w : World) (n : Name) : World × Nat × Option Value :=
  if !validQuery n then (w, eInvalidInput, none)
  else if isWildcard n then (w, eAccess, none)
  else
    match w.routes n with
    | [] => (w, coreToRbus .notFound, none)
    | c :: _ =>
      match invoke w c (fun p => handleGet p [n]) (·.code) with
      | (w', .inl e) => (w', coreToRbus e, none)
      | (w', .inr r) =>
        if isSuccess r.code then
          match r.props with
          | (m, v) :: _ => if m = n then (w', eSuccess, some v) else (w', eInvalidResponse, none)
          | [] => (w', eInvalidResponse, none)
        else (w', readCode r.code, none)

/-- Where the caller's `*retProperties` points to: nowhere, to what the caller had there before, to a list of properties, to
memory that was freed. -/
inductive Ptr where
  | null
  | before
  | list (ps : List Prop')
  | freed
  deriving DecidableEq, Repr

/-- The result of `rbus_getExt`: the code, `*numValues` (`none`: not written) and `*retProperties`. -/
structure Result where
  code : Nat
  num : Option Nat
  ptr : Ptr
  deriving DecidableEq, Repr

/-- What a list of properties is as a pointer. -/
def toPtr (ps : List Prop') : Ptr := if ps = [] then .null else .list ps

/-- The values of the destination `i = 0` (rbus.c:3699-3710): the pointer is written if there are any. -/
def takeFirst (ptr : Ptr) (ps : List Prop') : Ptr := if ps = [] then ptr else .list ps

/-- The values of another destination (rbus.c:3712-3737); `last` says whether there were values before. If not, the pointer is
set to the new list, which is then released. Appending walks the list. -/
def takeNext (last : Bool) (ptr : Ptr) (ps : List Prop') : Res Ptr :=
  if ps = [] then .ok ptr
  else if last then
    match ptr with
    | .list old => .ok (.list (old ++ ps))
    | _ => .ub
  else .ok .freed

/-- The loop over the destinations (rbus.c:3679-3750): it ends with the first error. -/
def wildLoop (n : Name) : List Comp → (first last : Bool) → Nat → Ptr → World → World × Res Result
  | [], _, _, num, ptr, w => (w, .ok ⟨eSuccess, some num, ptr⟩)
  | c :: cs, first, last, num, ptr, w =>
    match invoke w c (fun p => handleGet p [n]) (·.code) with
    | (w', .inl e) => (w', .ok ⟨coreToRbus e, some num, ptr⟩)
    | (w', .inr r) =>
      if isSuccess r.code then
        if first then wildLoop n cs false (r.props ≠ []) (num + r.props.length) (takeFirst ptr r.props) w'
        else
          match takeNext last ptr r.props with
          | .ok ptr' => wildLoop n cs false (last || r.props ≠ []) (num + r.props.length) ptr' w'
          | .fail => (w', .fail)
          | .ub => (w', .ub)
      else (w', .ok ⟨readCode r.code, some num, ptr⟩)

/-- What is returned after the loop (rbus.c:3755-3763): success if the pointer is not NULL. `null` is whether the caller's
pointer was NULL before. -/
def wildCode (null : Bool) (r : Result) : Result :=
  let set : Bool := match r.ptr with
    | .null => false
    | .before => !null
    | _ => true
  if set ∧ r.code ≠ eSuccess then { r with code := eSuccess } else r

/-- `rbus_getExt` (rbus.c:3620-3902) on a regular handle with at least one name. `found` is what
`rbus_discoverWildcardDestinations` gives, `null` whether the caller's pointer was NULL before. -/
def getExt (w : World) (names : List Name) (found : Option (List Comp)) (null : Bool) : World × Res Result :=
  let many (num : Option Nat) : World × Res Result :=
    match discover w names with
    | (w', none) => (w', .ok ⟨eDestinationNotFound, num, .before⟩)
    | (w', some cs) =>
      match getBatches (batches (cs.zip names)) ⟨eSuccess, 0, []⟩ w' with
      | (w'', r) => (w'', .ok ⟨r.code, some r.num, toPtr r.props⟩)
  match names with
  | [n] =>
    if isWildcard n then
      match found with
      | none => (w, .ok ⟨eElementMissing, none, .before⟩)
      | some [] => many (some 0)
      | some cs =>
        match wildLoop n cs true false 0 .before w with
        | (w', .ok r) => (w', .ok (wildCode null r))
        | (w', .fail) => (w', .fail)
        | (w', .ub) => (w', .ub)
    else
      match getOne w n with
      | (w', c, some v) => (w', .ok ⟨c, some 1, .list [(n, v)]⟩)
      | (w', c, none) => (w', .ok ⟨c, some 0, .null⟩)
  | _ => many none

end Verif.GetExt
