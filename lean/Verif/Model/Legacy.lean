import Verif.Model.SetGet
import Verif.Model.FloatText
import Verif.Model.DateText

/-!
# Model of values as older components send them

rbus.c:80-95, 408-478, 496-631, 1520-1548, 3508-3548, 3562-3610. An older component sends a number from 0 to 11 for the type,
and every value as a text.
-/

namespace Verif.Legacy

open Verif Verif.Message Verif.Value Verif.Wire Verif.SetGet

/-- What depends on the machine and the C library: the bits of `long`, conversions and rounding of floating-point numbers, and
what `strptime` computes. -/
structure Libs where
  long : Nat
  conv : FloatConv
  single : FloatText.Rounding FloatText.single
  double : FloatText.Rounding FloatText.double
  dates : DateText.Rest

/-- `rbusValue_SetFromString` (rbus_value.c:1065-1273) for all types; `none`: the result is `false`. Texts of floating-point
numbers in hexadecimal notation are not considered. -/
def setFromString (L : Libs) (ty : Ty) (s : Bytes) : Option Scalar :=
  match ty with
  | .single => (FloatText.fromText FloatText.single L.single s).map .single
  | .double => (FloatText.fromText FloatText.double L.double s).map .double
  | .datetime => (DateText.fromText L.dates s).map .datetime
  | ty => Text.setFromString L.long ty s

/-- `_parse_rbusData_to_value` (rbus.c:408-478), with the enumerators of rbus.c:80-95; NULL is `none`. -/
def parse (L : Libs) (code : Nat) (text : Option Bytes) : Option Scalar :=
  match text with
  | none => none
  | some s =>
    match code with
    | 0 => setFromString L .string s
    | 1 => setFromString L .int32 s
    | 2 => setFromString L .uint32 s
    | 3 => setFromString L .boolean s
    | 6 => setFromString L .int64 s
    | 7 => setFromString L .uint64 s
    | 8 => setFromString L .single s
    | 9 => setFromString L .double s
    | 10 => setFromString L .byte s
    | 4 => setFromString L .datetime s
    | 5 => some (.bytes (some s))
    | _ => none

/-- `rbusMessage_GetString` with its error return ignored and a pointer initialised to NULL, which is `none` here
(rbus.c:503, 519; rbuscore_message.c:190-195). -/
def getStringP (bs : Bytes) : Res (Option Bytes × Bytes) :=
  match unpackNext bs with
  | some (.str s, r) => if s.contains 0 then .ok (some (s.takeWhile (· ≠ 0)), r) else .ub
  | some (_, r) => .ok (none, r)
  | none => .ok (none, bs)

/-- `rbusValue_initFromMessage` (rbus.c:496-607): whether it succeeds, the value, and what follows. A value that could not be
set stays as `rbusValue_Init` made it, without a type. Values inside objects and properties are those of `Wire.readVal`. -/
def readValue (L : Libs) (bs : Bytes) : Res (Bool × WVal × Bytes) := do
  let (t, r) ← orUb (getInt32 bs)
  if 0 ≤ t.toInt ∧ t.toInt ≤ 11 then do
    let (text, r) ← getStringP r
    match parse L t.toNat text with
    | some v => pure (true, .scalar v, r)
    | none => pure (false, .scalar .none, r)
  else do
    let (v, r) ← Wire.readValue L.conv bs
    pure (true, v, r)

/-- `rbusProperty_initFromMessage` (rbus.c:609-631). -/
def readProperty (L : Libs) (bs : Bytes) : Res (Bool × (Bytes × WVal) × Bytes) := do
  let (name, r) ← getStringU bs
  let (ok, v, r) ← readValue L r
  pure (ok, (name, v), r)

/-- The loops that read `n` properties (rbus.c:1532-1535, 3589-3606): whether the last of them was read well (so if there
is none), the properties, and what follows. -/
def readProperties (L : Libs) : Nat → Bytes → Res (Bool × List (Bytes × WVal) × Bytes)
  | 0, bs => .ok (true, [], bs)
  | n + 1, bs => do
    let (ok, p, bs) ← readProperty L bs
    let (ok', ps, bs) ← readProperties L n bs
    pure (if n = 0 then ok else ok', p :: ps, bs)

/-- How `rbus_get` reads the response (rbus.c:3508-3556): the code and the value stored. -/
def takeGet (L : Libs) (n : Bytes) (m : Bytes) : Res (BitVec 32 × Option WVal) := do
  let (code, bs) := Method.getCode (-1) m
  if readCode code = 0 then do
    let (_, bs) := Method.getCode 0 bs
    let (b, bs) ← getStringP bs
    if b = some n then do
      let (_, v, _) ← readValue L bs
      pure (0, some v)
    else pure (8, none)
  else pure (readCode code, none)

/-- `_getExt_response_parser` (rbus.c:3562-3618): the code and the properties. -/
def takeGetExt (L : Libs) (m : Bytes) : Res (BitVec 32 × List (Bytes × WVal)) := do
  let (code, bs) := Method.getCode (-1) m
  if readCode code = 0 then do
    let (n, bs) := getInt32Z bs
    let (_, ps, _) ← readProperties L n.toInt.toNat bs
    pure (0, ps)
  else pure (readCode code, [])

/-- The first part of `_set_callback_handler` (rbus.c:1517-1548): the code if the request goes no further, or the request. -/
def takeSet (L : Libs) (bs : Bytes) : Res (BitVec 32 ⊕ SetRequest) := do
  let (session, bs) := getInt32Z bs
  let (comp, bs) ← getStringN bs
  let (rollBack, bs) := getInt32Z bs
  let (n, bs) := getInt32Z bs
  if 0 < n.toInt then do
    let (ok, ps, bs) ← readProperties L n.toInt.toNat bs
    if ok then do
      let (c, _) ← getStringU bs
      pure (.inr ⟨session, comp, decide (rollBack = 1), ps, saysTrue c⟩)
    else pure (.inl 2)
  else pure (.inl 2)

end Verif.Legacy
