import Verif.Model.Compare

/-!
# Model of `src/rbus/rbus_filter.c`
-/

namespace Verif.Filter

open Verif Verif.Buffer Verif.Value

/-- `rbusFilter_t` (rbus_filter.c:29-52): a pointer, NULL (`null`) or to a relation or logic
expression. Operators are the numbers of the C enums, which are not range checked. The relation
value is a scalar. -/
inductive Filter where
  | null
  | relation (op : Nat) (v : Scalar)
  | logic (op : Nat) (left right : Filter)
  deriving DecidableEq, Repr

/-- `rbusFilter_RelationOperator_t` (include/rbus_filter.h). -/
def opGT : Nat := 0
def opGE : Nat := 1
def opLT : Nat := 2
def opLE : Nat := 3
def opEQ : Nat := 4
def opNE : Nat := 5

/-- `rbusFilter_LogicOperator_t` (include/rbus_filter.h). -/
def opAND : Nat := 0
def opOR : Nat := 1
def opNOT : Nat := 2

/-- The switch of `rbusFilter_RelationApply` (rbus_filter.c:121-137) on the comparison result. -/
def relHolds (op : Nat) (c : Ordering) : Bool :=
  match op with
  | 0 => c == .gt
  | 1 => c != .lt
  | 2 => c == .lt
  | 3 => c != .gt
  | 4 => c == .eq
  | 5 => c != .eq
  | _ => false

/-- `rbusFilter_Apply`, `rbusFilter_RelationApply`, `rbusFilter_LogicApply`
(rbus_filter.c:116-177). -/
def apply (sc : Bool) : Filter → Scalar → Res Bool
  | .null, _ => .ok false
  | .relation op fv, v => do
    let c ← compare sc v fv
    pure (relHolds op c)
  | .logic op l r, v => do
    let lv ← apply sc l v
    let rv ← if op ≠ opNOT then apply sc r v else .ok false
    if op = opAND then pure (lv && rv)
    else if op = opOR then pure (lv || rv)
    else if op = opNOT then pure (!lv)
    else pure false

/-- `rbusBuffer_WriteUInt32TLV` (rbus_buffer.c:202-206). -/
def writeU32 (b : Buf) (n : Nat) : Buf := writeTLV b Ty.uint32.code 4 (leBytes 4 n)

/-- `rbusFilter_Encode` (rbus_filter.c:220-235). NULL writes nothing. -/
def encode (b : Buf) : Filter → Res Buf
  | .null => .ok b
  | .relation op v => Value.encode (writeU32 (writeU32 b 0) op) v
  | .logic op l r => do
    let b ← encode (writeU32 (writeU32 b 1) op) l
    encode b r

/-- The three reads and the check that open `rbusFilter_Decode` and repeat for the operator
(rbus_filter.c:248-258, 262-272, 281-291). -/
def readU32 (b : Buf) : Res (Nat × Buf) := do
  let (t, b) ← readLE b 2
  let (n, b) ← readLE b 2
  if t = Ty.uint32.code ∧ n = 4 then readLE b 4 else .fail

/-- `rbusFilter_Decode` (rbus_filter.c:237-303). An expression type other than 0 and 1 returns the
uninitialised local `filter` (line 301): `ub`. Both operands are always decoded. `fuel` bounds the
recursion depth; it is given as the buffer size, which no run reaches since each level consumes 16
bytes. -/
def decodeF : Nat → Buf → Res (Filter × Buf)
  | 0, _ => .ub
  | fuel + 1, b => do
    let (ft, b) ← readU32 b
    if ft = 0 then do
      let (op, b) ← readU32 b
      let (v, b) ← Value.decode b
      pure (.relation op v, b)
    else if ft = 1 then do
      let (op, b) ← readU32 b
      let (l, b) ← decodeF fuel b
      let (r, b) ← decodeF fuel b
      pure (.logic op l r, b)
    else .ub

/-- `rbusFilter_Decode` as called. -/
def decode (b : Buf) : Res (Filter × Buf) := decodeF (b.alloc + 1) b

/-- `rbusFilter_Compare` (rbus_filter.c:305-346), as the sign of the result; `NULL` after all
non-NULL ones. -/
def cmp (sc : Bool) : Filter → Filter → Res Ordering
  | .relation o1 v1, .relation o2 v2 =>
    if o1 = o2 then compare sc v1 v2 else if o1 < o2 then .ok .gt else .ok .lt
  | .logic o1 l1 r1, .logic o2 l2 r2 =>
    if o1 = o2 then do
      let c ← cmp sc l1 l2
      if c ≠ .eq then pure c else cmp sc r1 r2
    else if o1 < o2 then .ok .gt else .ok .lt
  | .relation _ _, .logic _ _ _ => .ok .gt
  | .logic _ _ _, .relation _ _ => .ok .lt
  | .null, .null => .ok .eq
  | _, .null => .ok .gt
  | .null, _ => .ok .lt

end Verif.Filter
