import Verif.Model.Cells

/-!
# What a program may do with values, and what they then hold

No memory: a value is what was put into it last, and how often it was retained. The calls and what they tell are
those of `Verif.Cells` (`Op`, `Out`). `act` gives `none` where the program may not make the call.
-/

namespace Verif.Spec.Cells

open Verif Verif.Cells

/-- The bytes of a number of the type; a date is eleven 32-bit numbers and a `bool`, padded. -/
def width : Kind → Nat
  | .boolean | .char | .byte | .int8 | .uint8 => 1
  | .int16 | .uint16 => 2
  | .int32 | .uint32 | .single => 4
  | .int64 | .uint64 | .double => 8
  | .dateTime => 48

/-- What a value holds; a text without its zero byte, NULL texts and NULL bytes are `none`. -/
inductive Content where
  | empty
  | plain (k : Kind) (bs : Bytes)
  | text (t : Option Bytes)
  | bytes (t : Option Bytes)
  | part (k : Part) (r : Option Nat)
  deriving DecidableEq, Repr

/-- Its type. -/
def Content.tag : Content → Tag
  | .empty => .empty
  | .plain k _ => .plain k
  | .text _ => .string
  | .bytes _ => .bytes
  | .part k _ => .part k

/-- The property or object it holds. -/
def Content.ref : Content → Option Nat
  | .part _ r => r
  | _ => none

/-- Its bytes; of a NULL text they may not be asked for. -/
def Content.data : Content → Option Bytes
  | .empty => some []
  | .plain _ bs => some bs
  | .text t => t.map (· ++ [0])
  | .bytes t => t
  | .part _ _ => some []

/-- What all values hold and how often they are retained (`none`: freed); how often the program itself holds each
property or object. -/
structure Sheet where
  next : Nat
  val : Nat → Option (Content × Nat)
  nextRef : Nat
  held : Nat → Nat

/-- Nothing. -/
def Sheet.init : Sheet := ⟨0, fun _ => none, 0, fun _ => 0⟩

/-- One value holds something else, or is freed. -/
def Sheet.set (A : Sheet) (v : Nat) (x : Option (Content × Nat)) : Sheet := { A with val := upd A.val v x }

/-- A living value now holds `x`. -/
def Sheet.fill (A : Sheet) (v : Nat) (x : Content) : Option Sheet :=
  match A.val v with
  | some (_, n) => some (A.set v (some (x, n)))
  | none => none

/-- The bytes given to a setter of `v`: not those of `v` itself. -/
def Sheet.source (A : Sheet) (v : Nat) : Src → Option Bytes
  | .own bs => some bs
  | .of w =>
    if w = v then none
    else
      match A.val w with
      | some (x, _) => x.data
      | none => none

/-- A text or bytes may be put into `v`: it holds no property or object, and the length fits. -/
def Sheet.free (A : Sheet) (v : Nat) (bs : Bytes) : Bool :=
  match A.val v with
  | some (x, _) => x.ref = none && bs.length + 66 < 2147483648
  | none => false

/-- A text up to the first zero byte, which must be there. -/
def setText (A : Sheet) (v : Nat) (src : Src) : Option Sheet :=
  match A.source v src with
  | some bs =>
    let t := bs.takeWhile (· ≠ 0)
    if 0 ∈ bs ∧ A.free v t then A.fill v (.text (some t)) else none
  | none => none

/-- The first `len` bytes. -/
def setBytes (A : Sheet) (v : Nat) (src : Src) (len : Nat) : Option Sheet :=
  match A.source v src with
  | some bs => if len ≤ bs.length ∧ A.free v (bs.take len) then A.fill v (.bytes (some (bs.take len))) else none
  | none => none

/-- The bytes of a value of the type. -/
def setPlain (A : Sheet) (v : Nat) (k : Kind) (len : Nat) (src : Src) : Option Sheet :=
  match A.source v src with
  | some bs => if len = width k ∧ len ≤ bs.length then A.fill v (.plain k (bs.take len)) else none
  | none => none

/-- A call that tells nothing. -/
def quiet (A : Option Sheet) : Option (Sheet × Out) := A.map fun A => (A, .done)

/-- What a getter tells about a value. -/
def Sheet.ask (A : Sheet) (v : Nat) (f : Content → Option Out) : Option (Sheet × Out) :=
  match A.val v with
  | some (x, _) => (f x).map fun o => (A, o)
  | none => none

/-- What the getters of texts tell; `zero` is added to texts. -/
def textTold (zero : Bytes) : Content → Out
  | .text t => .text (t.map (· ++ zero))
  | .bytes t => .text t
  | _ => .wrongType

/-- One call. -/
def act (A : Sheet) : Op → Option (Sheet × Out)
  | .new => some ({ A.set A.next (some (.empty, 1)) with next := A.next + 1 }, .done)
  | .retain v =>
    match A.val v with
    | some (x, n) => some (A.set v (some (x, n + 1)), .done)
    | none => none
  | .release v =>
    match A.val v with
    | some (x, n) => some (A.set v (if n = 1 then none else some (x, n - 1)), .done)
    | none => none
  | .setPlain v k bs => quiet (if bs.length = width k then A.fill v (.plain k bs) else none)
  | .setString v src => quiet (setText A v src)
  | .setBytes v src len => quiet (setBytes A v src len)
  | .setNull v string => quiet (A.fill v (if string then .text none else .bytes none))
  | .setPart v k r =>
    quiet (match r with
      | none => A.fill v (.part k none)
      | some r => if 0 < A.held r then A.fill v (.part k (some r)) else none)
  | .setTLV v t len src =>
    quiet (match t with
      | .string => setText A v src
      | .bytes => setBytes A v src len
      | .plain k => setPlain A v k len src
      | _ => none)
  | .copy dest source =>
    match A.val source with
    | some (x, _) =>
      if dest = source then some (A, .done)
      else if x.tag = .part .property ∨ x.tag = .part .object then none
      else quiet (A.fill dest x)
    | none => none
  | .newPart => some ({ A with nextRef := A.nextRef + 1, held := upd A.held A.nextRef 1 }, .done)
  | .grab v k =>
    match A.val v with
    | some (.part k' r, _) =>
      if k' = k then
        some (match r with
          | none => A
          | some r => { A with held := upd A.held r (A.held r + 1) }, .done)
      else none
    | _ => none
  | .releasePart r =>
    if 0 < A.held r then some ({ A with held := upd A.held r (A.held r - 1) }, .done) else none
  | .getType v => A.ask v fun x => some (.tag x.tag)
  | .getPlain v k => A.ask v fun x =>
      match x with
      | .plain k' bs => some (if k' = k then .plain bs else .wrongType)
      | _ => some .wrongType
  | .getString v => A.ask v fun x => some (textTold [] x)
  -- only texts, bytes and NULL
  | .getStringAny v => A.ask v fun x =>
      match x with
      | .text t => some (.text t)
      | .bytes t => some (.text t)
      | .empty => some (.text none)
      | .part _ none => some (.text none)
      | _ => none
  | .getBytes v => A.ask v fun x => some (textTold [0] x)
  | .getPart v k => A.ask v fun x =>
      match x with
      | .part k' r => some (if k' = k then .part r else .wrongType)
      | _ => some .wrongType
  | .getTLV v => A.ask v fun x => x.data.map (.tlv x.tag)

/-- The calls in turn, and what they tell. -/
def run (A : Sheet) : List Op → Option (Sheet × List Out)
  | [] => some (A, [])
  | op :: ops =>
    match act A op with
    | none => none
    | some (A, o) =>
      match run A ops with
      | none => none
      | some (A, os) => some (A, o :: os)

/-- Does a value hold the property or object `r`? -/
def Sheet.holds (A : Sheet) (r v : Nat) : Bool :=
  match A.val v with
  | some (x, _) => x.ref == some r
  | none => false

/-- How many values hold it. -/
def Sheet.holders (A : Sheet) (r : Nat) : Nat := (List.range A.next).countP (A.holds r)

/-- The value that a call puts something into. -/
def target : Op → Option Nat
  | .setPlain v _ _ | .setString v _ | .setBytes v _ _ | .setNull v _ | .setPart v _ _ | .setTLV v _ _ _ => some v
  | .copy dest _ => some dest
  | _ => none

end Verif.Spec.Cells
