import Verif.Model.Base

/-!
# Model of rtHashMap (src/rtmessage/rtHashMap.c)

A bucket is the list its vector holds (C26 justifies this). The hash function and the load test are
parameters, so that the theorems hold for every load factor and every hash function the user gives;
the default ones are below. Copying and destroying keys and values is the identity here.
-/

namespace Verif.HashMap

open Verif

/-- `struct _rtHashMap` (rtHashMap.c:37-48). -/
structure Map (K V : Type) where
  buckets : List (List (K × V))
  size : Nat

/-- The parts of `struct _rtHashMap` given at creation: `hash k n` is `key_hasher` for a table of `n`
buckets, `full size n` the test at line 237 and `sparse size n` the test at line 281. -/
structure Conf (K : Type) where
  hash : K → Nat → Nat
  full : Nat → Nat → Bool
  sparse : Nat → Nat → Bool

/-- `RTHASHMAP_INITSIZE` (rtHashMap.c:27). -/
def initSize : Nat := 16

/-- The test `(size+1) / (float)n > 0.75` (rtHashMap.c:237), computed exactly instead of in `float`. -/
def defaultFull (size n : Nat) : Bool := 3 * n < 4 * (size + 1)

/-- The test `size / n / 2.0f < 0.75` (rtHashMap.c:281), whose first division is between integers. -/
def defaultSparse (size n : Nat) : Bool := 2 * (size / n) < 3

/-- `rtHashMap_Create` (rtHashMap.c:127-183). -/
def create {K V} : Map K V := { buckets := List.replicate initSize [], size := 0 }

/-- `rtHashMap_GetBucket` (rtHashMap.c:50-59): the index of the bucket, `none` for NULL. -/
def getBucket {K V} (c : Conf K) (buckets : List (List (K × V))) (key : K) : Option Nat :=
  if buckets.length = 0 then none
  else if c.hash key buckets.length < buckets.length then some (c.hash key buckets.length)
  else none

/-- `rtVector_PushBack(rtHashMap_GetBucket(hashmap, key), node)` (rtHashMap.c:218, 244): pushing to
NULL is refused and the node is lost. -/
def pushNode {K V} (c : Conf K) (buckets : List (List (K × V))) (kv : K × V) :
    List (List (K × V)) :=
  match getBucket c buckets kv.1 with
  | some i => buckets.modify i (· ++ [kv])
  | none => buckets

/-- `rtHashMap_Resize` (rtHashMap.c:191-223). -/
def resize {K V} (c : Conf K) (buckets : List (List (K × V))) (grow : Bool) :
    List (List (K × V)) :=
  let next := if grow then buckets.length * 2 else buckets.length / 2
  buckets.flatten.foldl (pushNode c) (List.replicate next [])

/-- The node of a key in a bucket (`rtVector_Find` with `rtHashMap_Compare_Node`). -/
def findNode {K V} [DecidableEq K] (b : List (K × V)) (key : K) : Option (K × V) :=
  b.find? (fun kv => kv.1 = key)

/-- Lines 247-248 for an existing node: key and value are replaced in place. -/
def replaceNode {K V} [DecidableEq K] (key : K) (value : V) : List (K × V) → List (K × V)
  | [] => []
  | kv :: b => if kv.1 = key then (key, value) :: b else kv :: replaceNode key value b

/-- `rtHashMap_Set` (rtHashMap.c:225-249). Searching a NULL bucket is undefined. -/
def set {K V} [DecidableEq K] (c : Conf K) (m : Map K V) (key : K) (value : V) : Res (Map K V) :=
  match getBucket c m.buckets key with
  | none => .ub
  | some i =>
    match findNode (m.buckets.getD i []) key with
    | some _ => .ok { m with buckets := m.buckets.modify i (replaceNode key value) }
    | none =>
      let bs := if c.full m.size m.buckets.length then resize c m.buckets true else m.buckets
      .ok { buckets := pushNode c bs (key, value), size := m.size + 1 }

/-- `rtHashMap_Get` (rtHashMap.c:251-258) with `rtHashMap_GetNode` (81-88). -/
def get {K V} [DecidableEq K] (c : Conf K) (m : Map K V) (key : K) : Option V :=
  match getBucket c m.buckets key with
  | none => none
  | some i => (findNode (m.buckets.getD i []) key).map (·.2)

/-- `rtHashMap_Contains` (rtHashMap.c:265-272). -/
def contains {K V} [DecidableEq K] (c : Conf K) (m : Map K V) (key : K) : Bool :=
  match getBucket c m.buckets key with
  | none => false
  | some i => (findNode (m.buckets.getD i []) key).isSome

/-- `rtHashMap_Remove` (rtHashMap.c:274-287). -/
def remove {K V} [DecidableEq K] (c : Conf K) (m : Map K V) (key : K) : Res (Map K V × Bool) :=
  match getBucket c m.buckets key with
  | none => .ub
  | some i =>
    if (m.buckets.getD i []).any (fun kv => kv.1 = key) then
      let bs := m.buckets.modify i (List.eraseP (fun kv => kv.1 = key))
      let size := m.size - 1
      let bs := if bs.length > initSize && c.sparse size bs.length then resize c bs false else bs
      .ok ({ buckets := bs, size }, true)
    else .ok (m, false)

/-- The loop of `rtHashMap_Hash_Func_String` (rtHashMap.c:291-297): `hash * 31 + c` in `int`, where
overflow is undefined; characters are signed. -/
def hashLoop (hash : Int) : Bytes → Res Int
  | [] => .ok hash
  | ch :: rest =>
    let next := hash * 31 + (BitVec.ofNat 8 ch.toNat).toInt
    if -2 ^ 31 ≤ hash * 31 ∧ hash * 31 < 2 ^ 31 ∧ -2 ^ 31 ≤ next ∧ next < 2 ^ 31 then hashLoop next rest
    else .ub

/-- The same loop on a machine where `int` wraps around. -/
def hashWrap (hash : BitVec 32) : Bytes → BitVec 32
  | [] => hash
  | ch :: rest => hashWrap (hash * 31 + (BitVec.ofNat 8 ch.toNat).signExtend 32) rest

/-- `rtHashMap_Hash_Func_String` (rtHashMap.c:289-299). -/
def hashString (key : Bytes) (n : Nat) : Res Nat := do
  let h ← hashLoop 0 key
  if h = -2 ^ 31 ∨ n = 0 then .ub else pure (h.natAbs % n)

/-- The default configuration, on a machine where `int` wraps around. -/
def defaultConf : Conf Bytes where
  hash key n := (hashWrap 0 key).toInt.natAbs % n
  full := defaultFull
  sparse := defaultSparse

/-- What a user does with a map. -/
inductive Op (K V : Type) where
  | set (k : K) (v : V)
  | get (k : K)
  | contains (k : K)
  | remove (k : K)
  | size

/-- What an operation answers. -/
inductive Out (V : Type) where
  | unit
  | val (v : Option V)
  | flag (b : Bool)
  | num (n : Nat)
deriving DecidableEq

/-- One operation on the model. -/
def step {K V} [DecidableEq K] (c : Conf K) (m : Map K V) : Op K V → Res (Map K V × Out V)
  | .set k v => do let m ← set c m k v; pure (m, .unit)
  | .get k => pure (m, .val (get c m k))
  | .contains k => pure (m, .flag (contains c m k))
  | .remove k => do let (m, b) ← remove c m k; pure (m, .flag b)
  | .size => pure (m, .num m.size)

/-- A history of operations and its answers. -/
def run {K V} [DecidableEq K] (c : Conf K) (m : Map K V) : List (Op K V) → Res (Map K V × List (Out V))
  | [] => pure (m, [])
  | op :: ops => do
    let (m, o) ← step c m op
    let (m, os) ← run c m ops
    pure (m, o :: os)

end Verif.HashMap
