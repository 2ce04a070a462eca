import Verif.Model.Base64

/-!
# Model of `src/rtmessage/rtMessage.c`: the fields of a message

The library keeps the fields in a tree of cJSON, a library that is not part of this one. Of cJSON this is modelled as it is
documented: an item has a type, a text, a number and children with or without name; a new child is put behind the others; looking
for a child by name gives the first one, case ignored; replacing and deleting free what was there. Texts of cJSON (`rtMessage_FromBytes`,
`rtMessage_ToByteArray`) are left out. Allocation succeeds. Copies (`cJSON_Duplicate`) are values here.
-/

namespace Verif.Json

open Verif

/-- Types of items (cJSON.h). -/
inductive Kind where
  | isNull
  | isFalse
  | isTrue
  | number
  | text
  | array
  | object
  deriving DecidableEq

/-- An item of cJSON: type, `valuestring`, `valuedouble`, children. -/
inductive Item where
  | mk (kind : Kind) (text : Option Bytes) (number : BitVec 64) (kids : List (Option Bytes × Item))

def Item.kind : Item → Kind
  | .mk k _ _ _ => k
def Item.text : Item → Option Bytes
  | .mk _ t _ _ => t
def Item.number : Item → BitVec 64
  | .mk _ _ d _ => d
def Item.kids : Item → List (Option Bytes × Item)
  | .mk _ _ _ l => l

/-- Conversions between `int` and `double`, the second as cJSON does it for `valueint`. -/
structure Conv where
  ofInt : BitVec 32 → BitVec 64
  toInt : BitVec 64 → BitVec 32

/-- `tolower` in the C locale. -/
def lower (c : UInt8) : UInt8 := if 65 ≤ c ∧ c ≤ 90 then c + 32 else c

/-- Names compared as `cJSON_GetObjectItem` does. -/
def same (a b : Bytes) : Bool := a.map lower = b.map lower

/-- `cJSON_GetObjectItem`: the first child with this name. -/
def find (m : Item) (name : Bytes) : Option Item :=
  (m.kids.find? (fun k => k.1.any (same name))).map (·.2)

/-- `cJSON_AddItemToObject` and `cJSON_AddItemToArray`. -/
def append (m : Item) (name : Option Bytes) (x : Item) : Item := .mk m.kind m.text m.number (m.kids ++ [(name, x)])

/-- Adding to the first child with this name. -/
def appendTo (name : Bytes) (x : Item) : List (Option Bytes × Item) → List (Option Bytes × Item)
  | [] => []
  | k :: l => if k.1.any (same name) then (k.1, append k.2 none x) :: l else k :: appendTo name x l

/-- The functions that create items of cJSON. -/
def ofText (s : Bytes) : Item := .mk .text (some s) 0 []
def ofBool (b : Bool) : Item := .mk (if b then .isTrue else .isFalse) none 0 []
def ofNumber (d : BitVec 64) : Item := .mk .number none d []
def newArray : Item := .mk .array none 0 []

/-- `rtMessage_Create` (rtMessage.c:45-77). -/
def create : Item := .mk .object none 0 []

/-- The text "_topic". -/
def topicName : Bytes := "_topic".toUTF8.data.toList

/-- The functions that change a message. `none` is a NULL pointer. Items without tree are left out. -/
inductive Op where
  | setString (name : Bytes) (v : Option Bytes)
  | setInt32 (name : Bytes) (v : BitVec 32)
  | setBool (name : Bytes) (b : Bool)
  | setDouble (name : Bytes) (d : BitVec 64)
  | setMessage (name : Bytes) (item : Option Item)
  | addString (name : Bytes) (v : Option Bytes)
  | addMessage (name : Bytes) (item : Option Item)
  | addBinary (name : Bytes) (bs : Bytes)
  | setTopic (topic : Bytes)

/-- The part that `rtMessage_AddString` (rtMessage.c:465-476) and `rtMessage_AddMessage` (510-528) share: an array is made if there
is no such field, and the item, if there is one, is put into the field. -/
def addTo (m : Item) (name : Bytes) (x : Option Item) : Item :=
  let m := match find m name with
    | some _ => m
    | none => append m (some name) newArray
  match x with
  | some x => .mk m.kind m.text m.number (appendTo name x m.kids)
  | none => m

/-- One function that changes a message, and its code: `rtMessage_SetString` (rtMessage.c:219-223), where a NULL text gives no item;
`rtMessage_SetInt32` (232-237), `rtMessage_SetBool` (239-244), `rtMessage_SetDouble` (264-269), `rtMessage_SetMessage` (278-289),
`rtMessage_AddString` (465-476), `rtMessage_AddMessage` (510-528), `rtMessage_AddBinaryData` (486-502), and `rtMessage_SetSendTopic` (445-456), which frees a topic that was there twice: replacing an item frees it, and so does the call behind it. -/
def step (c : Conv) (m : Item) : Op → Res (Item × Nat)
  | .setString name (some s) => .ok (append m (some name) (ofText s), 0)
  | .setString _ none => .ok (m, 0)
  | .setInt32 name v => .ok (append m (some name) (ofNumber (c.ofInt v)), 0)
  | .setBool name b => .ok (append m (some name) (ofBool b), 0)
  | .setDouble name d => .ok (append m (some name) (ofNumber d), 0)
  | .setMessage name (some x) => .ok (append m (some name) x, 0)
  | .setMessage _ none => .ok (m, 3)
  | .addString name v => .ok (addTo m name (v.map ofText), 0)
  | .addMessage name (some x) => .ok (addTo m name (some x), 0)
  | .addMessage _ none => .ok (m, 3)
  | .addBinary name bs =>
    match Base64.encode bs with
    | .ok (t, _) => .ok (append m (some name) (ofText t), 0)
    | .fail => .ok (m, 1)
    | .ub => .ub
  | .setTopic t =>
    match find m topicName with
    | some _ => .ub
    | none => .ok (append m (some topicName) (ofText t), 0)

/-- A sequence of these. -/
def run (c : Conv) (m : Item) : List Op → Res Item
  | [] => .ok m
  | op :: ops => do
    let (m, _) ← step c m op
    run c m ops

/-- `rtMessage_GetString` (rtMessage.c:298-308): the code, and what is stored, if anything is; the text may be NULL. -/
def getString (m : Item) (name : Bytes) : Nat × Option (Option Bytes) :=
  match find m name with
  | some x => (0, some x.text)
  | none => (1, none)

/-- `rtMessage_GetBool` (rtMessage.c:246-255). -/
def getBool (m : Item) (name : Bytes) : Nat × Option Bool :=
  match find m name with
  | some x => (0, some (x.kind = .isTrue))
  | none => (1, none)

/-- `rtMessage_GetInt32` (rtMessage.c:368-378). -/
def getInt32 (c : Conv) (m : Item) (name : Bytes) : Nat × Option (BitVec 32) :=
  match find m name with
  | some x => (0, some (c.toInt x.number))
  | none => (1, none)

/-- `rtMessage_GetDouble` (rtMessage.c:387-397). -/
def getDouble (m : Item) (name : Bytes) : Nat × Option (BitVec 64) :=
  match find m name with
  | some x => (0, some x.number)
  | none => (1, none)

/-- `rtMessage_GetMessage` (rtMessage.c:406-419). -/
def getMessage (m : Item) (name : Bytes) : Nat × Option Item :=
  match find m name with
  | some x => (0, some x)
  | none => (6, none)

/-- `rtMessage_GetBinaryData` (rtMessage.c:318-334); the length of a NULL text is undefined. -/
def getBinary (m : Item) (name : Bytes) : Res (Nat × Option Bytes) :=
  match find m name with
  | some x =>
    match x.text with
    | none => .ub
    | some t =>
      match Base64.decode t with
      | .ok (bs, _) => .ok (0, some bs)
      | .fail => .ok (1, none)
      | .ub => .ub
  | none => .ok (1, none)

/-- `rtMessage_GetStringValue` (rtMessage.c:343-359): the text stored in a buffer of `n` bytes, without its NUL. With `n` 0 nothing
is stored. -/
def getStringValue (m : Item) (name : Bytes) (n : Nat) : Res (Nat × Option Bytes) :=
  match find m name with
  | some x =>
    match x.text with
    | none => .ub
    | some t => if t.length ≤ n then .ok (0, if n = 0 then none else some (t.take (n - 1))) else .ok (1, none)
  | none => .ok (1, none)

/-- `rtMessage_GetSendTopic` (rtMessage.c:427-437) into a buffer of `n` bytes: `strcpy`. -/
def getTopic (m : Item) (n : Nat) : Res (Nat × Option Bytes) :=
  match find m topicName with
  | some x =>
    match x.text with
    | none => .ub
    | some t => if t.length < n then .ok (0, some t) else .ub
  | none => .ok (1, none)

/-- `rtMessage_GetArrayLength` (rtMessage.c:537-546). -/
def arrayLength (m : Item) (name : Bytes) : Nat :=
  match find m name with
  | some x => x.kids.length
  | none => 0

/-- `rtMessage_GetStringItem` (rtMessage.c:557-573). -/
def stringItem (m : Item) (name : Bytes) (i : Int) : Nat × Option (Option Bytes) :=
  match find m name with
  | some x =>
    if (x.kids.length : Int) ≤ i then (1, none)
    else if i < 0 then (1, none)
    else
      match x.kids[i.toNat]? with
      | some y => (0, some y.2.text)
      | none => (1, none)
  | none => (6, none)

/-- `rtMessage_GetMessageItem` (rtMessage.c:583-598): with a negative index, a message without tree. -/
def messageItem (m : Item) (name : Bytes) (i : Int) : Nat × Option (Option Item) :=
  match find m name with
  | some x =>
    if (x.kids.length : Int) ≤ i then (1, none)
    else if i < 0 then (0, some none)
    else (0, some ((x.kids[i.toNat]?).map (·.2)))
  | none => (6, none)

end Verif.Json
