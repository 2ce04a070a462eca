import Verif.Model.Message

/-!
# Model of the file of private connections (src/core/rbuscore.c:373-383, 2478-2726, 2801-2851)

A provider writes the private connections it serves to a file whenever they change, and reads the file when
it starts. The file is named after the program (`__progname`), so all processes of one program share it.
Processes are numbers. Listening, the mutex and the connections themselves are in `Verif.PrivateServer`; here
an entry is its three names. Opening, reading and removing the file works; writing may put only a part on the
disk, as the result of `fwrite` is not looked at (line 2528). Messages the loop of `load` leaves unreleased
are left out, and so is whatever the file does to other programs with the same name.
-/

namespace Verif.DirectCache

open Verif Verif.Message

/-- The names in `rbusServerDMLList_t` (rbuscore.c:2434-2443). -/
structure Entry where
  address : Bytes
  consumer : Bytes
  element : Bytes
  deriving DecidableEq, Repr

/-- `rtString_Copy` (rtString.c:4-18) into 256 bytes (rbuscore.c:2436-2438, rtMessageHeader.h:31). -/
def copyName (s : Bytes) : Bytes := s.take 255

/-- The message for one entry (rbuscore.c:2518-2524). -/
def packEntry (e : Entry) : Bytes := setBytes (setString e.element ++ setString e.consumer)

/-- `_rbuscore_directconnection_save_to_cache` (rbuscore.c:2485-2533): the file afterwards. The number of
entries is cut to 32 bits (line 2515). -/
def save (es : List Entry) : Option Bytes :=
  if es.length = 0 then none
  else some (setInt32 (BitVec.ofNat 32 es.length) ++ es.flatMap packEntry)

/-- A name as the log line shows it: `none` is NULL. -/
abbrev Shown := Option Bytes

/-- `rbusMessage_GetString` with its result not looked at (rbuscore.c:2597-2598), and the use of the pointer
in the log line: NULL if the next item is no string. An item of a type the library never writes is not passed
over here (see `unpackNext`). -/
def showName (bs : Bytes) : Res (Shown × Bytes) :=
  match unpackNext bs with
  | none => .ok (none, bs)
  | some (.str s, r) => if s.contains 0 then .ok (some (s.takeWhile (· ≠ 0)), r) else .ub
  | some (_, r) => .ok (none, r)

/-- The loop (rbuscore.c:2591-2604): if the next item is no byte array, `tmpMsg` stays NULL and is read from
(rbuscore_message.c:31, 192). -/
def tell : Nat → Bytes → Res (List (Shown × Shown))
  | 0, _ => .ok []
  | n + 1, bs =>
    match getBytes bs with
    | none => .ub
    | some (m, bs) => do
      let (element, m) ← showName m
      let (consumer, _) ← showName m
      let rest ← tell n bs
      pure ((element, consumer) :: rest)

/-- `_rbuscore_directconnection_load_from_cache` (rbuscore.c:2535-2632): what the log lines name, and the
file afterwards. An empty file is removed; a negative or missing number counts as none. -/
def load : Option Bytes → Res (List (Shown × Shown) × Option Bytes)
  | none => .ok ([], none)
  | some f =>
    if f.length = 0 then .ok ([], none)
    else
      match getInt32 f with
      | none => .ok ([], some f)
      | some (n, r) => do
        let l ← tell n.toInt.toNat r
        pure (l, some f)

/-- The list `gListOfServerDirectDMLs` of every process, and the file. -/
structure State where
  entries : Nat → List Entry
  file : Option Bytes

def init : State := ⟨fun _ => [], none⟩

inductive Event where
  /-- a process of the program starts (again) -/
  | start (p : Nat)
  /-- a consumer opens an element -/
  | «open» (p : Nat) (address consumer element : Bytes)
  | close (p : Nat) (consumer element : Bytes)
  /-- the consumer at this address has gone -/
  | gone (p : Nat) (address : Bytes)
  /-- of what was written only this many bytes got to the disk -/
  | cut (n : Nat)
  deriving DecidableEq, Repr

inductive Out where
  /-- the log lines at start, each naming an element and a consumer -/
  | told (l : List (Shown × Shown))
  | opened
  | closed
  | notOpen
  | ended
  | cut
  deriving DecidableEq, Repr

/-- Replaces the list of a process and saves it. -/
def put (s : State) (p : Nat) (es : List Entry) : State :=
  ⟨fun q => if q = p then es else s.entries q, save es⟩

/-- One step. Starting is `perform_init` (rbuscore.c:375-383); opening is `rbuscore_startPrivateListener`
(rbuscore.c:2801-2851); closing is `rbuscore_updatePrivateListener` (rbuscore.c:2678-2702) with
`rbuscore_FindServerPrivateClient` (rbuscore.c:2637-2662): the first entry of that element and that consumer;
going is the end of `rbuscore_PrivateThreadFunc` (rbuscore.c:2712-2721). -/
def step (s : State) : Event → Res (State × Out)
  | .start p => do
    let (l, f) ← load s.file
    pure (⟨fun q => if q = p then [] else s.entries q, f⟩, .told l)
  | .open p a c e => .ok (put s p (s.entries p ++ [⟨copyName a, copyName c, copyName e⟩]), .opened)
  | .close p c e =>
    match (s.entries p).findIdx? (fun x => x.element == e && x.consumer == c) with
    | some i => .ok (put s p ((s.entries p).eraseIdx i), .closed)
    | none => .ok (s, .notOpen)
  | .gone p a => .ok (put s p ((s.entries p).filter (·.address != a)), .ended)
  | .cut n => .ok (⟨s.entries, s.file.map (·.take n)⟩, .cut)

/-- A run of steps. -/
def run (s : State) : List Event → Res (State × List Out)
  | [] => .ok (s, [])
  | e :: es => do
    let (s1, o) ← step s e
    let (s2, os) ← run s1 es
    pure (s2, o :: os)

end Verif.DirectCache
