import Verif.Model.Base

/-!
# Model of requests awaiting their responses (src/rtmessage/rtConnection.c, rtSemaphore.c)

Any number of threads send requests over one connection; each puts an entry, which lives on its stack,
in the list of pending requests, and waits on the semaphore in it. The reader thread looks for the entry
a response belongs to. Lock, section and unlock are separate steps, so that the threads interleave in
every way the mutex allows. The mutex is of the error-checking kind (rtConnection.c:531-536): unlocking
it without owning it fails and changes nothing.

Not modelled: requests sent by the reader thread itself (rtConnection.c:1018-1062), which read the
socket while they wait.
-/

namespace Verif.Pending

/-- A response as it matters here: which message it is, the sequence number and the undeliverable flag
of its header. -/
structure Resp where
  num : Nat
  seq : Nat
  undeliverable : Bool
  deriving DecidableEq, Repr

/-- What `rtConnection_SendRequestInternal` gives back. -/
inductive Result where
  | ok (m : Resp)
  /-- RT_OBJECT_NO_LONGER_AVAILABLE -/
  | noObject
  /-- RT_ERROR: woken, but no response -/
  | noData
  /-- RT_ERROR_TIMEOUT -/
  | timeout
  /-- the error of sending -/
  | sendError
  deriving DecidableEq, Repr

/-- Where a request is in `rtConnection_SendRequestInternal` (rtConnection.c:973-1109). -/
inductive Place where
  /-- holds the mutex, 991 -/
  | locked
  /-- entry in the list, sending, 1004 -/
  | sending
  /-- mutex given back, waiting for the semaphore, 1016 -/
  | waiting
  /-- the wait returned RT_OK, 1063 -/
  | woken
  /-- holds the mutex again, 1066 -/
  | relocked
  /-- result determined, 1068-1087 -/
  | taken (r : Result)
  /-- the wait timed out: the mutex is not taken, 1063 -/
  | timedOut
  deriving DecidableEq, Repr

/-- `pending_request` (rtConnection.c:150-155) with the place of its thread: the number, the value of
the semaphore, the response. The number is only set when the entry is put in the list. -/
structure Entry where
  place : Place
  seq : Nat
  posted : Nat
  response : Option Resp
  deriving DecidableEq, Repr

/-- The threads that use the list. -/
inductive Thread where
  | request (r : Nat)
  | reader
  deriving DecidableEq, Repr

/-- Where the reader thread is in its handling of a response (rtConnection.c:1612-1628). -/
inductive Reader where
  | idle
  | scanning (m : Resp)
  | scanned
  deriving DecidableEq, Repr

/-- The connection: the owner of `mutex`, `sequence_number`, `pending_requests_list` (front first), the
entries on the stacks of the threads, the number of requests begun, the reader thread, and the number of
responses read. -/
structure State where
  owner : Option Thread
  counter : Nat
  pending : List Nat
  entries : Nat → Option Entry
  begun : Nat
  reader : Reader
  arrivals : Nat

/-- A new connection (rtConnection.c:556-561). -/
def init : State :=
  { owner := none, counter := 1, pending := [], entries := fun _ => none, begun := 0, reader := .idle,
    arrivals := 0 }

inductive Event where
  /-- a thread begins a request and gets the mutex -/
  | lock
  /-- number taken, entry put in the list -/
  | push (r : Nat)
  | sendOk (r : Nat)
  | sendFail (r : Nat)
  /-- the semaphore was posted, and the wait returns -/
  | wake (r : Nat)
  /-- the wait returns although the semaphore was not posted -/
  | spurious (r : Nat)
  /-- the wait times out -/
  | timeout (r : Nat)
  | relock (r : Nat)
  | take (r : Nat)
  /-- entry removed, mutex unlocked, semaphore destroyed, function returns -/
  | finish (r : Nat)
  /-- the same after a timeout -/
  | giveUp (r : Nat)
  /-- another message is sent, which takes a number -/
  | other
  /-- the reader thread has read a response and gets the mutex -/
  | readerLock (seq : Nat) (undeliverable : Bool)
  /-- it looks for the entry -/
  | readerScan
  | readerUnlock
  deriving DecidableEq, Repr

inductive Obs where
  /-- request `r` is sent with this number -/
  | sent (r seq : Nat)
  | arrived (m : Resp)
  | returned (r : Nat) (res : Result)
  | nothing
  deriving DecidableEq, Repr

/-- Changing one entry. -/
def set (f : Nat → Option Entry) (r : Nat) (e : Option Entry) : Nat → Option Entry :=
  fun x => if x = r then e else f x

/-- What the requester makes of the response (rtConnection.c:1068-1087). -/
def outcome : Option Resp → Result
  | none => .noData
  | some m => if m.undeliverable then .noObject else .ok m

/-- The reader thread's search for the entry of a response (rtConnection.c:1613-1627): `none` if there
is none; undefined behaviour if the list holds the address of an entry whose thread has left the
function. -/
def scan (f : Nat → Option Entry) (m : Resp) : List Nat → Res (Option Nat)
  | [] => .ok none
  | r :: rs =>
    match f r with
    | none => .ub
    | some e => if e.seq = m.seq then .ok (some r) else scan f m rs

/-- One step. `fail`: the thread is not at that place, or the mutex is not free. -/
def step (s : State) : Event → Res (State × Obs)
  | .lock =>
    -- 991
    if s.owner = none then
      .ok ({ s with
        owner := some (.request s.begun)
        begun := s.begun + 1
        entries := set s.entries s.begun (some ⟨.locked, 0, 0, none⟩) }, .nothing)
    else .fail
  | .push r =>
    -- 993-1004
    match s.entries r with
    | some ⟨.locked, _, _, _⟩ =>
      .ok ({ s with
        counter := (s.counter + 1) % 4294967296
        pending := r :: s.pending
        entries := set s.entries r (some ⟨.sending, s.counter, 0, none⟩) }, .sent r s.counter)
    | _ => .fail
  | .sendOk r =>
    -- 1010
    match s.entries r with
    | some ⟨.sending, q, p, m⟩ =>
      .ok ({ s with owner := none, entries := set s.entries r (some ⟨.waiting, q, p, m⟩) }, .nothing)
    | _ => .fail
  | .sendFail r =>
    -- 1005-1009, 1090-1093. Reconnecting and trying again (1095-1100) is a new request.
    match s.entries r with
    | some ⟨.sending, _, _, _⟩ =>
      .ok ({ s with
        owner := none
        pending := s.pending.erase r
        entries := set s.entries r none }, .returned r .sendError)
    | _ => .fail
  | .wake r =>
    -- 1016; rtSemaphore.c:103-108, 113-117
    match s.entries r with
    | some ⟨.waiting, q, p + 1, m⟩ =>
      .ok ({ s with entries := set s.entries r (some ⟨.woken, q, p, m⟩) }, .nothing)
    | _ => .fail
  | .spurious r =>
    -- rtSemaphore.c:109-117: the value is not tested again after the wait
    match s.entries r with
    | some ⟨.waiting, q, 0, m⟩ =>
      .ok ({ s with entries := set s.entries r (some ⟨.woken, q, 0, m⟩) }, .nothing)
    | _ => .fail
  | .timeout r =>
    -- rtSemaphore.c:118-123: even if it was posted meanwhile
    match s.entries r with
    | some ⟨.waiting, q, p, m⟩ =>
      .ok ({ s with entries := set s.entries r (some ⟨.timedOut, q, p, m⟩) }, .nothing)
    | _ => .fail
  | .relock r =>
    -- 1063-1066
    match s.entries r with
    | some ⟨.woken, q, p, m⟩ =>
      if s.owner = none then
        .ok ({ s with
          owner := some (.request r)
          entries := set s.entries r (some ⟨.relocked, q, p, m⟩) }, .nothing)
      else .fail
    | _ => .fail
  | .take r =>
    -- 1068-1087
    match s.entries r with
    | some ⟨.relocked, q, p, m⟩ =>
      .ok ({ s with entries := set s.entries r (some ⟨.taken (outcome m), q, p, m⟩) }, .nothing)
    | _ => .fail
  | .finish r =>
    -- 1090-1107
    match s.entries r with
    | some ⟨.taken res, _, _, _⟩ =>
      .ok ({ s with
        owner := none
        pending := s.pending.erase r
        entries := set s.entries r none }, .returned r res)
    | _ => .fail
  | .giveUp r =>
    -- 1090-1107, reached from 1063 without the mutex: undefined behaviour if another thread is in its
    -- section. That another thread enters its section while this one removes the entry is not
    -- modelled. The unlocking fails, as this thread does not own the mutex.
    match s.entries r with
    | some ⟨.timedOut, _, _, _⟩ =>
      if s.owner = none then
        .ok ({ s with pending := s.pending.erase r, entries := set s.entries r none },
          .returned r .timeout)
      else .ub
    | _ => .fail
  | .other =>
    -- 790-795, 889-895
    .ok ({ s with counter := (s.counter + 1) % 4294967296 }, .nothing)
  | .readerLock q u =>
    -- 1605-1612
    if s.owner = none ∧ s.reader = .idle then
      .ok ({ s with owner := some .reader, reader := .scanning ⟨s.arrivals, q, u⟩, arrivals := s.arrivals + 1 },
        .arrived ⟨s.arrivals, q, u⟩)
    else .fail
  | .readerScan =>
    -- 1613-1627. A response that finds no entry is released (1694-1698); a response that finds an entry
    -- with a response takes its place, which is then lost.
    match s.reader with
    | .scanning m => do
      match ← scan s.entries m s.pending with
      | none => pure ({ s with reader := .scanned }, .nothing)
      | some r =>
        pure ({ s with
          reader := .scanned
          entries := set s.entries r
            ((s.entries r).map (fun e => { e with response := some m, posted := e.posted + 1 })) }, .nothing)
    | _ => .fail
  | .readerUnlock =>
    -- 1628
    match s.reader with
    | .scanned => .ok ({ s with owner := none, reader := .idle }, .nothing)
    | _ => .fail

/-- An execution: what each step shows. -/
def run (s : State) : List Event → Res (State × List Obs)
  | [] => .ok (s, [])
  | e :: es => do
    let (s1, o) ← step s e
    let (s2, os) ← run s1 es
    pure (s2, o :: os)

end Verif.Pending
