import Verif.Model.Base

/-!
# Model of destroying a connection (src/rtmessage/rtConnection.c)

A connection has a reader thread, which reads the socket and makes the connection again when it is lost,
and a callback thread, which takes messages from a queue and calls the application. Other threads of the
application send requests and wait for the answers; one of them, or the callback thread itself in a
callback, destroys the connection. Each thread is at a place between two sections guarded by `con->mutex`
or `callback_message_mutex`, or between two system calls, and they interleave there in any way. Of
`callback_message_mutex` the callback thread's section is taken apart, since `run_threads`, which it reads
there, is guarded by the other mutex.

Messages and requesting threads are numbers. What `con->fd` refers to is one step for every thread: that
one thread closes the descriptor that another is about to use is left out. A reading that gives
neither a message nor the end of the connection (rtConnection.c:1508-1598, five attempts) is one step.
Not modelled: failing `pthread_create`, encryption, what the router is told when the connection is made
again (see `Verif.Reconnect`), responses (see `Verif.Pending`) beyond that they wake the request.
-/

namespace Verif.Destroy

/-- Where the callback thread is (rtConnection.c:1762-1861). -/
inductive Worker where
  /-- before the condition of the loop, 1767 -/
  | top
  /-- about to lock `callback_message_mutex`, 1772 -/
  | locking
  /-- holds it, about to read `run_threads`, 1775 -/
  | locked
  /-- holds it, and `run_threads` was set, 1781 -/
  | checked
  /-- holds it, and the queue was empty, 1783 -/
  | idle
  /-- in `pthread_cond_wait`, 1786 -/
  | asleep
  /-- in `pthread_cond_wait`, woken, about to lock the mutex again -/
  | waking
  /-- has the front of the queue, if any, and has given the mutex back, 1796 -/
  | took (m : Option Nat)
  /-- about to look for the listener, 1808 -/
  | looking (m : Nat)
  /-- in the callback, or past it if there is none, 1831-1841 -/
  | calling (m : Nat)
  /-- about to take the message off the queue, 1843 -/
  | returned (m : Nat)
  | ended
  deriving DecidableEq, Repr

/-- Where the reader thread is (rtConnection.c:1863-1916). -/
inductive Reader where
  /-- before the condition of the loop, 1869 -/
  | top
  /-- in `rtConnection_Read`, about to read from the socket that is then in `con->fd`, and waiting for data if there
  is none, 1872; a reader that waits for data of a socket that is replaced meanwhile is treated like one that has
  not begun to -/
  | reading
  /-- has read a message that is no response, about to lock `callback_message_mutex`, 1657 -/
  | pushing (m : Nat)
  /-- `rtConnection_Read` gave an error; is it `RT_NO_CONNECTION`? 1874 -/
  | failed (lost : Bool)
  /-- before the condition of the inner loop, 1893 -/
  | retry
  /-- in `rtConnection_ConnectAndRegister`, 1895 -/
  | connecting
  /-- back from it; was it successful? 1896 -/
  | connected (ok : Bool)
  /-- in the inner `sleep`, 1898 -/
  | sleeping
  /-- in the outer `sleep`, 1904 -/
  | resting
  | ended
  deriving DecidableEq, Repr

/-- Where the thread that destroys the connection is (rtConnection.c:697-765). -/
inductive Destroyer where
  /-- it has not begun -/
  | away
  /-- `run_threads` cleared, 702 -/
  | begun
  /-- the socket shut down, 705 -/
  | shut
  /-- `run_threads` cleared again, 1947 -/
  | cleared
  /-- the callback thread signalled, waiting for the reader thread to end, 1949-1953 -/
  | joinReader
  /-- waiting for the callback thread to end, 1954 -/
  | joinWorker
  /-- both joined: socket closed, buffers freed, 710-730 -/
  | freeing
  /-- requests woken, both lists destroyed, 731-748 -/
  | unblocked
  /-- mutexes destroyed, connection freed, 756-762 -/
  | gone
  deriving DecidableEq, Repr

/-- The connection: `run_threads`; whether the end of the connection can be read from the socket; the
queue of messages; the requests in the list of pending ones, and those of them whose semaphore was posted;
the threads; and whether it is the callback thread that destroys the connection. -/
structure State where
  running : Bool
  dead : Bool
  queue : List Nat
  pending : List Nat
  posted : List Nat
  worker : Worker
  reader : Reader
  destroyer : Destroyer
  inside : Bool
  deriving DecidableEq, Repr

/-- A connection when its threads have been started (rtConnection.c:1918-1941). -/
def init : State := ⟨true, false, [], [], [], .top, .top, .away, false⟩

/-- `MAX_ALLOWED_MESSAGES` (rtConnection.c:64). -/
def maxMessages : Nat := 25

/-- What a waiting reader gets. -/
inductive Input where
  /-- a message that is no response -/
  | message (m : Nat)
  /-- a response to a request -/
  | response (i : Nat)
  /-- the end of the connection -/
  | closed
  /-- nothing, after five attempts -/
  | garbage
  /-- no memory for the message -/
  | noMemory
  deriving DecidableEq, Repr

inductive Event where
  /-- the callback thread goes on; `listener`: if it looks for a listener, there is one -/
  | worker (listener : Bool)
  /-- the callback thread wakes up though nobody signalled -/
  | spurious
  /-- the reader thread goes on; `i` is what it reads if it is reading, and `ok` whether it can connect -/
  | reader (i : Input) (ok : Bool)
  /-- `rtConnection_Destroy` is called, in a callback if `inside` -/
  | destroy (inside : Bool)
  /-- the thread in `rtConnection_Destroy` goes on -/
  | destroyer
  /-- a thread sends a request -/
  | request (i : Nat)
  /-- its wait ends: its time is up, or its semaphore was posted -/
  | finish (i : Nat) (timeUp : Bool)
  /-- a thread that cannot send makes the connection again -/
  | remake
  /-- the router closes the connection -/
  | cut
  deriving DecidableEq, Repr

/-- What is seen of it. -/
inductive Obs where
  /-- the message is in the queue -/
  | queued (m : Nat)
  /-- the queue is full: the message is released -/
  | dropped (m : Nat)
  /-- the callback is called with the message -/
  | called (m : Nat)
  /-- the callback returns -/
  | back
  /-- messages taken off the queue and released -/
  | released (ms : List Nat)
  /-- `rtConnection_Destroy` returns -/
  | finished
  | nothing
  deriving DecidableEq, Repr

/-- Whether the callback thread holds `callback_message_mutex` (rtConnection.c:1772-1794). The sections of
the others are single steps. -/
def held (s : State) : Bool := s.worker = .locked || s.worker = .checked || s.worker = .idle

/-- Whether the callback thread is in a callback, where it uses nothing of the connection by itself
(rtConnection.c:1831-1841). -/
def inCallback : Worker → Bool
  | .calling _ => true
  | _ => false

/-- `pthread_cond_signal` (rtConnection.c:1688, 1950). -/
def signal (w : Worker) : Worker := if w = .asleep then .waking else w

/-- The callback thread (rtConnection.c:1762-1861). `fail`: it cannot go on now. -/
def workerStep (s : State) (listener : Bool) : Res (State × Obs) :=
  if s.destroyer = .gone ∧ s.worker ≠ .ended ∧ inCallback s.worker = false then .ub else
  match s.worker with
  | .top => .ok ({ s with worker := if s.running then .locking else .ended }, .nothing)
  | .locking => .ok ({ s with worker := .locked }, .nothing)
  | .locked => .ok ({ s with worker := if s.running then .checked else .ended }, .nothing)
  | .checked => .ok ({ s with worker := if s.queue = [] then .idle else .took s.queue.head? }, .nothing)
  | .idle => .ok ({ s with worker := .asleep }, .nothing)
  | .asleep => .fail
  | .waking => .ok ({ s with worker := .took s.queue.head? }, .nothing)
  | .took m =>
    .ok ({ s with worker := if s.running then (match m with | some m => .looking m | none => .top) else .ended }, .nothing)
  | .looking m =>
    if s.running then .ok ({ s with worker := .calling m }, if listener then .called m else .nothing)
    else .ok ({ s with worker := .top }, .nothing)
  | .calling m =>
    if s.inside ∧ s.destroyer ≠ .gone then .fail else .ok ({ s with worker := .returned m }, .back)
  | .returned _ =>
    .ok ({ s with queue := s.queue.tail,
                  worker := match s.queue.tail with | m :: _ => .looking m | [] => .top },
         .released (s.queue.take 1))
  | .ended => .fail

/-- The reader thread (rtConnection.c:1863-1916) and `rtConnection_Read` (1478-1705). -/
def readerStep (s : State) (i : Input) (ok : Bool) : Res (State × Obs) :=
  if s.destroyer = .gone ∧ s.reader ≠ .ended then .ub else
  match s.reader with
  | .top => .ok ({ s with reader := if s.running then .reading else .ended }, .nothing)
  | .reading =>
    match i with
    | .message m => .ok ({ s with reader := .pushing m }, .nothing)
    | .response r =>
      .ok ({ s with posted := if r ∈ s.pending then r :: s.posted else s.posted, reader := .top }, .nothing)
    | .closed => if s.dead then .ok ({ s with reader := .failed true }, .nothing) else .fail
    | .garbage => .ok ({ s with reader := .top }, .nothing)
    | .noMemory => .ok ({ s with reader := .failed false }, .nothing)
  | .pushing m =>
    if held s then .fail
    else if s.queue.length > maxMessages then .ok ({ s with reader := .top }, .dropped m)
    else .ok ({ s with queue := s.queue ++ [m], worker := signal s.worker, reader := .top }, .queued m)
  | .failed lost =>
    .ok ({ s with reader := if s.running then (if lost then .retry else .resting) else .ended }, .nothing)
  | .retry => .ok ({ s with reader := if s.running then .connecting else .top }, .nothing)
  | .connecting => .ok ({ s with dead := if ok then false else s.dead, reader := .connected ok }, .nothing)
  | .connected c => .ok ({ s with reader := if c ∨ s.running = false then .top else .sleeping }, .nothing)
  | .sleeping => .ok ({ s with reader := .retry }, .nothing)
  | .resting => .ok ({ s with reader := .top }, .nothing)
  | .ended => .fail

/-- `rtConnection_Destroy` (rtConnection.c:697-765) after its first step, with `rtConnection_StopThreads`
(1943-1956). Joining the thread that calls it gives EDEADLK at once, which is not looked at. -/
def destroyerStep (s : State) : Res (State × Obs) :=
  match s.destroyer with
  | .away => .fail
  | .begun => .ok ({ s with dead := true, destroyer := .shut }, .nothing)
  | .shut => .ok ({ s with running := false, destroyer := .cleared }, .nothing)
  | .cleared =>
    if held s then .fail else .ok ({ s with worker := signal s.worker, destroyer := .joinReader }, .nothing)
  | .joinReader => if s.reader = .ended then .ok ({ s with destroyer := .joinWorker }, .nothing) else .fail
  | .joinWorker =>
    if s.worker = .ended ∨ s.inside then .ok ({ s with destroyer := .freeing }, .nothing) else .fail
  | .freeing =>
    .ok ({ s with posted := s.pending, queue := [], destroyer := .unblocked }, .released s.queue)
  | .unblocked => .ok ({ s with destroyer := .gone }, .finished)
  | .gone => .fail

/-- One step. `fail`: the thread is not at that place, or cannot go on now. -/
def step (s : State) : Event → Res (State × Obs)
  | .worker l => workerStep s l
  | .spurious => if s.worker = .asleep then .ok ({ s with worker := .waking }, .nothing) else .fail
  | .reader i ok => readerStep s i ok
  -- rtConnection_Destroy, to 702
  | .destroy inside =>
    if s.destroyer ≠ .away ∨ (inside ∧ inCallback s.worker = false) then .fail
    else .ok ({ s with running := false, inside := inside, destroyer := .begun }, .nothing)
  | .destroyer => destroyerStep s
  -- rtConnection_SendRequestInternal, 978-1013; the send buffer is freed in 712
  | .request i =>
    if s.destroyer = .freeing ∨ s.destroyer = .unblocked ∨ s.destroyer = .gone then .ub
    else if i ∈ s.pending then .fail
    else .ok ({ s with pending := s.pending ++ [i] }, .nothing)
  -- the same, 1016-1092; rtList_RemoveItem uses the list and the item, freed in 747
  | .finish i timeUp =>
    if i ∉ s.pending ∨ (timeUp = false ∧ i ∉ s.posted) then .fail
    else if s.destroyer = .unblocked ∨ s.destroyer = .gone then .ub
    else .ok ({ s with pending := s.pending.filter (· != i), posted := s.posted.filter (· != i) }, .nothing)
  -- rtConnection_ConnectAndRegister called by rtConnection_SendRequestInternal (1096), rtConnection_SendResponse
  -- or rtConnection_SendMessageDirect (801)
  | .remake =>
    if s.dead ∧ (s.pending ≠ [] ∨ inCallback s.worker) ∧ s.destroyer ≠ .gone then
      .ok ({ s with dead := false }, .nothing)
    else .fail
  | .cut => .ok ({ s with dead := true }, .nothing)

/-- Any sequence of steps. -/
def run (s : State) : List Event → Res (State × List Obs)
  | [] => .ok (s, [])
  | e :: es => do
    let (s1, o) ← step s e
    let (s2, os) ← run s1 es
    pure (s2, o :: os)

end Verif.Destroy
