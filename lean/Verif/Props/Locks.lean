import Verif.Proof.Locks

/-!
# C93: Threads do not wait for each other for ever
-/

namespace Verif.Props

open Verif Verif.Locks Verif.Spec.Locks

/-- Threads that wait for each other never go on, whatever the others do. -/
theorem C93_forever {s s' : State} {D : Nat → Prop} {sched : List Nat} (h : Deadlock s D)
    (hr : run s sched = .ok s') : Deadlock s' D ∧ ∀ t, D t → s'.thread t = s.thread t :=
  Proof.Locks.deadlock_run sched h hr

/-- Threads whose programs are fine never wait for each other for ever. Missing: the programs that `may` does not
allow. -/
theorem C93_no_deadlock_partial {w : Mode} {role : Nat → Place} {p : Nat → Prog} (h : AllFine w role p)
    {sched : List Nat} {s : State} (hr : run (start p) sched = .ok s) (D : Nat → Prop) : ¬ Deadlock s D := by
  obtain ⟨_, i⟩ := Proof.Locks.inv_run sched (Proof.Locks.inv_start h) hr
  exact Proof.Locks.no_deadlock i

/-- At any time, a thread that has not ended can go on, or waits, perhaps through others, for one that can. Missing:
the programs that `may` does not allow. -/
theorem C93_progress_partial {w : Mode} {role : Nat → Place} {p : Nat → Prog} (h : AllFine w role p)
    {sched : List Nat} {s : State} (hr : run (start p) sched = .ok s) {t : Nat} (ht : ¬ Ended s t) :
    ∃ u s', Behind s t u ∧ step s u = .ok s' := by
  obtain ⟨_, i⟩ := Proof.Locks.inv_run sched (Proof.Locks.inv_start h) hr
  exact Proof.Locks.progress i ht

/-- At any time, finitely many threads can all come to their end. Missing: the programs that `may` does not allow. -/
theorem C93_all_end_partial {w : Mode} {role : Nat → Place} {p : Nat → Prog} (h : AllFine w role p) {n : Nat}
    (hn : ∀ t, n ≤ t → p t = .done) {sched : List Nat} {s : State} (hr : run (start p) sched = .ok s) :
    ∃ more s', run s more = .ok s' ∧ ∀ t, Ended s' t := by
  obtain ⟨_, i⟩ := Proof.Locks.inv_run sched (Proof.Locks.inv_start h) hr
  refine Proof.Locks.all_finish n _ i (fun t ht => ?_) (Nat.le_refl _)
  have key : ∀ (l : List Nat) (a b : State), (a.thread t).todo = [] → run a l = .ok b → (b.thread t).todo = [] := by
    intro l
    induction l with
    | nil => intro a b ha hb; simp [run] at hb; rw [← hb]; exact ha
    | cons x l ih =>
      intro a b ha hb
      simp only [run] at hb
      cases hs : step a x with
      | ok c =>
        rw [hs, Res.ok_bind] at hb
        obtain ⟨y, k, h1, h2⟩ := Proof.Locks.step_thread hs
        refine ih c b ?_ hb
        rw [h2]
        have hx : t ≠ x := fun e => by rw [← e, ha] at h1; cases h1
        simp only [if_neg hx]; exact ha
      | fail => rw [hs] at hb; cases hb
      | ub => rw [hs] at hb; cases hb
  exact key sched _ _ (by simp [start, hn t ht, Prog.script]) hr

/-- Two threads are never between locking and unlocking the same mutex. Missing: the programs that `may` does not
allow. -/
theorem C93_exclusion_partial {w : Mode} {role : Nat → Place} {p : Nat → Prog} (h : AllFine w role p)
    {sched : List Nat} {s : State} (hr : run (start p) sched = .ok s) {t u : Nat} {m : Mutex} (ht : Inside s t m)
    (hu : Inside s u m) : t = u := by
  obtain ⟨_, i⟩ := Proof.Locks.inv_run sched (Proof.Locks.inv_start h) hr
  exact Proof.Locks.exclusion i ht hu

/-- No mutex is unlocked in a way that is undefined. Missing: the programs that `may` does not allow. -/
theorem C93_defined_partial {w : Mode} {role : Nat → Place} {p : Nat → Prog} (h : AllFine w role p)
    (sched : List Nat) : run (start p) sched ≠ .ub := by
  have key : ∀ (l : List Nat) (held : Nat → List Mutex) (s : State), Proof.Locks.Inv w role held s → run s l ≠ .ub := by
    intro l
    induction l with
    | nil => intro held s _; simp [run]
    | cons x l ih =>
      intro held s i
      simp only [run]
      cases hs : step s x with
      | ok s1 =>
        rw [Res.ok_bind]
        obtain ⟨held1, i1⟩ := Proof.Locks.inv_step i hs
        exact ih held1 s1 i1
      | fail => rw [Res.fail_bind]; simp
      | ub => exact absurd hs (Proof.Locks.inv_defined i x)
  exact key sched _ _ (Proof.Locks.inv_start h)

/-! ## Cases -/

/-- The first `i` steps of the first thread, then the first `j` of the second. -/
private def turns (i j : Nat) : List Nat := List.replicate i 0 ++ List.replicate j 1

/-- While values change: the program subscribes, publishes and closes, the callback thread delivers an event whose
handler registers a row, and serves a set request whose handler publishes; the polling thread publishes a change. -/
private def demoChanging : Nat → Prog
  | 0 => .call (.subscribe 7 true) (once (.publish 7 [false])) .done <|
      .call (.publish 7 [true, false]) .done .done <| once (.close 7 1 [2, 3])
  | 1 => .call (.event 7) (once (.registerRow 7 [5] [true] []) .done (once .request)) .done <|
      once (.serve 5 none) (.call (.publish 7 []) .done .done (once (.registerRow 8 [] [] [])))
  | 2 => once (.poll [(7, 5, some [true, false]), (7, 6, none)]) (once .request)
  | 3 => once (.retry 7) (once (.unsubscribe 7))
  | _ => .done

private def demoRole : Nat → Place
  | 2 => .helper
  | 3 => .told
  | _ => .thread

private theorem demoChanging_fine : AllFine .changing demoRole demoChanging := by
  intro t
  match t with
  | 0 | 1 | 2 | 3 =>
    simp [demoChanging, once, demoRole, Fine, may, Place.outer, inner, helpers, ending]
  | n + 4 => exact True.intro

/-- While subscriptions come and go: the callback thread begins to watch a property, ends a subscription with an
interval and waits for its thread. -/
private def demoSubscribing : Nat → Prog
  | 1 => .call (.serveSubscribe 7 5 .watch none) (once .request) (once .request) <|
      once (.serveSubscribe 7 5 (.finish (some 2)) none)
  | 2 => .call (.interval 0 5 false) (once .listener) .done <| once (.poll [(7, 5, none)])
  | _ => .done

private theorem demoSubscribing_fine : AllFine .subscribing demoRole demoSubscribing := by
  intro t
  match t with
  | 1 | 2 => simp [demoSubscribing, once, demoRole, Fine, may, Place.outer, inner, helpers, ending]
  | 0 | n + 3 => exact True.intro

example {s : State} (hr : run (start demoChanging) (turns 9 2) = .ok s) : ¬ Deadlock s (fun _ => True) :=
  C93_no_deadlock_partial demoChanging_fine hr _

/-- The second thread comes to its event, which the first has locked, and waits; the first can go on. -/
example : ∃ s, run (start demoChanging) (turns 1 2) = .ok s ∧ ¬ Ended s 1 ∧ Waits s 1 0 ∧
    (∃ u s', Behind s 1 u ∧ step s u = .ok s') :=
  ⟨_, rfl, by decide, ⟨1, rfl, Or.inl (by decide)⟩,
    C93_progress_partial demoChanging_fine (sched := turns 1 2) rfl (by decide)⟩

example {s : State} (hr : run (start demoSubscribing) [1, 1, 1, 2] = .ok s) :
    ∃ more s', run s more = .ok s' ∧ ∀ t, Ended s' t :=
  C93_all_end_partial demoSubscribing_fine (n := 3) (fun t ht => by
    match t, ht with
    | n + 3, _ => rfl) hr

example : ∃ s, run (start demoChanging) [0] = .ok s ∧ Inside s 0 (.events 7) ∧ ¬ Inside s 1 (.events 7) :=
  ⟨_, rfl, by decide, fun h => absurd (C93_exclusion_partial demoChanging_fine (sched := [0]) rfl (t := 0) (u := 1) (m := .events 7)
    (by decide) h) (by decide)⟩

example : run (start demoSubscribing) [1, 1, 2, 1] ≠ .ub := C93_defined_partial demoSubscribing_fine _

/-! ## Programs that are not fine -/

/-- The polling thread publishes a change of one property while another process subscribes to another property of the
same component: the polling thread has the mutex of the watched properties and waits for that of the subscriptions,
the callback thread has that and waits for the first. From then on the component serves nobody. -/
theorem C93_value_change_fails : ∃ (sched : List Nat) (s : State),
    run (start (duo (once (.serveSubscribe 0 0 .watch none)) (once (.poll [(0, 1, some [false])])))) sched =
      .ok s ∧ Deadlock s both := by
  refine ⟨turns 7 5, _, rfl, ⟨0, Or.inl rfl⟩, ?_⟩
  rintro t (rfl | rfl)
  · exact ⟨1, Or.inr rfl, 1, rfl, Or.inl (by decide)⟩
  · exact ⟨0, Or.inl rfl, 1, rfl, Or.inl (by decide)⟩

example {s s' : State} {sched : List Nat} (h : Deadlock s both) (hr : run s sched = .ok s') :
    s'.thread 0 = s.thread 0 := (C93_forever h hr).2 0 (Or.inl rfl)

/-- The time of a subscription with an interval is over while its client unsubscribes: the thread of the interval
locks the records and then the subscriptions, the callback thread the other way round. -/
theorem C93_interval_fails : ∃ (sched : List Nat) (s : State),
    run (start (duo (once (.serveSubscribe 0 0 (.finish (some 1)) none)) (once (.intervalOver 0)))) sched =
      .ok s ∧ Deadlock s both := by
  refine ⟨turns 7 1, _, rfl, ⟨0, Or.inl rfl⟩, ?_⟩
  rintro t (rfl | rfl)
  · exact ⟨1, Or.inr rfl, 1, rfl, Or.inl (by decide)⟩
  · exact ⟨0, Or.inl rfl, 1, rfl, Or.inl (by decide)⟩

/-- An event comes in while `rbus_close` closes the last handle: it waits for the callback thread to end, and the
callback thread waits for the mutex of the handles, which `rbus_close` has. `rbus_close` never returns. -/
theorem C93_close_fails : ∃ (sched : List Nat) (s : State),
    run (start (duo (once (.closeLast 0 0 [] 1)) (once (.event 0)))) sched = .ok s ∧ Deadlock s both := by
  refine ⟨turns 22 0, _, rfl, ⟨0, Or.inl rfl⟩, ?_⟩
  rintro t (rfl | rfl)
  · exact ⟨1, Or.inr rfl, rfl, by decide⟩
  · exact ⟨0, Or.inl rfl, 1, rfl, Or.inl (by decide)⟩

/-- The same when the news that a client has gone comes in while the last handle is closed. -/
theorem C93_close_client_gone_fails : ∃ (sched : List Nat) (s : State),
    run (start (duo (once (.closeLast 0 0 [] 1)) (once (.clientGone [] none)))) sched = .ok s ∧ Deadlock s both := by
  refine ⟨turns 22 0, _, rfl, ⟨0, Or.inl rfl⟩, ?_⟩
  rintro t (rfl | rfl)
  · exact ⟨1, Or.inr rfl, rfl, by decide⟩
  · exact ⟨0, Or.inl rfl, 1, rfl, Or.inl (by decide)⟩

/-- A private connection is closed while an event comes in through it whose handler gets a value: `rbus_closeDirect`
has the mutex of the private connections and waits for the thread of the connection, which waits for that mutex. -/
theorem C93_close_direct_fails : ∃ (sched : List Nat) (s : State),
    run (start (duo (once (.closeDirect 1)) (once (.event 0) (once .request)))) sched = .ok s ∧ Deadlock s both := by
  refine ⟨turns 5 3, _, rfl, ⟨0, Or.inl rfl⟩, ?_⟩
  rintro t (rfl | rfl)
  · exact ⟨1, Or.inr rfl, rfl, by decide⟩
  · exact ⟨0, Or.inl rfl, 1, rfl, Or.inl (by decide)⟩

/-- The handler of a property publishes, called for a subscription with an interval, while the callback thread begins
to watch the property for another subscription: the handler runs under the mutex of the element and waits for that of
the subscriptions, the other has that and waits to call the get handler. -/
theorem C93_handler_publishes_fails : ∃ (sched : List Nat) (s : State),
    run (start (duo (once (.serveSubscribe 0 0 .watch none)) (once (.interval 0 0 false) (once (.publish 0 []))))) sched =
      .ok s ∧ Deadlock s both := by
  refine ⟨turns 9 6, _, rfl, ⟨0, Or.inl rfl⟩, ?_⟩
  rintro t (rfl | rfl)
  · exact ⟨1, Or.inr rfl, 1, rfl, Or.inl (by decide)⟩
  · exact ⟨0, Or.inl rfl, 1, rfl, Or.inl (by decide)⟩

/-- The handler of a property registers a row with a watched property while the polling thread gets the value of the
property. -/
theorem C93_handler_registers_fails : ∃ (sched : List Nat) (s : State),
    run (start (duo (once (.serve 0 none) (once (.registerRow 0 [1] [] []))) (once (.poll [(0, 0, none)])))) sched =
      .ok s ∧ Deadlock s both := by
  refine ⟨turns 9 1, _, rfl, ⟨0, Or.inl rfl⟩, ?_⟩
  rintro t (rfl | rfl)
  · exact ⟨1, Or.inr rfl, 1, rfl, Or.inl (by decide)⟩
  · exact ⟨0, Or.inl rfl, 1, rfl, Or.inl (by decide)⟩

/-- The handler of a method subscribes while another thread subscribes and gets an initial value, whose
handler registers a row in which the same element is watched. -/
theorem C93_handler_subscribes_fails : ∃ (sched : List Nat) (s : State),
    run (start (duo (once (.serve 0 none) (once (.subscribe 0 false))) (once (.subscribe 0 true) (once (.registerRow 0 [0] [] []))))) sched =
      .ok s ∧ Deadlock s both := by
  refine ⟨turns 5 25, _, rfl, ⟨0, Or.inl rfl⟩, ?_⟩
  rintro t (rfl | rfl)
  · exact ⟨1, Or.inr rfl, 1, rfl, Or.inl (by decide)⟩
  · exact ⟨0, Or.inl rfl, 1, rfl, Or.inl (by decide)⟩

/-- The sync handler of a table registers a row, which it is there for, while another thread registers a row with
subscriptions in the cache: the sync handler runs under the mutex of the tree and waits for that of the
subscriptions, the other has that and waits for the tree. -/
theorem C93_sync_handler_fails : ∃ (sched : List Nat) (s : State),
    run (start (duo (once (.serve 0 (some 1)) .done (once (.registerRow 0 [] [] []))) (once (.registerRow 0 [] [] [(0, .nothing)])))) sched =
      .ok s ∧ Deadlock s both := by
  refine ⟨[1, 1, 1, 1, 1, 1, 1, 1, 1, 0, 0, 0, 0, 0, 0], _, rfl, ⟨0, Or.inl rfl⟩, ?_⟩
  rintro t (rfl | rfl)
  · exact ⟨1, Or.inr rfl, 1, rfl, Or.inl (by decide)⟩
  · exact ⟨0, Or.inl rfl, 1, rfl, Or.inl (by decide)⟩

/-- The subscribe handler of an element opens another handle. When it is told that a client has gone, it waits for
a mutex that its own thread has. -/
theorem C93_open_fails : ∃ (sched : List Nat) (s : State),
    run (start (duo (once (.clientGone [(0, [(0, .nothing)])] none) (once .open)) .done)) sched =
      .ok s ∧ Deadlock s (· = 0) := by
  refine ⟨turns 5 0, _, rfl, ⟨0, rfl⟩, ?_⟩
  rintro t rfl
  exact ⟨0, rfl, 1, rfl, Or.inr rfl⟩

/-- An event handler that unsubscribes: the mutex of the handle's subscriptions is unlocked by that, so that another
thread changes them while the library still goes through them. -/
theorem C93_handler_unsubscribes_fails : ∃ (sched : List Nat) (s : State),
    run (start (duo (once (.event 0) (once (.unsubscribe 0))) (once (.unsubscribe 0)))) sched =
      .ok s ∧ Inside s 0 (.events 0) ∧ Inside s 1 (.events 0) :=
  ⟨turns 17 1, _, rfl, by decide, by decide⟩

/-- A client has gone that had two subscriptions: after the first is dropped another thread publishes, going through
the list while the second is dropped from it. -/
theorem C93_client_gone_fails : ∃ (sched : List Nat) (s : State),
    run (start (duo (once (.clientGone [(0, [(0, .nothing), (1, .nothing)])] none)) (once (.publish 0 [false])))) sched =
      .ok s ∧ Inside s 0 (.subs 0) ∧ Inside s 1 (.subs 0) :=
  ⟨turns 8 3, _, rfl, by decide, by decide⟩

/-- An element is registered that has a subscription in the cache: another thread publishes while the library goes
through the cache. -/
theorem C93_cache_fails : ∃ (sched : List Nat) (s : State),
    run (start (duo (once (.registerElement 0 [(0, .nothing)])) (once (.publish 0 [false])))) sched =
      .ok s ∧ Inside s 0 (.subs 0) ∧ Inside s 1 (.subs 0) :=
  ⟨turns 9 3, _, rfl, by decide, by decide⟩

/-- The last handle is closed: the mutex of the lower layer is unlocked too early, so that another thread is sending
while the connection is destroyed. -/
theorem C93_connection_fails : ∃ (sched : List Nat) (s : State),
    run (start (duo (once (.closeLast 0 0 [] 2)) (once (.publish 0 [false])))) sched =
      .ok s ∧ Inside s 0 .core ∧ Inside s 1 .core :=
  ⟨turns 22 6, _, rfl, by decide, by decide⟩

end Verif.Props
