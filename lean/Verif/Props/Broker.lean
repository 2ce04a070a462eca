import Verif.Proof.Broker

/-!
# C106: opening and closing the connection

Everybody in a process shares one connection, made by the first who opens it and destroyed by the last who closes it.
-/

namespace Verif.Props

open Verif Verif.Broker Verif.Spec.Broker Verif.Proof.Broker

/-- Threads 0 and 1 share a connection; the router was not there at first. -/
private def shared : List (Event × Out) :=
  [(.open 0, .pending), (.opened 0 false, .general), (.register 0, .invalidState), (.open 0, .pending),
   (.opened 0 true, .connected), (.register 0, .success), (.open 1, .pending), (.opened 1 false, .shared),
   (.register 1, .success), (.look 1, .success), (.close 0, .success), (.unregister 0, .success),
   (.close 1, .pending), (.closed 1, .destroyed), (.open 2, .pending), (.opened 2 true, .connected)]

private theorem shared_orderly : Orderly shared := by
  have key : ∀ n, n < shared.length → ∀ x, shared[n]? = some x → Allowed (sheet (shared.take n)) x.1 := by
    intro n hn x hx
    simp only [shared, List.length_cons, List.length_nil] at hn
    rcases n with _|_|_|_|_|_|_|_|_|_|_|_|_|_|_|_|n <;> (try omega) <;> (cases hx; simp only [Allowed]; decide +kernel)
  intro a x b e
  have h1 : shared[a.length]? = some x := by simp [e]
  have h2 : shared.take a.length = a := by simp [e]
  have h3 : a.length < shared.length := by simp [e]
  have := key a.length h3 x h1
  rwa [h2] at this

private theorem shared_exec : ∃ s, Exec step init shared s := by
  obtain ⟨s, hs⟩ : ∃ s, Broker.run init (shared.map (·.1)) = .ok (s, shared.map (·.2)) := ⟨_, rfl⟩
  refine ⟨s, ?_⟩
  have := (Exec.extend (.nil (step := step) (s₀ := init)) (run := Broker.run) (fun _ => rfl) (fun _ _ _ => rfl)
    _ _ _ hs).2
  rwa [List.nil_append, List.zip_map', List.map_id'' (fun _ => rfl)] at this

/-- In a process in which calls to open and close do not overlap with others, and which closes and looks things up only
with a connection, every call gets the answer due: opening makes a connection if there is none and shares it if there is
one; closing destroys it unless two or more objects are registered; nothing waits forever and nothing is undefined.
Each of the conditions is needed, as shown below. -/
theorem C106_answers_partial (h : List (Event × Out)) (s : State) (hx : Exec step init h s) (ho : Orderly h) (e : Event)
    (ha : Allowed (sheet h) e) : ∃ s', step s e = .ok (s', answer (sheet h) e) :=
  let ⟨s', hs, _⟩ := rel_step (rel_exec hx ho) ha
  ⟨s', hs⟩

example : ∃ s, Exec step init shared s := shared_exec
example : Orderly shared := shared_orderly
example : sheet shared = ⟨none, some 0⟩ ∧ Allowed (sheet shared) (.close 2) := ⟨by decide +kernel, by
  simp only [Allowed]; decide +kernel⟩

/-- Whatever threads do at the same time, there is at most one connection: as many were destroyed as were made, or one
less. -/
theorem C106_one (h : List (Event × Out)) (s : State) (hx : Exec step init h s) :
    h.countP (fun x => x.2 = .connected) = h.countP (fun x => x.2 = .destroyed) ∨
    h.countP (fun x => x.2 = .connected) = h.countP (fun x => x.2 = .destroyed) + 1 := by
  have := (any_exec hx).one
  split at this <;> omega

example : shared.countP (fun x => x.2 = .connected) = 2 := by decide +kernel

/-- A call waits for the mutex only when another thread was told by closing that there is no connection. -/
theorem C106_waits (h : List (Event × Out)) (s : State) (hx : Exec step init h s) (a b : List (Event × Out)) (e : Event)
    (hh : h = a ++ (e, .blocked) :: b) : ∃ t, t ≠ e.thread ∧ (.close t, .invalidState) ∈ a := by
  obtain ⟨s1, s2, h1, h2⟩ := hx.at a _ _ b hh
  have ha := any_exec h1
  generalize ho : Out.blocked = o at h2
  cases kind_of_step h2 <;> try cases ho
  case wait t r b m op hm hw =>
    obtain ⟨u, hu, hne⟩ := hw
    exact ⟨u, hne, ha.owner u hu⟩
  case stay _ hs => rcases hs with hs | hs | hs <;> cases hs
  case blocked hw =>
    obtain ⟨u, hu, hne⟩ := hw
    exact ⟨u, hne, ha.owner u hu⟩

example : ∃ s, Broker.run init [.open 0, .opened 0 false, .close 0, .open 1, .opened 1 true] =
    .ok (s, [.pending, .general, .invalidState, .pending, .blocked]) := ⟨_, rfl⟩

/-- Closing when the connection could not be opened is answered with an error, and leaves the mutex locked: whatever the
other threads do then, none of them ever gets a connection; opening waits until the thread that closed makes another
call. -/
theorem C106_stuck_fails : ∃ s, Broker.run init [.open 0, .opened 0 false, .close 0] =
      .ok (s, [.pending, .general, .invalidState]) ∧
    ∀ es, (∀ e ∈ es, e.thread ≠ 0) → Broker.run s es ≠ .ub ∧
      ∀ s' os, Broker.run s es = .ok (s', os) → ∀ o ∈ os, o ∈ [Out.pending, .blocked, .invalidState, .general] :=
  ⟨⟨true, .held 0, false, .absent, [], []⟩, rfl, fun _ he => stuck_run ⟨rfl, rfl, rfl, rfl, by simp⟩ he⟩

/-- Closing twice locks a mutex that was destroyed, and closing without having opened one that was never made. -/
theorem C106_twice_fails : Broker.run init [.open 0, .opened 0 true, .close 0, .closed 0, .close 0] = .ub ∧
    Broker.run init [.close 0] = .ub := ⟨rfl, rfl⟩

/-- One who has a single object registered loses it and the connection when another closes: registering is answered with
an error then, and calls that do not ask for the connection, like rbus_registerMethod, lock a mutex that was destroyed.
With two objects closing leaves the connection alone. -/
theorem C106_last_fails :
    (∃ s, Broker.run init [.open 0, .opened 0 true, .register 0, .open 1, .opened 1 true, .close 1, .closed 1,
      .register 0] =
      .ok (s, [.pending, .connected, .success, .pending, .shared, .pending, .destroyed, .invalidState])) ∧
    Broker.run init [.open 0, .opened 0 true, .register 0, .open 1, .opened 1 true, .close 1, .closed 1, .look 0] = .ub :=
  ⟨⟨_, rfl⟩, rfl⟩

/-- Closing lets go of the mutex when the lists are destroyed and the connection is not: one who opens in between is
told of success and has no connection after, and one who registers uses a list that was freed. -/
theorem C106_between_fails :
    (∃ s, Broker.run init [.open 0, .opened 0 true, .close 0, .open 1, .opened 1 true, .closed 0, .register 1] =
      .ok (s, [.pending, .connected, .pending, .pending, .shared, .destroyed, .invalidState])) ∧
    Broker.run init [.open 0, .opened 0 true, .close 0, .register 1] = .ub := ⟨⟨_, rfl⟩, rfl⟩

/-- Two threads that open the first connection at the same time may both make the mutex, the second while it is in use. -/
theorem C106_first_fails : Broker.run init [.open 0, .open 1, .opened 0 true, .opened 1 true] = .ub := rfl

/-- After opening failed, a call that does not ask for the connection, like rbus_registerMethod, uses a list that was
freed. -/
theorem C106_failed_fails : Broker.run init [.open 0, .opened 0 false, .look 0] = .ub := rfl

end Verif.Props
