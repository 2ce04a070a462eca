import Verif.Spec.Session

/-!
# C40: at most one session is open
-/

namespace Verif.Props

open Verif Verif.Session

private theorem step_create (c : BitVec 32) : step { current := c } .create =
    if c = 0#32 then ({ current := 1#32 }, .success, 1#32)
    else ({ current := c }, .sessionAlreadyExist, 0#32) := by
  by_cases h : c = 0#32
  · subst h; rfl
  · have h' : ¬ 0#32 = c := fun e => h e.symm
    simp [step, Verif.Session.create, requestSession, h, h']

private theorem step_close (c id : BitVec 32) : step { current := c } (.close id) =
    if id = 0#32 then ({ current := c }, .success, 0#32)
    else if id = c then ({ current := 0#32 }, .success, 0#32)
    else ({ current := c }, .sessionAlreadyExist, 0#32) := by
  by_cases h : id = 0#32
  · simp [step, close, h]
  · by_cases h' : id = c
    · subst h'
      simp [step, close, endSession, h]
    · simp [step, close, endSession, h, h']

private theorem count_run (c : BitVec 32) (ops : List Op) :
    created (ops.zip (Verif.Session.run ⟨c⟩ ops).2) + (if c = 0#32 then 0 else 1) =
      closed (ops.zip (Verif.Session.run ⟨c⟩ ops).2) +
        (if (Verif.Session.run ⟨c⟩ ops).1.current = 0#32 then 0 else 1) := by
  induction ops generalizing c with
  | nil => rfl
  | cons o os ih =>
    cases o with
    | create =>
      simp only [Verif.Session.run, step_create]
      by_cases h : c = 0#32
      · have := ih 1#32
        simp only [h, if_true, List.zip_cons_cons, created, closed] at this ⊢
        rw [if_neg (by decide)] at this
        omega
      · have := ih c
        simp only [h, if_false, List.zip_cons_cons, created, closed] at this ⊢
        exact this
    | close id =>
      simp only [Verif.Session.run, step_close]
      by_cases h0 : id = 0#32
      · have := ih c
        simp only [h0, if_true, List.zip_cons_cons, created, closed] at this ⊢
        omega
      · by_cases hc : id = c
        · have := ih 0#32
          have hc0 : ¬ c = 0#32 := hc ▸ h0
          simp only [hc, hc0, if_true, if_false, List.zip_cons_cons, created, closed] at this ⊢
          omega
        · have := ih c
          simp only [h0, hc, if_false, List.zip_cons_cons, created, closed] at this ⊢
          exact this
    | getCurrent => exact ih c

/-- **C40.** After every history of calls, by any number of clients, the sessions handed out are as
many as those closed, or one more: at most one is open. Asking for the current session tells which of
the two it is. -/
theorem C40_at_most_one_open (ops : List Op) :
    let s := (Verif.Session.run init ops).1
    let h := history ops
    closed h ≤ created h ∧ created h ≤ closed h + 1 ∧
    (created h = closed h ↔ (step s .getCurrent).2 = (.success, 0#32)) := by
  have h2 := count_run 0#32 ops
  simp only [history, step, getCurrent, init] at h2 ⊢
  simp only [if_true, Nat.add_zero] at h2
  by_cases h : (Verif.Session.run { current := 0#32 } ops).1.current = 0#32
  · rw [if_pos h] at h2
    refine ⟨by omega, by omega, ?_⟩
    simp only [h, iff_true]; omega
  · rw [if_neg h] at h2
    refine ⟨by omega, by omega, ?_⟩
    simp only [Prod.mk.injEq, h, and_false, iff_false]; omega

/-- **C40.** A session is granted, with an id other than 0, exactly when none is open; while one is
open every request is refused and changes nothing. -/
theorem C40_request_refused_while_open (ops : List Op) :
    let s := (Verif.Session.run init ops).1
    let r := step s .create
    (created (history ops) = closed (history ops) →
      r.2.1 = .success ∧ r.2.2 ≠ 0#32 ∧ (step r.1 .getCurrent).2 = (.success, r.2.2)) ∧
    (created (history ops) ≠ closed (history ops) → r = (s, .sessionAlreadyExist, 0#32)) := by
  obtain ⟨-, -, h3⟩ := C40_at_most_one_open ops
  generalize (Verif.Session.run init ops).1 = s at *
  obtain ⟨c⟩ := s
  simp only [step, getCurrent, Prod.mk.injEq, true_and] at h3
  simp only [step_create]
  constructor
  · intro h
    rw [if_pos (h3.mp h)]
    decide
  · intro h
    rw [if_neg (fun hc => h (h3.mpr hc))]

/-- **C40.** Closing with an id that is not the id of the open session closes nothing, and is refused
unless the id is the default 0. Closing with the id of the open session closes it. -/
theorem C40_close_needs_id (ops : List Op) (id : BitVec 32) :
    let s := (Verif.Session.run init ops).1
    let cur := (step s .getCurrent).2.2
    let r := step s (.close id)
    (id ≠ cur → r.1 = s ∧ (id ≠ 0#32 → r.2.1 = .sessionAlreadyExist)) ∧
    (id = cur → id ≠ 0#32 → r.2.1 = .success ∧ (step r.1 .getCurrent).2.2 = 0#32) := by
  generalize (Verif.Session.run init ops).1 = s
  obtain ⟨c⟩ := s
  simp only [step_close]
  simp only [step, getCurrent]
  constructor
  · intro h
    by_cases h0 : id = 0#32
    · rw [if_pos h0]; exact ⟨rfl, fun hh => absurd h0 hh⟩
    · rw [if_neg h0, if_neg h]; exact ⟨rfl, fun _ => rfl⟩
  · intro h h0
    rw [if_neg h0, if_pos h]
    exact ⟨rfl, rfl⟩

/-- **C40 fails** for the id of a session that is already closed: all sessions have the same id, so
whenever a client creates a session and closes it, and later (after `ops'`) another client creates
one, the first client's old id closes the session of the second. -/
theorem C40_stale_id_fails (ops ops' : List Op) (id id' : BitVec 32)
    (h1 : (step (Verif.Session.run init ops).1 .create).2 = (.success, id))
    (h2 : (step (Verif.Session.run init (ops ++ [.create, .close id] ++ ops')).1 .create).2 =
      (.success, id')) :
    (step (Verif.Session.run init (ops ++ [.create, .close id] ++ ops' ++ [.create])).1
      (.close id)).2.1 = .success ∧
    (step (step (Verif.Session.run init (ops ++ [.create, .close id] ++ ops' ++ [.create])).1
      (.close id)).1 .getCurrent).2.2 = 0#32 := by
  have app : ∀ (s : State) (xs : List Op), (Verif.Session.run s (xs ++ [.create])).1 =
      (step (Verif.Session.run s xs).1 .create).1 := by
    intro s xs
    induction xs generalizing s with
    | nil => rfl
    | cons x xs ih => simp only [List.cons_append, Verif.Session.run, ih]
  rw [app]
  generalize (Verif.Session.run init ops).1 = s at *
  generalize (Verif.Session.run init (ops ++ [.create, .close id] ++ ops')).1 = s' at *
  obtain ⟨c⟩ := s
  obtain ⟨c'⟩ := s'
  rw [step_create] at h1 h2 ⊢
  split at h1
  · split at h2
    · cases h1
      rw [if_pos ‹c' = 0#32›]
      decide
    · cases h2
  · cases h1

example : (step (Verif.Session.run init []).1 .create).2 = (.success, 1#32) ∧
    (step (Verif.Session.run init ([] ++ [.create, .close 1#32] ++ [.getCurrent])).1 .create).2 =
      (.success, 1#32) := by decide

example : created (history [.create, .create, .getCurrent]) = 1 ∧
    closed (history [.create, .create, .getCurrent]) = 0 := by decide

end Verif.Props
