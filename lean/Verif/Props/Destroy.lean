import Verif.Proof.Destroy

/-!
# C90: destroying a connection
-/

namespace Verif.Props

open Verif Verif.Destroy

/-- A message is read and queued, the callback thread calls the application with it, and meanwhile another
thread destroys the connection; the callback returns, and all threads end. -/
private def orderlyEnd : List Event :=
  [.reader .closed true, .reader (.message 7) true, .reader .closed true, .worker true, .worker true, .worker true,
   .worker true, .worker true, .worker true, .reader .closed true, .destroy false, .destroyer, .destroyer, .destroyer,
   .reader (.message 8) true, .reader .closed true, .reader .closed true, .destroyer, .worker true, .worker true, .worker true, .worker true,
   .destroyer, .destroyer, .destroyer]

private def orderlySeen : List Obs :=
  [.nothing, .nothing, .queued 7, .nothing, .nothing, .nothing, .nothing, .nothing, .called 7, .nothing, .nothing,
   .nothing, .nothing, .nothing, .nothing, .queued 8, .nothing, .nothing, .back, .released [7], .nothing, .nothing, .nothing, .released [8],
   .finished]

/-- **C90.** Once destroying the connection has begun, no callback is called any more: a callback that runs
then was called before. -/
theorem C90_no_new_callbacks {es s os} (h : Destroy.run Destroy.init es = .ok (s, os)) (a b : Destroy.History) (i : Bool) (o : Obs)
    (hab : es.zip os = a ++ (.destroy i, o) :: b) (x : Event × Obs) (hx : x ∈ b) (m : Nat) : x.2 ≠ .called m := by
  have hexec := (run_exec h).2
  obtain ⟨c, d, rfl⟩ := List.append_of_mem hx
  obtain ⟨s1, s2, h1, h2⟩ := hexec.at (a ++ (.destroy i, o) :: c) x.1 x.2 d (by simp [hab])
  exact no_call (inv_exec h1) ((rel_exec h1).begun.mp ⟨(.destroy i, o), by simp, i, rfl⟩) h2 m

/-- **C90.** Partial: destroying a connection ends. From the call on, the threads of the connection and the
one that destroys it go on for at most fifteen steps, whatever is read from the socket; and until it
returns, one of them can go on without another message being read (`C90_not_stuck_partial`). A callback
must return, and connecting must succeed or fail, as one step. -/
theorem C90_ends_partial {es s os} (h : Destroy.run Destroy.init es = .ok (s, os)) (a b : Destroy.History) (i : Bool) (o : Obs)
    (hab : es.zip os = a ++ (.destroy i, o) :: b) : (b.filter (fun x => ofLibrary x.1)).length ≤ 15 := by
  have hexec := (run_exec h).2
  obtain ⟨s1, h1, h2⟩ := exec_split hexec (a ++ [(.destroy i, o)]) b (by simp [hab])
  have hb : 1 ≤ rank s1.destroyer := (rel_exec h1).begun.mp ⟨(.destroy i, o), by simp, i, rfl⟩
  have := (left_exec (inv_exec h1) hb h2).1
  have := left_le s1 hb
  simp only [libSteps] at *
  omega

/-- **C90.** Partial: until `rtConnection_Destroy` returns, some thread can go on: the callback thread, the
reader thread seeing the end of the connection, or the thread that destroys it; no wakeup is lost.
Missing: threads of the application that make the connection again meanwhile, see `C90_hang_fails`. -/
theorem C90_not_stuck_partial {es s os} (h : Destroy.run Destroy.init es = .ok (s, os)) (hb : Begun (es.zip os))
    (hf : ¬Finished (es.zip os)) (hc : Calm (es.zip os)) :
    ∃ e s' o, (e = .worker true ∨ e = .reader .closed true ∨ e = .destroyer) ∧ Destroy.step s e = .ok (s', o) := by
  have hexec := (run_exec h).2
  have hr := rel_exec hexec
  exact progress (inv_exec hexec) (dead_exec hexec hc) (hr.begun.mp hb) (fun h => hf (hr.finished.mpr h))

/-- **C90.** Partial: when `rtConnection_Destroy` has returned, nothing of the connection runs any more: no
callback, no reading. Missing: destroying the connection in a callback, see `C90_from_callback_fails`. -/
theorem C90_quiet_partial {es s os} (h : Destroy.run Destroy.init es = .ok (s, os)) (hw : ¬Within (es.zip os))
    (a b : Destroy.History) (e : Event) (hab : es.zip os = a ++ (e, .finished) :: b) (x : Event × Obs) (hx : x ∈ b) :
    ofLibrary x.1 = false := by
  have hexec := (run_exec h).2
  obtain ⟨c, d, rfl⟩ := List.append_of_mem hx
  obtain ⟨s1, s2, h1, h2⟩ := hexec.at (a ++ (e, .finished) :: c) x.1 x.2 d (by simp [hab])
  have hr := rel_exec h1
  have hi := inv_exec h1
  have h8 : rank s1.destroyer = 8 := hr.finished.mp ⟨(e, .finished), by simp, rfl⟩
  have hin : s1.inside = false := by
    cases hin : s1.inside with
    | false => rfl
    | true =>
      obtain ⟨y, hy, hy'⟩ := hr.within.mpr hin
      exact absurd ⟨y, by rw [hab]; simp at hy ⊢; grind, hy'⟩ hw
  have hwe : s1.worker = .ended := by
    rcases hi.worker (by omega) with h | h
    · exact h
    · rw [hin] at h; cases h
  have hre := hi.reader (by omega)
  have hg := rank_gone.mpr h8
  obtain ⟨x1, x2⟩ := x
  cases x1 <;> simp [Destroy.step, workerStep, readerStep, destroyerStep, hwe, hre, hg, ofLibrary] at h2 ⊢

/-- **C90.** When `rtConnection_Destroy` has returned, every message that was put in the queue has been
released exactly once, in the order in which they came. -/
theorem C90_released {es s os} (h : Destroy.run Destroy.init es = .ok (s, os)) (hf : Finished (es.zip os)) :
    accepted (es.zip os) = released (es.zip os) := by
  have hexec := (run_exec h).2
  have hr := rel_exec hexec
  have h8 := hr.finished.mp hf
  have hq := ((inv_exec hexec).posted (by omega)).2
  simpa [hq] using hr.queue

/-- **C90.** No wakeup is lost: while a message is in the queue, the callback thread does not wait for one. -/
theorem C90_awake {es s os} (h : Destroy.run Destroy.init es = .ok (s, os)) (hq : accepted (es.zip os) ≠ released (es.zip os)) :
    s.worker ≠ .asleep := by
  have hexec := (run_exec h).2
  intro ha
  have hr := (rel_exec hexec).queue
  rw [(inv_exec hexec).waiting (.inr ha), List.append_nil] at hr
  exact hq hr

/-- A message is queued while the callback thread is about to wait: it does not get there before it waits. -/
example : ∃ s, Destroy.run Destroy.init [.reader .closed true, .reader (.message 7) true, .worker true, .worker true, .worker true,
    .worker true, .worker true, .reader .closed true, .worker true, .worker true, .worker true] =
    .ok (s, [.nothing, .nothing, .nothing, .nothing, .nothing, .nothing, .nothing, .queued 7, .nothing, .nothing, .called 7]) :=
  ⟨_, rfl⟩

/-- **C90.** Partial: if nobody destroys the connection in a callback or while requests are on their way, and nobody sends
requests afterwards, nothing freed is used, in any interleaving. -/
theorem C90_safe_partial (es : List Event) (ho : Orderly false [] es) : Destroy.run Destroy.init es ≠ .ub :=
  orderly_run es Destroy.init inv_init rfl (by simp [Destroy.init, rank]) (by simpa [Destroy.init, rank] using ho)

/-- The example ends as it should: the destroyer returns, the message called for before is released once,
and the one read later is released without a callback. -/
example : ∃ s, Destroy.run Destroy.init orderlyEnd = .ok (s, orderlySeen) := ⟨_, rfl⟩
example : Orderly false [] orderlyEnd := by simp [orderlyEnd, Orderly]
example : Begun (orderlyEnd.zip orderlySeen) ∧ Finished (orderlyEnd.zip orderlySeen) :=
  ⟨⟨(.destroy false, .nothing), by decide +kernel, false, rfl⟩, ⟨(.destroyer, .finished), by decide +kernel, rfl⟩⟩
example : ¬Within (orderlyEnd.zip orderlySeen) := by
  rintro ⟨x, hx, h⟩
  have : ∀ x ∈ orderlyEnd.zip orderlySeen, x.1 ≠ .destroy true := by decide +kernel
  exact this x hx h
/-- Fourteen steps are taken there; and half way through, the hypotheses of `C90_not_stuck_partial` hold. -/
example : ((orderlyEnd.zip orderlySeen).drop 11 |>.filter (fun x => ofLibrary x.1)).length = 14 := by decide +kernel
example : Destroy.run Destroy.init (orderlyEnd.take 15) =
    .ok (⟨false, true, [7], [], [], .calling 7, .pushing 8, .joinReader, false⟩, orderlySeen.take 15) := rfl

/-- Destroying a connection is not safe while requests wait for their answers, though `rtConnection_Destroy`
means to wake them: it posts their semaphores and then destroys the list of requests, from which each of
them, woken up, removes its item. Whenever a request is still waiting when the connection is
destroyed, going on uses freed memory. -/
theorem C90_waiting_fails {es s os} (h : Destroy.run Destroy.init es = .ok (s, os)) (hf : Finished (es.zip os)) (i : Nat)
    (hi : i ∈ outstanding es) (timeUp : Bool) : Destroy.step s (.finish i timeUp) = .ub := by
  obtain ⟨hl, hexec⟩ := run_exec h
  have hr := rel_exec hexec
  have h8 := hr.finished.mp hf
  have hp := hr.pending
  rw [List.map_fst_zip (by omega)] at hp
  rw [hp] at hi
  have hpo := ((inv_exec hexec).posted (by omega)).1
  simp [Destroy.step, hi, hpo, rank_gone.mpr h8]

/-- Such an execution: one request is waiting, and the connection is destroyed. -/
private def waitingEnd : List Event :=
  [.request 3, .destroy false, .destroyer, .destroyer, .destroyer, .reader .closed true, .destroyer, .worker true, .destroyer,
   .destroyer, .destroyer]
example : ∃ s os, Destroy.run Destroy.init waitingEnd = .ok (s, os) ∧ Finished (waitingEnd.zip os) ∧ 3 ∈ outstanding waitingEnd :=
  ⟨_, _, rfl, ⟨(.destroyer, .finished), by decide +kernel, rfl⟩, by decide⟩

/-- A connection cannot be destroyed in a callback: the thread does not wait for itself, so the connection is
freed while the callback thread is in use of it; when the callback returns, freed memory is used, in every
such execution. -/
theorem C90_from_callback_fails {es s os} (h : Destroy.run Destroy.init es = .ok (s, os)) (hf : Finished (es.zip os))
    (hw : Within (es.zip os)) (l : Bool) :
    Destroy.step s (.worker l) = .ub ∨ ∃ s', Destroy.step s (.worker l) = .ok (s', .back) ∧ ∀ l', Destroy.step s' (.worker l') = .ub := by
  have hexec := (run_exec h).2
  have hr := rel_exec hexec
  have h8 := hr.finished.mp hf
  have hg := rank_gone.mpr h8
  rcases ((inv_exec hexec).inside (hr.within.mp hw)).2.2 h8 with h | ⟨m, h⟩
  · cases hwk : s.worker <;> rw [hwk] at h <;> simp [inCallback] at h
    rename_i m
    refine .inr ⟨{ s with worker := .returned m }, by simp [Destroy.step, workerStep, hg, hwk, inCallback], ?_⟩
    intro l'
    simp [Destroy.step, workerStep, inCallback, hg]
  · left
    simp [Destroy.step, workerStep, h, hg, inCallback]

private def insideEnd : List Event :=
  [.reader .closed true, .reader (.message 7) true, .reader .closed true, .worker true, .worker true, .worker true,
   .worker true, .worker true, .worker true, .destroy true, .destroyer, .destroyer, .destroyer, .reader .closed true,
   .destroyer, .destroyer, .destroyer, .destroyer]
example : ∃ s os, Destroy.run Destroy.init insideEnd = .ok (s, os) ∧ Finished (insideEnd.zip os) ∧ Within (insideEnd.zip os) :=
  ⟨_, _, rfl, ⟨(.destroyer, .finished), by decide +kernel, rfl⟩, ⟨(.destroy true, .nothing), by decide +kernel, rfl⟩⟩

/-- Destroying a connection need not end: a callback that sends something after the socket was shut down
makes the connection again, and a reader thread that had not yet looked at the old socket waits for data on
the new one, of which nobody tells it. Neither thread of the connection nor the one that destroys it can
go on, unless the router sends something or goes away. -/
theorem C90_hang_fails : ∃ es s os, Destroy.run Destroy.init es = .ok (s, os) ∧ (∀ i, .request i ∉ es) ∧ Begun (es.zip os) ∧
    ¬Finished (es.zip os) ∧ s.reader = .reading ∧
    (∀ l, Destroy.step s (.worker l) = .fail) ∧ Destroy.step s .spurious = .fail ∧ Destroy.step s .destroyer = .fail ∧
    ∀ ok, Destroy.step s (.reader .closed ok) = .fail := by
  refine ⟨[.reader .closed true, .reader (.message 7) true, .reader .closed true, .worker true, .worker true, .worker true,
   .worker true, .worker true, .worker true, .reader .closed true, .destroy false, .destroyer, .remake, .destroyer, .destroyer,
   .worker true, .worker true, .worker true], _, _, rfl, by simp, ⟨(.destroy false, .nothing), by decide +kernel, false, rfl⟩,
   ?_, rfl, fun _ => rfl, rfl, rfl, fun _ => rfl⟩
  rintro ⟨x, hx, h⟩
  revert x
  decide +kernel

/-- Messages taken in are not all delivered: those in the queue when the connection is destroyed are
released without a callback, and nobody is told. -/
theorem C90_undelivered_fails (m : Nat) : ∃ es s os, Destroy.run Destroy.init es = .ok (s, os) ∧ Orderly false [] es ∧
    .queued m ∈ os ∧ .finished ∈ os ∧ .called m ∉ os := by
  refine ⟨[.reader .closed true, .reader (.message m) true, .reader .closed true, .destroy false, .destroyer, .destroyer,
    .destroyer, .reader .closed true, .destroyer, .worker true, .destroyer, .destroyer, .destroyer], _, _, rfl,
    by simp [Orderly], by simp, by simp, by simp⟩

end Verif.Props
