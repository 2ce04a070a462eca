import Verif.Proof.Semaphore

/-!
# C72: semaphores

`Exec step .init h s`: `h` is what happened so far to a new semaphore, with what was seen of it, and nothing undefined
happened. Any number of threads post and wait, and waits end for no reason as POSIX allows.
-/

namespace Verif.Props

open Verif
open Verif.Spec.Semaphore

theorem sem_exec {es : List Semaphore.Op} {s : Semaphore.State} {os : List Semaphore.Out}
    (h : Semaphore.run .init es = .ok (s, os)) : Exec Semaphore.step .init (es.zip os) s := by
  have := Exec.extend (step := Semaphore.step) (h := []) (s := .init) .nil (run := Semaphore.run)
    (fun _ => rfl) (fun _ _ _ => rfl) es s os h
  simpa using this.2

/-- C72. No wake-up is lost: when a thread waits, and no thread is about to wake it or to return from its own wait, at least
as many waits have succeeded as there were posts. -/
theorem C72_no_lost_wakeup {h : Spec.Semaphore.History} {s : Semaphore.State} (hx : Exec Semaphore.step .init h s)
    (hw : s.waiting ≠ []) (h1 : s.woken = []) (h2 : s.posting = 0) : posts h ≤ passes h := by
  have i := exec_inv hx
  have := i.wake hw
  have := i.count
  simp only [h1, h2, List.length_nil] at *
  omega

example : ∃ s, Exec Semaphore.step .init
    (([.wait 1, .wait 2, .post, .signal (some 2), .resume 2] : List Semaphore.Op).zip
      [.silent, .silent, .silent, .silent, .passed 2]) s ∧ s.waiting = [1] ∧ s.woken = [] ∧ s.posting = 0 :=
  ⟨_, sem_exec rfl, rfl, rfl, rfl⟩

/-- C72 (partial: as long as conditions are not woken for no reason, `rtSemaphore_Post` is not interrupted before it wakes
the condition, and nobody begins to wait while a woken thread has not gone on; see `C72_spurious_fails` and
`C72_stolen_fails`). Never more waits have succeeded than there were posts, and a post that no wait has used is there for
the next. -/
theorem C72_count_partial {h : Spec.Semaphore.History} {s s' : Semaphore.State} {i : Nat} {o : Semaphore.Out}
    (hx : Exec orderlyStep .init h s) :
    passes h ≤ posts h ∧
    (orderlyStep s (.wait i) = .ok (s', o) → (o = .passed i ↔ passes h < posts h)) := by
  have d := exec_ord hx
  have hc := d.count
  refine ⟨by omega, fun hs => ?_⟩
  replace hs := orderly_ok hs
  simp only [Semaphore.step] at hs
  split at hs
  · cases hs
  · split at hs
    · cases hs
    · split at hs
      · cases hs
        simp
        omega
      · cases hs
        simp
        omega

/-- A run of orderly steps. -/
private def orderlyRun (s : Semaphore.State) : List Semaphore.Op → Res (Semaphore.State × List Semaphore.Out)
  | [] => .ok (s, [])
  | e :: es => do
    let (s1, o) ← orderlyStep s e
    let (s2, os) ← orderlyRun s1 es
    pure (s2, o :: os)

private theorem orderly_exec {es : List Semaphore.Op} {s : Semaphore.State} {os : List Semaphore.Out}
    (h : orderlyRun .init es = .ok (s, os)) : Exec orderlyStep .init (es.zip os) s := by
  have := Exec.extend (step := orderlyStep) (h := []) (s := .init) .nil (run := orderlyRun)
    (fun _ => rfl) (fun _ _ _ => rfl) es s os h
  simpa using this.2

example : ∃ s s', Exec orderlyStep .init
    (([.wait 1, .wait 2, .expire 1, .post, .signal (some 2), .resume 1, .post, .signal none, .resume 2] :
      List Semaphore.Op).zip
      [.silent, .silent, .silent, .silent, .silent, .timedOut 1, .silent, .silent, .passed 2]) s ∧
    orderlyStep s (.wait 3) = .ok (s', .passed 3) :=
  ⟨⟨1, [], [], [], 0, false⟩, _, orderly_exec rfl, rfl⟩

/-- C72 fails when `pthread_cond_wait` returns for no reason, as POSIX allows: the wait returns RT_OK although nothing was
posted, as the value is not tested in a loop (rtSemaphore.c:109-117). -/
theorem C72_spurious_fails : ¬ ∀ (h : Spec.Semaphore.History) (s : Semaphore.State),
    Exec Semaphore.step .init h s → passes h ≤ posts h := by
  intro hall
  have hx : Exec Semaphore.step .init
      (([.wait 1, .spurious 1, .resume 1] : List Semaphore.Op).zip [.silent, .silent, .passed 1])
      ⟨0, [], [], [], 0, false⟩ := sem_exec rfl
  have := hall _ _ hx
  revert this
  decide

/-- C72 fails also without that, with one thread that posts and one that waits: the post is used by a first wait, which
does not block, and the signal given afterwards, without the mutex (rtSemaphore.c:81-82), ends a second. -/
theorem C72_stolen_fails : ¬ ∀ (h : Spec.Semaphore.History) (s : Semaphore.State),
    Exec Semaphore.step .init h s → (∀ i o, (Semaphore.Op.spurious i, o) ∉ h) → passes h ≤ posts h := by
  intro hall
  have hx : Exec Semaphore.step .init
      (([.post, .wait 1, .wait 1, .signal (some 1), .resume 1] : List Semaphore.Op).zip
        [.silent, .passed 1, .silent, .silent, .passed 1])
      ⟨0, [], [], [], 0, false⟩ := sem_exec rfl
  have := hall _ _ hx (by intro i o h; simp at h)
  revert this
  decide

/-- C72 (partial: for destroying a semaphore that nobody is using; see `C72_destroy_fails`). As long as the semaphore is
there nothing undefined happens, and afterwards nothing undefined happens unless a new call is made on it. -/
theorem C72_destroy_partial {h : Spec.Semaphore.History} {s : Semaphore.State} {e : Semaphore.Op}
    (hx : Exec politeStep .init h s) (hub : Semaphore.step s e = .ub) : s.freed = true ∧ (e = .post ∨ e = .destroy ∨ ∃ i, e = .wait i) := by
  have hu := exec_unused hx
  cases hf : s.freed with
  | false =>
    exfalso
    cases e <;> simp only [Semaphore.step, hf] at hub <;> (repeat' (split at hub)) <;> simp_all
  | true =>
    refine ⟨rfl, ?_⟩
    obtain ⟨u1, u2, u3, u4⟩ := hu hf
    cases e with
    | post => exact .inl rfl
    | destroy => exact .inr (.inl rfl)
    | wait i => exact .inr (.inr ⟨i, rfl⟩)
    | signal w => simp [Semaphore.step, u4] at hub
    | spurious i => simp [Semaphore.step, u1] at hub
    | expire i => simp [Semaphore.step, u1] at hub
    | resume i => simp [Semaphore.step, u2, u3] at hub

example : Exec politeStep .init [(.post, .silent), (.signal none, .silent), (.destroy, .silent)] ⟨1, [], [], [], 0, true⟩ ∧
    Semaphore.step ⟨1, [], [], [], 0, true⟩ (.wait 1) = .ub :=
  ⟨.snoc (.snoc (.snoc .nil rfl) rfl) rfl, rfl⟩

/-- C72 fails when a thread destroys the semaphore as soon as its wait has succeeded, as one may do with `sem_post` and
`sem_destroy`: `rtSemaphore_Post` uses it after it has let the waiting thread go on (rtSemaphore.c:81-82).
`rtConnection_SendRequestInternal` does so, but holds a mutex that the posting thread holds, unless it has timed out. -/
theorem C72_destroy_fails : ¬ ∀ (h : Spec.Semaphore.History) (s : Semaphore.State) (i : Nat),
    Exec Semaphore.step .init (h ++ [(.wait i, .passed i), (.destroy, .silent)]) s → posts h = 1 →
    ∀ w, Semaphore.step s (.signal w) ≠ .ub := by
  intro hall
  have hx : Exec Semaphore.step .init
      (([.post, .wait 1, .destroy] : List Semaphore.Op).zip [.silent, .passed 1, .silent])
      ⟨0, [], [], [], 1, true⟩ := sem_exec rfl
  exact hall [(.post, .silent)] _ 1 hx (by decide) none rfl

end Verif.Props
