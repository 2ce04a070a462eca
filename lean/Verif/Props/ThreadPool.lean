import Verif.Proof.ThreadPool

/-!
# C70, C71: the thread pool

`Exec step (State.init n) h s`: `h` is what happened so far in a pool made for at most `n` threads, with what was seen
of it, and nothing undefined happened. Workers go on in any order, wait as long as they like, and the pool is destroyed
at any time. See Spec/ThreadPool for the words used.
-/

namespace Verif.Props

open Verif Verif.ThreadPool
open Verif.Spec.ThreadPool

/-- From a run to a history. -/
theorem pool_exec {n : Nat} {es : List ThreadPool.Op} {s : ThreadPool.State} {os : List ThreadPool.Out}
    (h : ThreadPool.run (.init n) es = .ok (s, os)) : Exec ThreadPool.step (.init n) (es.zip os) s := by
  have := Exec.extend (step := ThreadPool.step) (h := []) (s := .init n) .nil (run := ThreadPool.run)
    (fun _ => rfl) (fun _ _ _ => rfl) es s os h
  simpa using this.2

/-- A run in which only the given steps are allowed. -/
def poolRun (st : ThreadPool.State → ThreadPool.Op → Res (ThreadPool.State × ThreadPool.Out)) (s : ThreadPool.State) :
    List ThreadPool.Op → Res (ThreadPool.State × List ThreadPool.Out)
  | [] => .ok (s, [])
  | e :: es => do
    let (s1, o) ← st s e
    let (s2, os) ← poolRun st s1 es
    pure (s2, o :: os)

theorem pool_exec_of {st : ThreadPool.State → ThreadPool.Op → Res (ThreadPool.State × ThreadPool.Out)} {n : Nat}
    {es : List ThreadPool.Op} {s : ThreadPool.State} {os : List ThreadPool.Out}
    (h : poolRun st (.init n) es = .ok (s, os)) : Exec st (.init n) (es.zip os) s := by
  have := Exec.extend (step := st) (h := []) (s := .init n) .nil (run := poolRun st)
    (fun _ => rfl) (fun _ _ _ => rfl) es s os h
  simpa using this.2

/-! ## C70: tasks are run once, in order -/

/-- C70. The tasks started so far are the first ones of those given to the pool, in the same order, each as often as it
was given; and a task ends as often as it was started, but for those that are running. -/
theorem C70_order {n : Nat} {h : Spec.ThreadPool.History} {s : ThreadPool.State}
    (hx : Exec ThreadPool.step (.init n) h s) :
    started h <+: submitted h ∧ (finished h ++ inHand s).Perm (started h) := by
  have i := exec_inv hx
  refine ⟨⟨s.queue, i.order.symm⟩, ?_⟩
  rw [List.perm_iff_count]
  intro t
  rw [List.count_append, i.hands t]
  congr 1
  unfold inHand
  generalize s.workers = l
  induction l with
  | nil => rfl
  | cons p l ih =>
    rw [List.countP_cons, ← ih]
    cases p <;> simp [isRunOf, List.filterMap_cons, List.count_cons]

/-- Three tasks, two of which have begun and one has ended. -/
private def threeTasks : List ThreadPool.Op :=
  [.submit 7 none, .work 0, .submit 8 none, .work 1, .submit 7 none, .work 1]

private def threeSeen : List ThreadPool.Out :=
  [.submitted false, .worked none (.took 7), .submitted false, .worked none (.took 8), .submitted true,
    .worked (some 8) (.took 7)]

example : ∃ s, Exec ThreadPool.step (.init 2) (threeTasks.zip threeSeen) s ∧
    submitted (threeTasks.zip threeSeen) = [7, 8, 7] ∧ started (threeTasks.zip threeSeen) = [7, 8, 7] ∧
    finished (threeTasks.zip threeSeen) = [8] ∧ inHand s = [7, 7] :=
  ⟨_, pool_exec rfl, rfl, rfl, rfl, rfl⟩

/-- C70 (partial: as long as no worker that has waited long enough leaves while there is a task that nobody has started,
see `C70_lost_fails`). When all workers wait or have left, and the pool has not been stopped, every task given to the pool
has been started, and has ended. -/
theorem C70_seen_partial {n : Nat} {h : Spec.ThreadPool.History} {s : ThreadPool.State} (hn : 0 < n)
    (hx : Exec ThreadPool.step (.init n) h s) (hu : Unhurried h) (hns : ¬ Stopped h)
    (hw : ∀ p ∈ s.workers, ¬ Active p) : started h = submitted h ∧ (finished h).Perm (submitted h) := by
  have i := exec_inv hx
  have w := exec_wake hn hx hu
  have hr : s.isRunning = true := by
    cases hr : s.isRunning with
    | true => rfl
    | false => exact absurd (i.stops.1 hr) hns
  have hq : s.queue = [] := by
    refine Classical.byContradiction fun hq => ?_
    obtain ⟨p, hp, ha⟩ := w.seen hr hq
    exact hw p hp ha
  have ho : started h = submitted h := by rw [i.order, hq, List.append_nil]
  refine ⟨ho, ?_⟩
  rw [← ho]
  have h0 : inHand s = [] := by
    unfold inHand
    rw [List.filterMap_eq_nil_iff]
    intro p hp
    cases p with
    | running t => exact absurd trivial (hw _ hp)
    | _ => rfl
  have := (C70_order hx).2
  rwa [h0, List.append_nil] at this

private def oneTask : List ThreadPool.Op := [.submit 7 none, .work 0, .work 0]

private def oneSeen : List ThreadPool.Out :=
  [.submitted false, .worked none (.took 7), .worked (some 7) .waits]

example : ∃ s, Exec ThreadPool.step (.init 1) (oneTask.zip oneSeen) s ∧ Unhurried (oneTask.zip oneSeen) ∧
    ¬ Stopped (oneTask.zip oneSeen) ∧ (∀ p ∈ s.workers, ¬ Active p) := by
  refine ⟨⟨[], [.waiting], 1, 1, 0, true, false, none, false⟩, pool_exec rfl, ?_, ?_, ?_⟩
  · intro a j f b hab
    have : (ThreadPool.Op.work j, ThreadPool.Out.worked f .left) ∈ oneTask.zip oneSeen := by rw [hab]; simp
    simp [oneTask, oneSeen] at this
  · rintro ⟨c, hc⟩
    simp [oneTask, oneSeen] at hc
  · intro p hp
    rw [List.mem_singleton.1 hp]
    exact id

/-- C70 fails when a worker has just waited long enough: `rtThreadPool_RunTask` counts it as idle and starts no thread,
it leaves without looking at the list, and the task is never run although RT_OK was returned
(rtThreadPool.c:141-145, 318-323). -/
theorem C70_lost_fails : ¬ ∀ (n : Nat) (h : Spec.ThreadPool.History) (s : ThreadPool.State), 0 < n →
    Exec ThreadPool.step (.init n) h s → ¬ Stopped h → (∀ p ∈ s.workers, ¬ Active p) → started h = submitted h := by
  intro hall
  have hx : Exec ThreadPool.step (.init 1)
      (([.submit 7 none, .work 0, .work 0, .timeout 0, .submit 8 none, .work 0, .work 0] : List ThreadPool.Op).zip
        [.submitted false, .worked none (.took 7), .worked (some 7) .waits, .silent, .submitted false,
          .worked none .left, .silent])
      ⟨[8], [.gone], 1, 0, 0, true, false, none, false⟩ := pool_exec rfl
  have := hall 1 _ _ (by decide) hx (by
    rintro ⟨c, hc⟩
    simp at hc) (by
    intro p hp
    rw [List.mem_singleton.1 hp]
    exact id)
  revert this
  decide

/-- C70 (partial: as long as no task is given to the pool while a thread just made has not begun, see `C70_max_fails`). Not
more tasks run at a time than the pool was made for. -/
theorem C70_max_partial {n : Nat} {h : Spec.ThreadPool.History} {s : ThreadPool.State}
    (hx : Exec spacedStep (.init n) h s) : (inHand s).length ≤ n := by
  have ht := spaced_total hx
  rw [inHand_length]
  have : s.workers.countP isRun ≤ s.workers.countP counted := by
    apply List.countP_mono_left
    intro p _ hp
    cases p <;> first | rfl | (cases hp; done)
  have h2 := ht.2
  unfold total at h2
  omega

example : ∃ s, Exec spacedStep (.init 2) (threeTasks.zip threeSeen) s ∧ (inHand s).length = 2 :=
  ⟨_, pool_exec_of rfl, rfl⟩

/-- C70 fails when a task is given to the pool before the thread made for the one before has begun: threads are counted
only when they begin (rtThreadPool.c:121, 325), so that more of them are made than the pool was made for. -/
theorem C70_max_fails : ¬ ∀ (n : Nat) (h : Spec.ThreadPool.History) (s : ThreadPool.State),
    Exec ThreadPool.step (.init n) h s → (inHand s).length ≤ n := by
  intro hall
  have hx : Exec ThreadPool.step (.init 1)
      (([.submit 7 none, .submit 8 none, .work 0, .work 1] : List ThreadPool.Op).zip
        [.submitted false, .submitted false, .worked none (.took 7), .worked none (.took 8)])
      ⟨[], [.running 7, .running 8], 1, 2, 2, true, false, none, false⟩ := pool_exec rfl
  have := hall 1 _ _ hx
  revert this
  decide

/-- C70 (partial: as above). RT_ERROR_THREADPOOL_TASK_PENDING is returned exactly when as many tasks run as the pool was
made for. -/
theorem C70_pending_partial {n : Nat} {h : Spec.ThreadPool.History} {s s' : ThreadPool.State} {t : Nat}
    {w : Option Nat} {p : Bool} (hx : Exec spacedStep (.init n) h s)
    (hs : spacedStep s (.submit t w) = .ok (s', .submitted p)) : p = true ↔ (inHand s).length = n := by
  have ht := spaced_total hx
  have i := exec_inv (exec_mono (fun _ _ _ => spaced_step) hx)
  have hc : s.workers.countP isRun ≤ s.workers.countP counted := by
    apply List.countP_mono_left
    intro p _ hp
    cases p <;> first | rfl | (cases hp; done)
  have h2 := ht.2
  unfold total at h2
  rw [inHand_length, ← i.busy]
  have hb := i.busy
  have hth := i.threads
  have hm := ht.1
  replace hs := spaced_step hs
  simp only [ThreadPool.step] at hs
  split at hs
  · cases hs
  · unfold ThreadPool.submit at hs
    simp only [] at hs
    split at hs
    · rename_i hlt
      have : s.busy ≠ n := by omega
      cases w with
      | none =>
        simp only [] at hs
        split at hs
        · cases hs
        · cases hs; simp [this]
      | some j =>
        simp only [] at hs
        split at hs
        · cases hs; simp [this]
        · cases hs
    · rename_i hlt
      split at hs
      · cases hs
      · split at hs
        · have : s.busy ≠ n := by omega
          cases hs; simp [this]
        · have : s.busy = n := by omega
          cases hs; simp [this]

example : ∃ s s', Exec spacedStep (.init 2) ((threeTasks.take 4).zip (threeSeen.take 4)) s ∧
    spacedStep s (.submit 7 none) = .ok (s', .submitted true) :=
  ⟨⟨[], [.running 7, .running 8], 2, 2, 2, true, false, none, false⟩, _, pool_exec_of rfl, rfl⟩

/-- C70 fails also in this: when no RT_ERROR_THREADPOOL_TASK_PENDING was returned and every worker has begun, a task may
wait for another to end although the pool was made for more threads. An idle worker that has been woken is counted as
idle until it has begun, and no thread is made for the next task (rtThreadPool.c:318-323). -/
theorem C70_serial_fails : ¬ ∀ (n : Nat) (h : Spec.ThreadPool.History) (s : ThreadPool.State),
    Exec ThreadPool.step (.init n) h s → ¬ Stopped h → (∀ e, (e, Out.submitted true) ∉ h) →
    (∀ p ∈ s.workers, p ≠ .starting ∧ p ≠ .woken ∧ p ≠ .expired) →
    started h = submitted h ∨ (inHand s).length = n := by
  intro hall
  have hx : Exec ThreadPool.step (.init 2)
      (([.submit 7 none, .work 0, .work 0, .submit 8 (some 0), .submit 9 none, .work 0] : List ThreadPool.Op).zip
        [.submitted false, .worked none (.took 7), .worked (some 7) .waits, .submitted false, .submitted false,
          .worked none (.took 8)])
      ⟨[9], [.running 8], 2, 1, 1, true, false, none, false⟩ := pool_exec rfl
  have := hall 2 _ _ hx (by rintro ⟨c, hc⟩; simp at hc) (by intro e he; simp at he) (by
    intro p hp
    rw [List.mem_singleton.1 hp]
    simp)
  revert this
  decide

/-! ## C71: destroying a thread pool -/

/-- C71. `rtThreadPool_Destroy` returns RT_OK exactly when every task had been started when it stopped the workers, and
RT_ERROR_THREADPOOL_TASKS_CANCELLED otherwise. No task is started after that. When it was told to wait for all tasks,
those started have ended by then. -/
theorem C71_result {n : Nat} {h a b : Spec.ThreadPool.History} {s : ThreadPool.State} {c : Bool}
    (hx : Exec ThreadPool.step (.init n) h s) (hh : h = a ++ (.stop, .stopped c) :: b) :
    (c = false ↔ started a = submitted a) ∧ started h = started a ∧ submitted h = submitted a ∧
    ∀ o, (ThreadPool.Op.destroy true, o) ∈ a → (started a).Perm (finished a) := by
  obtain ⟨s1, s2, hx1, hs⟩ := Exec.at hx _ _ _ _ hh
  have i := exec_inv hx1
  have he := exec_ends hx1
  obtain ⟨hc, f, hd, hb⟩ := stop_found hs
  have hafter := after_stop hx a c b hh
  refine ⟨?_, hafter.1, hafter.2, ?_⟩
  · rw [hc, i.order]
    constructor
    · intro h; simp [h]
    · intro h; simpa using h
  · intro o hm
    have := he.kind true f o hm hd
    exact idle_perm i (hb this.symm)

/-- C71 (partial: when a task is running, or none waits to be started, at the time of the call; see `C71_waits_fails`).
Destroying a pool and waiting for all tasks returns RT_OK, every task has been started and has ended. -/
theorem C71_waits_partial {n : Nat} {h a d b : Spec.ThreadPool.History} {s : ThreadPool.State} {o : ThreadPool.Out}
    {c : Bool} (hx : Exec ThreadPool.step (.init n) h s)
    (hh : h = (a ++ (.destroy true, o) :: d) ++ (.stop, .stopped c) :: b)
    (hc : started a = submitted a ∨ ∃ t, (finished a).count t < (started a).count t) :
    c = false ∧ started h = submitted h ∧ (finished (a ++ (.destroy true, o) :: d)).Perm (submitted h) := by
  obtain ⟨r1, r2, r3, r4⟩ := C71_result hx hh
  obtain ⟨s1, s2, hx1, hs⟩ := Exec.at hx _ _ _ _ hh
  obtain ⟨hq, f, hd, hb⟩ := stop_found hs
  have he := exec_ends hx1
  have hf := he.kind true f o (by simp) hd
  obtain ⟨_, hserved⟩ := exec_served hx1 a true o d rfl hc
  have hrun : s1.isRunning = true := by
    cases hr : s1.isRunning with
    | true => rfl
    | false =>
      have := he.stop.1 hr
      rw [hd] at this
      cases this
  have hq0 : s1.queue = [] := by
    rcases hserved hrun with h | h
    · have := hb hf.symm
      omega
    · exact h
  have hcf := hq.2 hq0
  refine ⟨hcf, by rw [r2, r3, r1.1 hcf], ?_⟩
  rw [r3, ← r1.1 hcf]
  exact (r4 o (by simp)).symm

/-- Three tasks for one worker; the pool is destroyed while the first runs. -/
private def closing : List ThreadPool.Op :=
  [.submit 7 none, .work 0, .submit 8 none, .submit 9 none, .destroy true, .work 0, .work 0, .work 0, .stop]

private def closingSeen : List ThreadPool.Out :=
  [.submitted false, .worked none (.took 7), .submitted true, .submitted true, .silent, .worked (some 7) (.took 8),
    .worked (some 8) (.took 9), .worked (some 9) .waits, .stopped false]

example : ∃ s, Exec ThreadPool.step (.init 1) (closing.zip closingSeen) s ∧
    closing.zip closingSeen =
      ((closing.zip closingSeen).take 4 ++ (.destroy true, .silent) :: ((closing.zip closingSeen).drop 5).take 3) ++
        (.stop, .stopped false) :: [] ∧
    (finished ((closing.zip closingSeen).take 4)).count 7 < (started ((closing.zip closingSeen).take 4)).count 7 :=
  ⟨_, pool_exec rfl, rfl, by decide⟩

/-- C71 fails when a task has been given to the pool and its worker has not begun: waiting for all tasks waits only while
a worker is counted as busy (rtThreadPool.c:243-247), so that the task is cancelled. The warning at 269 is about this. -/
theorem C71_waits_fails : ¬ ∀ (n : Nat) (h a b : Spec.ThreadPool.History) (s : ThreadPool.State) (o : ThreadPool.Out)
    (c : Bool), 0 < n → Exec ThreadPool.step (.init n) h s → h = a ++ (.stop, .stopped c) :: b →
    (ThreadPool.Op.destroy true, o) ∈ a → c = false := by
  intro hall
  have hx : Exec ThreadPool.step (.init 1)
      (([.submit 7 none, .destroy true, .stop] : List ThreadPool.Op).zip [.submitted false, .silent, .stopped true])
      ⟨[7], [.starting], 1, 0, 0, false, false, some .stopped, false⟩ := pool_exec rfl
  have := hall 1 _ [(.submit 7 none, .submitted false), (.destroy true, .silent)] [] _ .silent true (by decide) hx rfl
    (by simp)
  cases this

/-- C71 (partial: as long as a thread that is leaving the pool is not interrupted by another, and the workers are not
stopped while one of them has not begun; see `C71_memory_fails` and `C71_twice_fails`). Nothing undefined happens, and the
pool is freed exactly when all workers have ended and `rtThreadPool_Destroy` has returned. -/
theorem C71_memory_partial {n : Nat} {h : Spec.ThreadPool.History} {s : ThreadPool.State}
    (hx : Exec calmStep (.init n) h s) :
    (∀ e, ThreadPool.step s e ≠ .ub) ∧
    (s.freed = true ↔ (∀ p ∈ s.workers, p = .gone) ∧ s.destroyer = some .done) :=
  ⟨calm_safe (exec_calm hx),
    calm_freed (exec_calm hx) (exec_inv (exec_mono (fun _ _ _ => calm_ok) hx)).threads⟩

/-- C71 (partial: as above). Once the workers have been stopped the threads go on until the pool is freed. -/
theorem C71_end_partial {n : Nat} {h : Spec.ThreadPool.History} {s : ThreadPool.State}
    (hx : Exec calmStep (.init n) h s) (hst : Stopped h) (hno : ∀ e r, calmStep s e ≠ .ok r) : s.freed = true :=
  calm_done hx hst hno

/-- The first worker is the last to leave. -/
private def partingOps : List ThreadPool.Op :=
  [.submit 7 none, .work 0, .submit 8 none, .work 1, .work 1, .destroy false, .stop, .goOn, .goOn, .work 1, .work 1,
    .work 0, .work 0, .work 0]

private def partingSeen : List ThreadPool.Out :=
  [.submitted false, .worked none (.took 7), .submitted false, .worked none (.took 8), .worked (some 8) .waits, .silent,
    .stopped false, .silent, .silent, .worked none .left, .silent, .worked (some 7) .left, .silent, .silent]

example : ∃ s, Exec calmStep (.init 2) (partingOps.zip partingSeen) s ∧ Stopped (partingOps.zip partingSeen) ∧
    s.freed = true ∧ ∀ e r, calmStep s e ≠ .ok r := by
  refine ⟨⟨[], [.gone, .gone], 2, 0, 0, false, true, some .done, true⟩, pool_exec_of rfl, ⟨false, by decide⟩, rfl, ?_⟩
  intro e r
  have step0 : ∀ i : Nat, ([Pc.gone, Pc.gone] : List Pc)[i]? = none ∨ ([Pc.gone, Pc.gone] : List Pc)[i]? = some .gone := by
    intro i
    match i with
    | 0 => exact .inr rfl
    | 1 => exact .inr rfl
    | _ + 2 => exact .inl rfl
  cases e with
  | work i =>
    rcases step0 i with h | h <;>
      simp [calmStep, ofParting, Pc.parting, parting, ThreadPool.step, ThreadPool.work, h]
  | timeout i =>
    rcases step0 i with h | h <;> simp [calmStep, ofParting, Pc.parting, parting, ThreadPool.step, h]
  | spurious i =>
    rcases step0 i with h | h <;> simp [calmStep, ofParting, Pc.parting, parting, ThreadPool.step, h]
  | _ => simp [calmStep, ofParting, Pc.parting, parting, ThreadPool.step]

/-- C71 fails when the pool is destroyed before a worker just made has begun: it is not counted, the pool is freed, and
the worker uses it afterwards (rtThreadPool.c:75, 120-121). -/
theorem C71_memory_fails : ¬ ∀ (n : Nat) (h : Spec.ThreadPool.History) (s : ThreadPool.State) (e : ThreadPool.Op),
    Exec ThreadPool.step (.init n) h s → ThreadPool.step s e ≠ .ub := by
  intro hall
  have hx : Exec ThreadPool.step (.init 1)
      (([.submit 7 none, .destroy true, .stop, .goOn, .goOn, .goOn] : List ThreadPool.Op).zip
        [.submitted false, .silent, .stopped true, .silent, .silent, .silent])
      ⟨[7], [.starting], 1, 0, 0, false, true, some .done, true⟩ := pool_exec rfl
  exact hall 1 _ _ (.work 0) hx rfl

/-- C71 fails also when all workers have begun: the last worker and the destroying thread may both find that no worker is
left, as `rtThreadPool_TryRealDestroy` decides under the lock and frees the pool without it (rtThreadPool.c:74-86). The
pool is then freed twice. -/
theorem C71_twice_fails : ¬ ∀ (n : Nat) (h : Spec.ThreadPool.History) (s : ThreadPool.State) (e : ThreadPool.Op),
    Exec ThreadPool.step (.init n) h s → Pc.starting ∉ s.workers → ThreadPool.step s e ≠ .ub := by
  intro hall
  have hx : Exec ThreadPool.step (.init 1)
      (([.submit 7 none, .work 0, .work 0, .destroy true, .stop, .goOn, .work 0, .work 0, .goOn, .goOn] :
          List ThreadPool.Op).zip
        [.submitted false, .worked none (.took 7), .worked (some 7) .waits, .silent, .stopped false, .silent,
          .worked none .left, .silent, .silent, .silent])
      ⟨[], [.destroying], 1, 0, 0, false, true, some .done, true⟩ := pool_exec rfl
  exact hall 1 _ _ (.work 0) hx (by decide) rfl

/-! ## Waiting for some time -/

/-- Nanoseconds of a time. -/
def poolNanos (t : Int × Int) : Int := t.1 * 1000000000 + t.2

/-- The time between the first and the second of each. -/
def waited : List ((Int × Int) × (Int × Int)) → Int
  | [] => 0
  | (a, b) :: ws => (poolNanos b - poolNanos a) + waited ws

/-- C71. The wait is asked to end after the time given. -/
theorem C71_deadline (t : Int × Int) (ms : Int) (ht : 0 ≤ t.2 ∧ t.2 < 1000000000) (hm : 0 ≤ ms) :
    poolNanos (addMs t ms) = poolNanos t + ms * 1000000 ∧ 0 ≤ (addMs t ms).2 ∧ (addMs t ms).2 < 1000000000 := by
  unfold addMs poolNanos
  simp only []
  split <;> refine ⟨?_, ?_, ?_⟩ <;> simp only [] <;> omega

example : addMs (5, 999000000) 2500 = (8, 499000000) := rfl

/-- C71 (partial: for waits that end at a later point of the second than they began, see `C71_elapsed_fails`). While tasks
go on running the time left is never less than what it should be. -/
theorem C71_elapsed_partial (ws : List ((Int × Int) × (Int × Int))) :
    ∀ ms : Int, (∀ w ∈ ws, w.1.1 ≤ w.2.1 ∧ w.1.2 ≤ w.2.2) →
      ms * 1000000 - waited ws ≤ remaining ms ws * 1000000 := by
  induction ws with
  | nil => intro ms _; simp [waited, remaining]
  | cons w ws ih =>
    intro ms hw
    obtain ⟨a, b⟩ := w
    have h1 := hw (a, b) (by simp)
    have h2 : ∀ w ∈ ws, w.1.1 ≤ w.2.1 ∧ w.1.2 ≤ w.2.2 := fun w hm => hw w (List.mem_cons_of_mem _ hm)
    have hpos : ∀ l : List ((Int × Int) × (Int × Int)), (∀ w ∈ l, w.1.1 ≤ w.2.1 ∧ w.1.2 ≤ w.2.2) → 0 ≤ waited l := by
      intro l hl
      induction l with
      | nil => simp [waited]
      | cons x l ihl =>
        obtain ⟨c, d⟩ := x
        have := hl (c, d) (by simp)
        have h3 := ihl fun w hm => hl w (List.mem_cons_of_mem _ hm)
        simp only [waited, poolNanos]
        simp only [] at this
        omega
    have hp := hpos ws h2
    simp only [remaining, waited]
    simp only [] at h1
    split
    · have := ih (ms - elapsed a b) h2
      unfold elapsed at this ⊢
      rw [if_pos h1.2] at this ⊢
      unfold poolNanos
      omega
    · unfold poolNanos
      omega

example : remaining 1500 [((5, 0), (5, 700000000)), ((5, 700000000), (5, 900000000))] = 600 := rfl

/-- C71 fails when a wait ends, because one of several tasks has ended, at an earlier point of the second than it began:
nanoseconds are taken for milliseconds (rtThreadPool.c:229-233), so that after half a second a wait of any time below 138
hours is over while a task is still running. -/
theorem C71_elapsed_fails : ¬ ∀ (ws : List ((Int × Int) × (Int × Int))) (ms : Int),
    (∀ w ∈ ws, poolNanos w.1 ≤ poolNanos w.2 ∧ 0 ≤ w.1.2 ∧ w.1.2 < 1000000000 ∧ 0 ≤ w.2.2 ∧ w.2.2 < 1000000000) →
    waited ws < ms * 1000000 → 0 < remaining ms ws := by
  intro h
  have := h [((0, 500000000), (1, 0))] 60000 (by
    intro w hw
    rw [List.mem_singleton.1 hw]
    simp [poolNanos]) (by decide)
  revert this
  decide

end Verif.Props
