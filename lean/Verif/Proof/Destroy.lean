import Verif.Spec.Destroy
import Verif.Proof.Exec

/-!
# Invariants of destroying a connection
-/

namespace Verif.Destroy

/-- How far the destroyer is. -/
def rank : Destroyer → Nat
  | .away => 0 | .begun => 1 | .shut => 2 | .cleared => 3 | .joinReader => 4 | .joinWorker => 5
  | .freeing => 6 | .unblocked => 7 | .gone => 8

structure Inv (s : State) : Prop where
  stopped : 1 ≤ rank s.destroyer → s.running = false
  awake : 4 ≤ rank s.destroyer → s.worker ≠ .asleep ∧ s.worker ≠ .checked ∧ s.worker ≠ .idle
  reader : 5 ≤ rank s.destroyer → s.reader = .ended
  worker : 6 ≤ rank s.destroyer → s.worker = .ended ∨ s.inside = true
  inside : s.inside = true → 1 ≤ rank s.destroyer ∧ (rank s.destroyer < 8 → inCallback s.worker = true) ∧
    (rank s.destroyer = 8 → inCallback s.worker = true ∨ ∃ m, s.worker = .returned m)
  posted : 7 ≤ rank s.destroyer → s.posted = s.pending ∧ s.queue = []
  waiting : s.worker = .idle ∨ s.worker = .asleep → s.queue = []

theorem inv_init : Inv init := by
  constructor <;> simp [init, rank]

theorem rank_gone {d : Destroyer} : d = .gone ↔ rank d = 8 := by cases d <;> simp [rank]

theorem rank_freed {d : Destroyer} : 7 ≤ rank d ↔ d = .unblocked ∨ d = .gone := by cases d <;> simp [rank]

theorem take_tail (q : List Nat) : q.take 1 ++ q.tail = q := by cases q <;> rfl

theorem inv_worker {s s' l o} (hi : Inv s) (h : workerStep s l = .ok (s', o)) : Inv s' := by
  obtain ⟨h1, h2, h3, h4, h5, h6, h7⟩ := hi
  cases hw : s.worker <;> simp only [workerStep, hw] at h
  all_goals
    constructor <;> grind [rank_gone, rank, inCallback]

theorem inv_reader {s s' i k o} (hi : Inv s) (h : readerStep s i k = .ok (s', o)) : Inv s' := by
  obtain ⟨h1, h2, h3, h4, h5, h6, h7⟩ := hi
  cases hw : s.reader <;> simp only [readerStep, hw] at h
  all_goals
    first
    | (constructor <;> grind [rank_gone, rank, inCallback, signal, held]; done)
    | (cases i <;> constructor <;> grind [rank_gone, rank, inCallback, signal, held])

theorem inv_destroyer {s s' o} (hi : Inv s) (h : destroyerStep s = .ok (s', o)) : Inv s' := by
  obtain ⟨h1, h2, h3, h4, h5, h6, h7⟩ := hi
  cases hw : s.destroyer <;> simp only [destroyerStep, hw] at h
  all_goals
    constructor <;> grind [rank_gone, rank, inCallback, signal, held]

theorem inv_step {s s' e o} (hi : Inv s) (h : step s e = .ok (s', o)) : Inv s' := by
  cases e <;> simp only [step] at h
  case worker => exact inv_worker hi h
  case reader => exact inv_reader hi h
  case destroyer => exact inv_destroyer hi h
  all_goals
    obtain ⟨h1, h2, h3, h4, h5, h6, h7⟩ := hi
    constructor <;> grind [rank_gone, rank_freed, rank, inCallback]

theorem inv_exec {h s} (hx : Exec step init h s) : Inv s := by
  induction hx with
  | nil => exact inv_init
  | snoc _ hs ih => exact inv_step ih hs

/-- Where things stand, in terms of the history. -/
structure Rel (h : History) (s : State) : Prop where
  begun : Begun h ↔ 1 ≤ rank s.destroyer
  within : Within h ↔ s.inside = true
  finished : Finished h ↔ rank s.destroyer = 8
  queue : accepted h = released h ++ s.queue
  pending : outstanding (h.map (·.1)) = s.pending

theorem accepted_append (a b : History) : accepted (a ++ b) = accepted a ++ accepted b := by
  fun_induction accepted a <;> simp_all [accepted]

theorem released_append (a b : History) : released (a ++ b) = released a ++ released b := by
  fun_induction released a <;> simp_all [released]

theorem outstanding_snoc (a : List Event) (e : Event) : outstanding (a ++ [e]) = (match e with
    | .request i => outstanding a ++ [i]
    | .finish i _ => (outstanding a).filter (· != i)
    | _ => outstanding a) := by
  simp only [outstanding, List.foldl_append, List.foldl_cons, List.foldl_nil]
  cases e <;> rfl

theorem begun_snoc (h : History) (x) : Begun (h ++ [x]) ↔ Begun h ∨ ∃ i, x.1 = .destroy i := by
  simp [Begun, or_and_right, exists_or]
theorem within_snoc (h : History) (x) : Within (h ++ [x]) ↔ Within h ∨ x.1 = .destroy true := by
  simp [Within, or_and_right, exists_or]
theorem finished_snoc (h : History) (x) : Finished (h ++ [x]) ↔ Finished h ∨ x.2 = .finished := by
  simp [Finished, or_and_right, exists_or]
theorem accepted_snoc (h : History) (x : Event × Obs) :
    accepted (h ++ [x]) = accepted h ++ (match x.2 with | .queued m => [m] | _ => []) := by
  rw [accepted_append]
  obtain ⟨e, o⟩ := x
  cases o <;> rfl
theorem released_snoc (h : History) (x : Event × Obs) :
    released (h ++ [x]) = released h ++ (match x.2 with | .released ms => ms | _ => []) := by
  rw [released_append]
  obtain ⟨e, o⟩ := x
  cases o <;> simp [released]

theorem rel_worker {h s s' l o} (hr : Rel h s) (hs : workerStep s l = .ok (s', o)) :
    Rel (h ++ [(.worker l, o)]) s' := by
  obtain ⟨h1, h2, h3, h4, h5⟩ := hr
  cases hw : s.worker <;> simp only [workerStep, hw] at hs
  all_goals
    constructor <;> simp only [begun_snoc, within_snoc, finished_snoc, accepted_snoc, released_snoc, outstanding_snoc,
      List.map_append, List.map_cons, List.map_nil]
    all_goals grind [take_tail]

theorem rel_reader {h s s' i k o} (hr : Rel h s) (hs : readerStep s i k = .ok (s', o)) :
    Rel (h ++ [(.reader i k, o)]) s' := by
  obtain ⟨h1, h2, h3, h4, h5⟩ := hr
  cases hw : s.reader <;> simp only [readerStep, hw] at hs
  all_goals
    constructor <;> simp only [begun_snoc, within_snoc, finished_snoc, accepted_snoc, released_snoc, outstanding_snoc,
      List.map_append, List.map_cons, List.map_nil]
    all_goals grind

theorem rel_destroyer {h s s' o} (hr : Rel h s) (hs : destroyerStep s = .ok (s', o)) :
    Rel (h ++ [(.destroyer, o)]) s' := by
  obtain ⟨h1, h2, h3, h4, h5⟩ := hr
  cases hw : s.destroyer <;> simp only [destroyerStep, hw] at hs
  all_goals
    constructor <;> simp only [begun_snoc, within_snoc, finished_snoc, accepted_snoc, released_snoc, outstanding_snoc,
      List.map_append, List.map_cons, List.map_nil]
    all_goals grind [rank]

theorem rel_step {h s s' e o} (hr : Rel h s) (hi : Inv s) (hs : step s e = .ok (s', o)) : Rel (h ++ [(e, o)]) s' := by
  cases e <;> simp only [step] at hs
  case worker => exact rel_worker hr hs
  case reader => exact rel_reader hr hs
  case destroyer => exact rel_destroyer hr hs
  all_goals
    obtain ⟨h1, h2, h3, h4, h5⟩ := hr
    have i5 := hi.inside
    constructor <;> simp only [begun_snoc, within_snoc, finished_snoc, accepted_snoc, released_snoc, List.map_append,
      List.map_cons, List.map_nil, outstanding_snoc, h5]
    all_goals grind [rank]

theorem rel_exec {h s} (hx : Exec step init h s) : Rel h s := by
  induction hx with
  | nil => constructor <;> simp [Begun, Within, Finished, init, rank, accepted, released, outstanding]
  | snoc hx hs ih => exact rel_step ih (inv_exec hx) hs

/-- Steps that may still be needed once destroying has begun. -/
def workerLeft : Worker → Nat
  | .ended => 0 | .top => 1 | .locked => 1 | .took _ => 1 | .locking => 2 | .waking => 2 | .looking _ => 2
  | .asleep => 3 | .returned _ => 3 | .idle => 4 | .checked => 5 | .calling _ => 4
def readerLeft : Reader → Nat
  | .ended => 0 | .top => 1 | .failed _ => 2 | .pushing _ => 2 | .retry => 2 | .connected _ => 2 | .resting => 2
  | .connecting => 3 | .sleeping => 3 | .reading => 3
def left (s : State) : Nat := workerLeft s.worker + readerLeft s.reader + (8 - rank s.destroyer)

theorem left_le (s : State) (hb : 1 ≤ rank s.destroyer) : left s ≤ 15 := by
  have h1 : workerLeft s.worker ≤ 5 := by cases s.worker <;> simp [workerLeft]
  have h2 : readerLeft s.reader ≤ 3 := by cases s.reader <;> simp [readerLeft]
  simp only [left]
  omega

theorem signal_left (w : Worker) : workerLeft (signal w) ≤ workerLeft w := by
  cases w <;> simp [signal, workerLeft]

theorem left_step {s s' e o} (hi : Inv s) (hb : 1 ≤ rank s.destroyer) (hs : step s e = .ok (s', o)) :
    left s' + (if ofLibrary e then 1 else 0) ≤ left s ∧ 1 ≤ rank s'.destroyer := by
  obtain ⟨i1, i2, i3, i4, i5, i6, i7⟩ := hi
  have hr := i1 hb
  cases e <;> simp only [step] at hs
  case worker =>
    cases hw : s.worker <;> simp only [workerStep, hw] at hs
    all_goals grind [left, workerLeft, ofLibrary]
  case reader =>
    cases hw : s.reader <;> simp only [readerStep, hw] at hs
    all_goals grind [left, readerLeft, ofLibrary, signal_left]
  case destroyer =>
    cases hw : s.destroyer <;> simp only [destroyerStep, hw] at hs
    all_goals grind [left, ofLibrary, signal_left, rank]
  all_goals grind [left, workerLeft, ofLibrary, rank]

theorem calm_snoc {h : History} {x} (hc : Calm (h ++ [x])) : Calm h ∧ (Begun h → x.1 ≠ .remake) := by
  refine ⟨fun a b i o hab y hy => hc a (b ++ [x]) i o (by simp [hab]) y (by simp [hy]), ?_⟩
  rintro ⟨⟨e, o⟩, hy, i, rfl⟩
  obtain ⟨a, b, rfl⟩ := List.append_of_mem hy
  exact hc a (b ++ [x]) i o (by simp) x (by simp)

theorem dead_step {s s' e o} (hi : Inv s) (hc : 1 ≤ rank s.destroyer → e ≠ .remake)
    (hd : 2 ≤ rank s.destroyer → s.reader = .reading → s.dead = true) (hs : step s e = .ok (s', o)) :
    2 ≤ rank s'.destroyer → s'.reader = .reading → s'.dead = true := by
  have i1 := hi.stopped
  cases e <;> simp only [step] at hs
  case worker =>
    cases hw : s.worker <;> simp only [workerStep, hw] at hs
    all_goals grind
  case reader =>
    cases hw : s.reader <;> simp only [readerStep, hw] at hs
    all_goals grind
  case destroyer =>
    cases hw : s.destroyer <;> simp only [destroyerStep, hw] at hs
    all_goals grind [rank]
  all_goals grind [rank]

theorem dead_exec {h s} (hx : Exec step init h s) (hc : Calm h) :
    2 ≤ rank s.destroyer → s.reader = .reading → s.dead = true := by
  induction hx with
  | nil => simp [init]
  | snoc hx hs ih =>
    have hc' := calm_snoc hc
    exact dead_step (inv_exec hx) (fun hb => hc'.2 ((rel_exec hx).begun.mpr hb)) (ih hc'.1) hs

/-- Something can go on until destroying is finished. -/
theorem progress {s} (hi : Inv s) (hd : 2 ≤ rank s.destroyer → s.reader = .reading → s.dead = true)
    (hb : 1 ≤ rank s.destroyer) (hf : rank s.destroyer ≠ 8) :
    ∃ e s' o, (e = .worker true ∨ e = .reader .closed true ∨ e = .destroyer) ∧ step s e = .ok (s', o) := by
  obtain ⟨i1, i2, i3, i4, i5, i6, i7⟩ := hi
  have hg : s.destroyer ≠ .gone := fun h => hf (rank_gone.mp h)
  have hwk : ∀ w, s.worker = w → (w ≠ .ended ∧ w ≠ .asleep ∧ s.inside = false) →
      ∃ e s' o, (e = .worker true ∨ e = .reader .closed true ∨ e = .destroyer) ∧ step s e = .ok (s', o) := by
    intro w hw hne
    refine ⟨.worker true, ?_⟩
    simp only [step, workerStep, hg, false_and, if_false, hw]
    cases w <;> simp_all
  have hds : ∀ d, s.destroyer = d → (∃ s' o, destroyerStep s = .ok (s', o)) →
      ∃ e s' o, (e = .worker true ∨ e = .reader .closed true ∨ e = .destroyer) ∧ step s e = .ok (s', o) := by
    rintro d - ⟨s', o, h⟩
    exact ⟨.destroyer, s', o, by simp, h⟩
  have hheld : held s = true → s.worker ≠ .ended ∧ s.worker ≠ .asleep ∧ s.inside = false := by
    intro h
    simp only [held, Bool.or_eq_true, decide_eq_true_eq] at h
    refine ⟨by grind, by grind, ?_⟩
    cases hin : s.inside with
    | false => rfl
    | true => exact absurd ((i5 hin).2.1 (by cases hd : s.destroyer <;> simp_all [rank])) (by rcases h with (h | h) | h <;> simp [h, inCallback])
  cases hd' : s.destroyer with
  | away => rw [hd'] at hb; simp [rank] at hb
  | gone => exact absurd hd' hg
  | begun => exact hds _ hd' ⟨_, _, by rw [destroyerStep, hd']⟩
  | shut => exact hds _ hd' ⟨_, _, by rw [destroyerStep, hd']⟩
  | freeing => exact hds _ hd' ⟨_, _, by rw [destroyerStep, hd']⟩
  | unblocked => exact hds _ hd' ⟨_, _, by rw [destroyerStep, hd']⟩
  | cleared =>
    cases hh : held s with
    | true => exact hwk _ rfl (hheld hh)
    | false => exact hds _ hd' ⟨_, _, by simp only [destroyerStep, hd', hh]; rfl⟩
  | joinReader =>
    by_cases hre : s.reader = .ended
    · exact hds _ hd' ⟨_, _, by simp only [destroyerStep, hd', hre]; rfl⟩
    · by_cases hh : held s = true
      · exact hwk _ rfl (hheld hh)
      · have hdd := hd (by simp [hd', rank])
        refine ⟨.reader .closed true, ?_⟩
        simp only [step, readerStep, hg, false_and, if_false]
        cases hr : s.reader <;> simp_all
        split <;> exact ⟨_, _, rfl⟩
  | joinWorker =>
    by_cases hw : s.worker = .ended ∨ s.inside = true
    · exact hds _ hd' ⟨_, _, by simp only [destroyerStep, hd', hw]; rfl⟩
    · have := (i2 (by simp [hd', rank])).1
      exact hwk _ rfl ⟨fun h => hw (.inl h), this, by cases h : s.inside <;> simp_all⟩

/-- The number of steps of the library. -/
def libSteps (h : History) : Nat := (h.filter (fun x => ofLibrary x.1)).length

theorem exec_split {h s} (hx : Exec step init h s) : ∀ a b, h = a ++ b →
    ∃ s1, Exec step init a s1 ∧ Exec step s1 b s := by
  induction hx with
  | nil =>
    intro a b hab
    obtain ⟨rfl, rfl⟩ := List.append_eq_nil_iff.mp hab.symm
    exact ⟨_, .nil, .nil⟩
  | @snoc h s e o s' hx hs ih =>
    intro a b hab
    rcases List.eq_nil_or_concat b with rfl | ⟨b', x, rfl⟩
    · rw [List.append_nil] at hab
      subst hab
      exact ⟨s', .snoc hx hs, .nil⟩
    · rw [List.concat_eq_append, ← List.append_assoc] at hab
      obtain ⟨s1, h1, h2⟩ := ih a b' (List.append_inj_left' hab rfl)
      cases List.append_inj_right' hab rfl
      refine ⟨s1, h1, ?_⟩
      rw [List.concat_eq_append]
      exact .snoc h2 hs

theorem left_exec {s1 b s} (hi : Inv s1) (hb : 1 ≤ rank s1.destroyer) (hx : Exec step s1 b s) :
    left s + libSteps b ≤ left s1 ∧ 1 ≤ rank s.destroyer ∧ Inv s := by
  induction hx with
  | nil => exact ⟨by simp [libSteps], hb, hi⟩
  | @snoc h s e o s' hx hs ih =>
    obtain ⟨h1, h2, h3⟩ := ih
    have := left_step h3 h2 hs
    refine ⟨?_, this.2, inv_step h3 hs⟩
    simp only [libSteps, List.filter_append, List.length_append] at h1 ⊢
    cases he : ofLibrary e <;> simp [he] at this ⊢ <;> omega

/-- Once destroying has begun no callback is called. -/
theorem no_call {s s' e o} (hi : Inv s) (hb : 1 ≤ rank s.destroyer) (hs : step s e = .ok (s', o)) (m : Nat) :
    o ≠ .called m := by
  have hr := hi.stopped hb
  cases e <;> simp only [step] at hs
  case worker =>
    cases hw : s.worker <;> simp only [workerStep, hw] at hs
    all_goals grind
  case reader =>
    cases hw : s.reader <;> simp only [readerStep, hw] at hs
    all_goals grind
  case destroyer =>
    cases hw : s.destroyer <;> simp only [destroyerStep, hw] at hs
    all_goals grind
  all_goals grind

theorem orderly_run : ∀ (es : List Event) (s : State), Inv s → s.inside = false →
    (1 ≤ rank s.destroyer → s.pending = []) → Orderly (decide (1 ≤ rank s.destroyer)) s.pending es → run s es ≠ .ub := by
  intro es
  induction es with
  | nil => intro s _ _ _ _ h; cases h
  | cons e es ih =>
    intro s hi hin hp ho
    have hnub : step s e ≠ .ub := by
      obtain ⟨i1, i2, i3, i4, i5, i6, i7⟩ := hi
      cases e <;> simp only [step]
      case worker =>
        cases hw : s.worker <;> simp only [workerStep, hw]
        all_goals grind [rank]
      case reader =>
        cases hw : s.reader <;> simp only [readerStep, hw]
        all_goals grind [rank]
      case destroyer =>
        cases hw : s.destroyer <;> simp only [destroyerStep, hw]
        all_goals grind
      case request i =>
        simp only [Orderly, decide_eq_false_iff_not] at ho
        cases hw : s.destroyer <;> simp_all [rank]
        split <;> simp
      case finish i t =>
        cases hw : s.destroyer <;> simp_all [rank] <;> split <;> simp
      all_goals grind
    simp only [run]
    cases hs : step s e with
    | ub => exact absurd hs hnub
    | fail => intro h; cases h
    | ok x =>
      obtain ⟨s1, o⟩ := x
      have hi1 := inv_step hi hs
      have key : s1.inside = false ∧ (1 ≤ rank s1.destroyer → s1.pending = []) ∧
          Orderly (decide (1 ≤ rank s1.destroyer)) s1.pending es := by
        cases e <;> simp only [step] at hs
        case worker =>
          simp only [Orderly] at ho
          cases hw : s.worker <;> simp only [workerStep, hw] at hs
          all_goals grind
        case reader =>
          simp only [Orderly] at ho
          cases hw : s.reader <;> simp only [readerStep, hw] at hs
          all_goals grind
        case destroyer =>
          simp only [Orderly] at ho
          cases hw : s.destroyer <;> simp only [destroyerStep, hw] at hs <;> simp only [hw] at ho hp
          all_goals grind [rank]
        case finish =>
          simp only [Orderly] at ho
          split at hs
          · cases hs
          · split at hs
            · cases hs
            · cases hs
              exact ⟨hin, fun h => by simp [hp h], ho⟩
        all_goals
          simp only [Orderly] at ho
          grind [rank]
      have := ih s1 hi1 key.1 key.2.1 key.2.2
      simp only [Res.ok_bind]
      cases hr : run s1 es with
      | ub => exact absurd hr this
      | fail => intro h; cases h
      | ok y => intro h; cases h

theorem run_exec {es s os} (h : run init es = .ok (s, os)) :
    es.length = os.length ∧ Exec step init (es.zip os) s := by
  simpa using Exec.extend (run := run) (.nil (step := step) (s₀ := init)) (fun _ => rfl) (fun _ _ _ => rfl) es s os h

end Verif.Destroy
