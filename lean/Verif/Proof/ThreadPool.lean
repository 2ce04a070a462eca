import Verif.Spec.ThreadPool
import Verif.Proof.Exec

/-!
# Lemmas for thread pools
-/

namespace Verif.Spec.ThreadPool

open Verif Verif.ThreadPool

def isRun : Pc → Bool
  | .running _ => true
  | _ => false

def counted : Pc → Bool
  | .waiting => true
  | .woken => true
  | .expired => true
  | .running _ => true
  | _ => false

def isRunOf (t : Nat) (p : Pc) : Bool := p == .running t

theorem isRunOf_running (u t : Nat) : isRunOf u (.running t) = (t == u) := by
  unfold isRunOf
  rw [Bool.eq_iff_iff]
  simp

structure Inv (h : History) (s : State) : Prop where
  order : submitted h = started h ++ s.queue
  busy : s.busy = s.workers.countP isRun
  threads : s.threadCount = s.workers.countP counted
  hands : ∀ t, (started h).count t = (finished h).count t + s.workers.countP (isRunOf t)
  stops : s.isRunning = false ↔ Stopped h

theorem sub_snoc (h : History) (x) : submitted (h ++ [x]) = submitted h ++ (submittedIn x).toList := by
  simp [submitted, List.filterMap_append, List.filterMap_cons]
  cases submittedIn x <;> rfl

theorem sta_snoc (h : History) (x) : started (h ++ [x]) = started h ++ (startedIn x).toList := by
  simp [started, List.filterMap_append, List.filterMap_cons]
  cases startedIn x <;> rfl

theorem fin_snoc (h : History) (x) : finished (h ++ [x]) = finished h ++ (finishedIn x).toList := by
  simp [finished, List.filterMap_append, List.filterMap_cons]
  cases finishedIn x <;> rfl

theorem stopped_snoc (h : History) (x : Op × Out) :
    Stopped (h ++ [x]) ↔ Stopped h ∨ ∃ c, x = (.stop, .stopped c) := by
  unfold Stopped
  constructor
  · rintro ⟨c, hc⟩
    rcases List.mem_append.1 hc with hc | hc
    · exact .inl ⟨c, hc⟩
    · exact .inr ⟨c, (List.mem_singleton.1 hc).symm⟩
  · rintro (⟨c, hc⟩ | ⟨c, rfl⟩)
    · exact ⟨c, List.mem_append.2 (.inl hc)⟩
    · exact ⟨c, by simp⟩

theorem countP_setPc {f : Pc → Bool} {l : List Pc} {i : Nat} {p q : Pc} (h : l[i]? = some p) :
    (l.set i q).countP f + (if f p then 1 else 0) = l.countP f + (if f q then 1 else 0) := by
  obtain ⟨hi, hp⟩ := List.getElem?_eq_some_iff.1 h
  rw [List.countP_set hi, hp]
  have : f p = true → 0 < l.countP f := fun hf =>
    List.countP_pos_iff.2 ⟨p, List.mem_of_getElem? h, hf⟩
  split <;> split <;> simp_all <;> omega

theorem countP_wake (f : Pc → Bool) (l : List Pc) (hf : f .waiting = f .woken) :
    (l.map fun p => if p = .waiting then .woken else p).countP f = l.countP f := by
  rw [List.countP_map]
  apply List.countP_congr
  intro x _
  by_cases hx : x = .waiting <;> simp [hx, hf]

/-- The loop. -/
theorem loop_inv {h : History} {s s' : State} {i : Nat} {n : Next} {p : Pc} {e : Op} {f : Option Nat}
    (order : submitted h = started h ++ s.queue)
    (hp : s.workers[i]? = some p)
    (busy : s.busy + (if isRun p then 1 else 0) = s.workers.countP isRun)
    (threads : s.threadCount + (if counted p then 0 else 0) = s.workers.countP counted + (if counted p then 0 else 1))
    (hands : ∀ t, (started h).count t + (if isRunOf t p then 1 else 0) =
      (finished h).count t + f.toList.count t + s.workers.countP (isRunOf t))
    (stops : s.isRunning = false ↔ Stopped h) (he : submittedIn (e, .worked f n) = none)
    (hl : loop s i = (s', n)) : Inv (h ++ [(e, .worked f n)]) s' := by
  have hst : Stopped (h ++ [(e, .worked f n)]) ↔ Stopped h := by
    rw [stopped_snoc]
    constructor
    · rintro (h | ⟨c, h⟩)
      · exact h
      · cases h
    · exact .inl
  have hfin : (finished (h ++ [(e, .worked f n)])) = finished h ++ f.toList := by rw [fin_snoc]; rfl
  have hsub : submitted (h ++ [(e, .worked f n)]) = submitted h := by rw [sub_snoc, he]; simp
  unfold loop at hl
  split at hl
  · split at hl
    · rename_i t q hq
      cases hl
      have hsta : started (h ++ [(e, .worked f (.took t))]) = started h ++ [t] := by rw [sta_snoc]; rfl
      refine ⟨by rw [hsub, hsta, order, hq]; simp [setPc], ?_, ?_, ?_, by rw [hst]; exact stops⟩
      · have := countP_setPc (f := isRun) (q := .running t) hp
        simp only [setPc, isRun] at this ⊢
        simp only [isRun] at busy
        simp at this
        omega
      · have := countP_setPc (f := counted) (q := .running t) hp
        simp only [setPc] at this ⊢
        have e1 : counted (.running t) = true := rfl
        rw [e1] at this
        split at threads <;> simp_all <;> omega
      · intro u
        have := countP_setPc (f := isRunOf u) (q := .running t) hp
        have hu := hands u
        rw [hsta, hfin, List.count_append, List.count_append]
        simp only [setPc] at this ⊢
        have e1 : isRunOf u (.running t) = (t == u) := isRunOf_running u t
        rw [e1] at this
        rw [List.count_singleton]
        omega
    · rename_i hq
      cases hl
      have hsta : started (h ++ [(e, .worked f .waits)]) = started h := by rw [sta_snoc]; simp [startedIn]
      refine ⟨by rw [hsub, hsta, order]; simp [setPc], ?_, ?_, ?_, by rw [hst]; exact stops⟩
      · have := countP_setPc (f := isRun) (q := .waiting) hp
        simp only [setPc, isRun] at this ⊢
        simp only [isRun] at busy
        simp at this
        omega
      · have := countP_setPc (f := counted) (q := .waiting) hp
        simp only [setPc] at this ⊢
        have e1 : counted .waiting = true := rfl
        rw [e1] at this
        split at threads <;> simp_all <;> omega
      · intro u
        have := countP_setPc (f := isRunOf u) (q := .waiting) hp
        have hu := hands u
        rw [hsta, hfin, List.count_append]
        simp only [setPc] at this ⊢
        have e1 : isRunOf u .waiting = false := rfl
        rw [e1] at this
        simp at this
        omega
  · cases hl
    have hsta : started (h ++ [(e, .worked f .left)]) = started h := by rw [sta_snoc]; simp [startedIn]
    refine ⟨by rw [hsub, hsta, order]; simp [setPc], ?_, ?_, ?_, by rw [hst]; exact stops⟩
    · have := countP_setPc (f := isRun) (q := .leaving) hp
      simp only [setPc, isRun] at this ⊢
      simp only [isRun] at busy
      simp at this
      omega
    · have := countP_setPc (f := counted) (q := .leaving) hp
      simp only [setPc] at this ⊢
      have e1 : counted .leaving = false := rfl
      rw [e1] at this
      split at threads <;> simp_all <;> omega
    · intro u
      have := countP_setPc (f := isRunOf u) (q := .leaving) hp
      have hu := hands u
      rw [hsta, hfin, List.count_append]
      simp only [setPc] at this ⊢
      have e1 : isRunOf u .leaving = false := rfl
      rw [e1] at this
      simp at this
      omega

/-- A step in which nothing is submitted, started or finished. -/
theorem still_inv {h : History} {s s' : State} {e : Op} {o : Out} (i : Inv h s) (hq : s'.queue = s.queue)
    (hb : s'.busy = s.busy) (ht : s'.threadCount = s.threadCount) (hr : s'.isRunning = s.isRunning)
    (hw : ∀ f : Pc → Bool, (f .waiting = f .woken ∧ f .waiting = f .expired ∧ f .leaving = f .destroying ∧
      f .destroying = f .gone) → s'.workers.countP f = s.workers.countP f)
    (he : submittedIn (e, o) = none) (hs : startedIn (e, o) = none) (hf : finishedIn (e, o) = none)
    (hc : ∀ c, o ≠ .stopped c) : Inv (h ++ [(e, o)]) s' := by
  refine ⟨?_, ?_, ?_, ?_, ?_⟩
  · rw [sub_snoc, sta_snoc, he, hs, hq]; simpa using i.order
  · rw [hb, hw isRun ⟨rfl, rfl, rfl, rfl⟩]; exact i.busy
  · rw [ht, hw counted ⟨rfl, rfl, rfl, rfl⟩]; exact i.threads
  · intro t
    rw [sta_snoc, fin_snoc, hs, hf, hw (isRunOf t) ⟨rfl, rfl, rfl, rfl⟩]
    simpa using i.hands t
  · rw [hr, stopped_snoc, i.stops]
    constructor
    · exact .inl
    · rintro (h | ⟨c, h⟩)
      · exact h
      · cases h; exact absurd rfl (hc c)

theorem count_set_same {f : Pc → Bool} {l : List Pc} {i : Nat} {p q : Pc} (h : l[i]? = some p) (hf : f p = f q) :
    (l.set i q).countP f = l.countP f := by
  have := countP_setPc (f := f) (q := q) h
  rw [hf] at this
  omega

theorem step_inv {h : History} {s s' : State} {e : Op} {o : Out} (i : Inv h s) (hs : step s e = .ok (s', o)) :
    Inv (h ++ [(e, o)]) s' := by
  cases e with
  | submit t w =>
    simp only [step] at hs
    split at hs
    · cases hs
    have key : ∀ {s'' : State} {b : Bool}, s''.queue = s.queue ++ [t] → s''.busy = s.busy → s''.threadCount = s.threadCount →
        s''.isRunning = s.isRunning →
        (∀ f : Pc → Bool, (f .waiting = f .woken ∧ f .starting = false) → s''.workers.countP f = s.workers.countP f) →
        Inv (h ++ [(.submit t w, .submitted b)]) s'' := by
      intro s'' b hq hb ht hr hw
      refine ⟨?_, ?_, ?_, ?_, ?_⟩
      · rw [sub_snoc, sta_snoc, hq, i.order]; simp [submittedIn, startedIn]
      · rw [hb, hw isRun ⟨rfl, rfl⟩]; exact i.busy
      · rw [ht, hw counted ⟨rfl, rfl⟩]; exact i.threads
      · intro u
        rw [sta_snoc, fin_snoc, hw (isRunOf u) ⟨rfl, rfl⟩]
        simpa [startedIn, finishedIn] using i.hands u
      · rw [hr, stopped_snoc, i.stops]; simp
    unfold submit at hs
    simp only [] at hs
    split at hs
    · cases w with
      | some j =>
        simp only [] at hs
        split at hs
        · rename_i hj
          cases hs
          exact key rfl rfl rfl rfl fun f hf => count_set_same hj hf.1
        · cases hs
      | none =>
        simp only [] at hs
        split at hs
        · cases hs
        · cases hs
          exact key rfl rfl rfl rfl fun _ _ => rfl
    · split at hs
      · cases hs
      · split at hs
        · cases hs
          exact key rfl rfl rfl rfl fun f hf => by simp [hf.2]
        · cases hs
          exact key rfl rfl rfl rfl fun _ _ => rfl
  | work j =>
    simp only [step] at hs
    split at hs
    · rename_i p hp
      cases p with
      | starting =>
        simp only [work] at hs
        split at hs
        · cases hs
        · cases hs
          refine loop_inv (p := .starting) (f := none) (s := { s with threadCount := s.threadCount + 1 }) i.order hp ?_ ?_ ?_
            i.stops rfl rfl
          · simpa [isRun] using i.busy
          · simpa [counted] using i.threads
          · intro t; simpa [isRunOf] using i.hands t
      | woken =>
        simp only [work] at hs
        split at hs
        · cases hs
        · cases hs
          refine loop_inv (p := .woken) (f := none) i.order hp ?_ ?_ ?_ i.stops rfl rfl
          · simpa [isRun] using i.busy
          · simpa [counted] using i.threads
          · intro t; simpa [isRunOf] using i.hands t
      | running t =>
        simp only [work] at hs
        split at hs
        · cases hs
        · cases hs
          have hpos : 0 < s.workers.countP isRun := List.countP_pos_iff.2 ⟨_, List.mem_of_getElem? hp, rfl⟩
          refine loop_inv (p := .running t) (f := some t) (s := { s with busy := s.busy - 1 }) i.order hp ?_ ?_ ?_
            i.stops rfl rfl
          · have := i.busy
            simp only [isRun, if_true]
            omega
          · simpa [counted] using i.threads
          · intro u
            have := i.hands u
            have e1 : isRunOf u (.running t) = (t == u) := isRunOf_running u t
            show _ = _ + s.workers.countP (isRunOf u)
            rw [e1, show (some t).toList = [t] from rfl, List.count_singleton]
            omega
      | expired =>
        simp only [work] at hs
        split at hs
        · cases hs
        · cases hs
          refine ⟨?_, ?_, ?_, ?_, ?_⟩
          · rw [sub_snoc, sta_snoc]; simpa [submittedIn, startedIn, setPc] using i.order
          · exact i.busy.trans (count_set_same (q := .leaving) hp rfl).symm
          · have := countP_setPc (f := counted) (q := .leaving) hp
            have := i.threads
            simp only [setPc, counted] at *
            simp at *
            omega
          · intro t
            rw [sta_snoc, fin_snoc]
            have := i.hands t
            simp only [setPc, count_set_same (f := isRunOf t) (q := .leaving) hp rfl]
            simpa [startedIn, finishedIn] using this
          · rw [stopped_snoc]; simpa [setPc] using i.stops
      | leaving =>
        simp only [work] at hs
        split at hs
        · cases hs
        · cases hs
          refine still_inv i rfl rfl rfl rfl (fun f hf => count_set_same hp ?_) rfl rfl rfl (by simp)
          split
          · exact hf.2.2.1
          · exact hf.2.2.1.trans hf.2.2.2
      | destroying =>
        simp only [work] at hs
        split at hs
        · cases hs
        · cases hs
          exact still_inv i rfl rfl rfl rfl (fun f hf => count_set_same hp hf.2.2.2) rfl rfl rfl (by simp)
      | waiting => simp [work] at hs
      | gone => simp [work] at hs
    · cases hs
  | timeout j =>
    simp only [step] at hs
    split at hs
    · rename_i hj
      cases hs
      exact still_inv i rfl rfl rfl rfl (fun f hf => count_set_same hj hf.2.1) rfl rfl rfl (by simp)
    · cases hs
  | spurious j =>
    simp only [step] at hs
    split at hs
    · rename_i hj
      cases hs
      exact still_inv i rfl rfl rfl rfl (fun f hf => count_set_same hj hf.1) rfl rfl rfl (by simp)
    · cases hs
  | destroy f =>
    simp only [step] at hs
    split at hs
    · cases hs
    · cases hs
      exact still_inv i rfl rfl rfl rfl (fun _ _ => rfl) rfl rfl rfl (by simp)
  | stop =>
    simp only [step] at hs
    split at hs
    · split at hs
      · cases hs
      · split at hs
        · cases hs
        · cases hs
          refine ⟨?_, ?_, ?_, ?_, ?_⟩
          · rw [sub_snoc, sta_snoc]; simpa [submittedIn, startedIn] using i.order
          · exact i.busy.trans (countP_wake _ _ rfl).symm
          · exact i.threads.trans (countP_wake _ _ rfl).symm
          · intro t
            rw [sta_snoc, fin_snoc]
            simp only [countP_wake (isRunOf t) s.workers rfl]
            simpa [startedIn, finishedIn] using i.hands t
          · rw [stopped_snoc]
            exact ⟨fun _ => .inr ⟨_, rfl⟩, fun _ => rfl⟩
    · cases hs
  | goOn =>
    simp only [step] at hs
    split at hs
    · split at hs
      · cases hs
      · cases hs
        exact still_inv i rfl rfl rfl rfl (fun _ _ => rfl) rfl rfl rfl (by simp)
    · split at hs
      · cases hs
      · cases hs
        exact still_inv i rfl rfl rfl rfl (fun _ _ => rfl) rfl rfl rfl (by simp)
    · split at hs
      · cases hs
      · cases hs
        exact still_inv i rfl rfl rfl rfl (fun _ _ => rfl) rfl rfl rfl (by simp)
    · cases hs

theorem exec_inv {n : Nat} {h : History} {s : State} (hx : Exec step (State.init n) h s) : Inv h s := by
  induction hx with
  | nil => exact ⟨rfl, rfl, rfl, fun _ => rfl, by simp [State.init, Stopped]⟩
  | snoc _ hs ih => exact step_inv ih hs

/-! ## Tasks that wait are seen -/

structure Wake (s : State) : Prop where
  max : 0 < s.maxThreads
  seen : s.isRunning = true → s.queue ≠ [] → ∃ p ∈ s.workers, Active p

theorem mem_set_self {l : List Pc} {i : Nat} {p q : Pc} (h : l[i]? = some p) : q ∈ l.set i q :=
  List.mem_set (List.getElem?_eq_some_iff.1 h).1 q

/-- Replacing a worker that was not active, or by one that is. -/
theorem active_set {l : List Pc} {i : Nat} {p q : Pc} (h : l[i]? = some p) (hpq : Active p → Active q)
    (hx : ∃ x ∈ l, Active x) : ∃ x ∈ l.set i q, Active x := by
  obtain ⟨x, hx, hax⟩ := hx
  obtain ⟨j, hj⟩ := List.mem_iff_getElem?.1 hx
  by_cases hij : i = j
  · subst hij
    rw [h] at hj
    cases hj
    exact ⟨q, mem_set_self h, hpq hax⟩
  · exact ⟨x, List.mem_iff_getElem?.2 ⟨j, by rw [List.getElem?_set_ne hij]; exact hj⟩, hax⟩

theorem loop_wake {s s' : State} {i : Nat} {n : Next} {p : Pc} (hm : 0 < s.maxThreads) (hp : s.workers[i]? = some p)
    (hl : loop s i = (s', n)) : Wake s' := by
  unfold loop at hl
  split at hl
  · split at hl
    · cases hl
      exact ⟨hm, fun _ _ => ⟨_, mem_set_self hp, trivial⟩⟩
    · rename_i hq
      cases hl
      exact ⟨hm, fun _ hne => absurd hq hne⟩
  · rename_i hr
    cases hl
    exact ⟨hm, fun h _ => absurd h hr⟩

theorem step_wake {h : History} {s s' : State} {e : Op} {o : Out} (i : Inv h s) (w : Wake s)
    (hs : step s e = .ok (s', o))
    (hu : ∀ j f, (e, o) = (.work j, .worked f .left) → ¬ Stopped h → started h = submitted h) : Wake s' := by
  cases e with
  | submit t x =>
    simp only [step] at hs
    split at hs
    · cases hs
    unfold submit at hs
    simp only [] at hs
    split at hs
    · rename_i hlt
      cases x with
      | some j =>
        simp only [] at hs
        split at hs
        · rename_i hj
          cases hs
          exact ⟨w.max, fun _ _ => ⟨_, mem_set_self hj, trivial⟩⟩
        · cases hs
      | none =>
        simp only [] at hs
        split at hs
        · cases hs
        · rename_i hw
          cases hs
          refine ⟨w.max, fun _ _ => ?_⟩
          have hb := i.busy
          have ht := i.threads
          rw [hb, ht] at hlt
          apply Classical.byContradiction
          intro hno
          have : ∀ p ∈ s.workers, counted p = isRun p := by
            intro p hp
            cases p with
            | waiting => exact absurd hp hw
            | woken => exact absurd ⟨_, hp, trivial⟩ hno
            | expired => exact absurd ⟨_, hp, trivial⟩ hno
            | running t => rfl
            | starting => rfl
            | leaving => rfl
            | destroying => rfl
            | gone => rfl
          rw [List.countP_congr (p := counted) (q := isRun) (fun p hp => by rw [this p hp])] at hlt
          exact absurd hlt (Nat.lt_irrefl _)
    · split at hs
      · cases hs
      · split at hs
        · cases hs
          exact ⟨w.max, fun _ _ => ⟨.starting, by simp, trivial⟩⟩
        · rename_i h1 _ h2
          cases hs
          refine ⟨w.max, fun _ _ => ?_⟩
          have hb := i.busy
          have := w.max
          have : 0 < s.workers.countP isRun := by omega
          obtain ⟨p, hp, hr⟩ := List.countP_pos_iff.1 this
          refine ⟨p, hp, ?_⟩
          cases p <;> first | trivial | cases hr
  | work j =>
    simp only [step] at hs
    split at hs
    · rename_i p hp
      cases p with
      | starting =>
        simp only [work] at hs
        split at hs
        · cases hs
        · cases hs
          exact loop_wake (s := { s with threadCount := s.threadCount + 1 }) w.max hp rfl
      | woken =>
        simp only [work] at hs
        split at hs
        · cases hs
        · cases hs
          exact loop_wake w.max hp rfl
      | running t =>
        simp only [work] at hs
        split at hs
        · cases hs
        · cases hs
          exact loop_wake (s := { s with busy := s.busy - 1 }) w.max hp rfl
      | expired =>
        simp only [work] at hs
        split at hs
        · cases hs
        · cases hs
          refine ⟨w.max, fun hr hq => absurd ?_ hq⟩
          have hns : ¬ Stopped h := fun hst => by
            have := i.stops.2 hst
            rw [show s.isRunning = true from hr] at this
            cases this
          have := i.order
          rw [← hu j none rfl hns] at this
          simpa [setPc] using this
      | leaving =>
        simp only [work] at hs
        split at hs
        · cases hs
        · cases hs
          exact ⟨w.max, fun hr hq => active_set hp (fun h => h.elim) (w.seen hr hq)⟩
      | destroying =>
        simp only [work] at hs
        split at hs
        · cases hs
        · cases hs
          exact ⟨w.max, fun hr hq => active_set hp (fun h => h.elim) (w.seen hr hq)⟩
      | waiting => simp [work] at hs
      | gone => simp [work] at hs
    · cases hs
  | timeout j =>
    simp only [step] at hs
    split at hs
    · rename_i hj
      cases hs
      exact ⟨w.max, fun hr hq => active_set hj (fun h => h.elim) (w.seen hr hq)⟩
    · cases hs
  | spurious j =>
    simp only [step] at hs
    split at hs
    · rename_i hj
      cases hs
      exact ⟨w.max, fun hr hq => active_set hj (fun h => h.elim) (w.seen hr hq)⟩
    · cases hs
  | destroy f =>
    simp only [step] at hs
    split at hs
    · cases hs
    · cases hs
      exact ⟨w.max, w.seen⟩
  | stop =>
    simp only [step] at hs
    split at hs
    · split at hs
      · cases hs
      · split at hs
        · cases hs
        · cases hs
          exact ⟨w.max, fun hr _ => by cases hr⟩
    · cases hs
  | goOn =>
    simp only [step] at hs
    split at hs
    · split at hs
      · cases hs
      · cases hs; exact ⟨w.max, w.seen⟩
    · split at hs
      · cases hs
      · cases hs; exact ⟨w.max, w.seen⟩
    · split at hs
      · cases hs
      · cases hs; exact ⟨w.max, w.seen⟩
    · cases hs

theorem exec_wake {n : Nat} {h : History} {s : State} (hn : 0 < n) (hx : Exec step (State.init n) h s)
    (hu : Unhurried h) : Wake s := by
  induction hx with
  | nil => exact ⟨hn, fun _ h => absurd rfl h⟩
  | @snoc h s e o s' hx hs ih =>
    refine step_wake (exec_inv hx) (ih fun a i f b hab => hu a i f (b ++ [(e, o)]) (by simp [hab])) hs ?_
    intro j f hef hst
    exact hu h j f [] (by rw [← hef]) hst

/-! ## The number of workers -/

theorem exec_mono {S E O : Type} {st1 st2 : S → E → Res (S × O)} (hm : ∀ s e r, st1 s e = .ok r → st2 s e = .ok r)
    {s₀ : S} {h s} (hx : Exec st1 s₀ h s) : Exec st2 s₀ h s := by
  induction hx with
  | nil => exact .nil
  | snoc _ hs ih => exact .snoc ih (hm _ _ _ hs)

theorem spaced_step {s : State} {e : Op} {r} (h : spacedStep s e = .ok r) : step s e = .ok r := by
  cases e <;> simp only [spacedStep] at h <;> try exact h
  split at h
  · cases h
  · exact h

def isStart (p : Pc) : Bool := p == .starting

/-- Those that are or will be counted. -/
def total (s : State) : Nat := s.workers.countP counted + s.workers.countP isStart

theorem loop_total {s : State} {i : Nat} {p : Pc} (hp : s.workers[i]? = some p)
    (hc : counted p = true ∨ p = .starting) : total (loop s i).1 ≤ total s ∧ (loop s i).1.maxThreads = s.maxThreads := by
  have key : ∀ q, isStart q = false →
      (s.workers.set i q).countP counted + (s.workers.set i q).countP isStart ≤
        s.workers.countP counted + s.workers.countP isStart := by
    intro q hq
    have h1 := countP_setPc (f := counted) (q := q) hp
    have h2 := countP_setPc (f := isStart) (q := q) hp
    rw [hq] at h2
    rcases hc with hc | rfl
    · rw [hc] at h1
      cases hcq : counted q <;> cases hsp : isStart p <;> rw [hcq] at h1 <;> rw [hsp] at h2 <;> simp at h1 h2 <;> omega
    · rw [show counted .starting = false from rfl] at h1
      rw [show isStart .starting = true from rfl] at h2
      cases hcq : counted q <;> rw [hcq] at h1 <;> simp at h1 h2 <;> omega
  unfold loop
  split
  · split
    · exact ⟨key _ rfl, rfl⟩
    · exact ⟨key _ rfl, rfl⟩
  · exact ⟨key _ rfl, rfl⟩

theorem spaced_total {n : Nat} {h : History} {s : State} (hx : Exec spacedStep (State.init n) h s) :
    s.maxThreads = n ∧ total s ≤ n := by
  induction hx with
  | nil => exact ⟨rfl, Nat.zero_le _⟩
  | @snoc h s e o s' hx hs ih =>
    have i := exec_inv (exec_mono (fun _ _ _ => spaced_step) hx)
    have set_le : ∀ {j p q}, s.workers[j]? = some p → (counted q = true → counted p = true) → isStart q = false →
        (s.workers.set j q).countP counted + (s.workers.set j q).countP isStart ≤ total s := by
      intro j p q hp hc hq
      have h1 := countP_setPc (f := counted) (q := q) hp
      have h2 := countP_setPc (f := isStart) (q := q) hp
      rw [hq] at h2
      unfold total
      cases hcq : counted q with
      | true => rw [hcq, hc hcq] at h1; simp at h1 h2; omega
      | false => rw [hcq] at h1; simp at h1 h2; omega
    cases e with
    | submit t w =>
      simp only [spacedStep] at hs
      split at hs
      · cases hs
      rename_i hns
      simp only [step] at hs
      split at hs
      · cases hs
      unfold submit at hs
      simp only [] at hs
      split at hs
      · cases w with
        | some j =>
          simp only [] at hs
          split at hs
          · rename_i hj
            cases hs
            exact ⟨ih.1, Nat.le_trans (set_le hj (fun _ => rfl) rfl) ih.2⟩
          · cases hs
        | none =>
          simp only [] at hs
          split at hs
          · cases hs
          · cases hs
            exact ih
      · split at hs
        · cases hs
        · split at hs
          · rename_i hlt
            cases hs
            refine ⟨ih.1, ?_⟩
            have h0 : s.workers.countP isStart = 0 := by
              rw [List.countP_eq_zero]
              intro p hp hst
              rw [show p = .starting from by simpa [isStart] using hst] at hp
              exact hns hp
            have := i.threads
            have := ih.1
            simp only [total, List.countP_append, h0]
            simp [counted, isStart]
            omega
          · cases hs
            exact ih
    | work j =>
      simp only [spacedStep, step] at hs
      split at hs
      · rename_i p hp
        cases p with
        | starting =>
          simp only [work] at hs
          split at hs
          · cases hs
          · cases hs
            have := loop_total (s := { s with threadCount := s.threadCount + 1 }) hp (.inr rfl)
            exact ⟨this.2.trans ih.1, Nat.le_trans this.1 ih.2⟩
        | woken =>
          simp only [work] at hs
          split at hs
          · cases hs
          · cases hs
            have := loop_total hp (.inl rfl)
            exact ⟨this.2.trans ih.1, Nat.le_trans this.1 ih.2⟩
        | running t =>
          simp only [work] at hs
          split at hs
          · cases hs
          · cases hs
            have := loop_total (s := { s with busy := s.busy - 1 }) hp (.inl rfl)
            exact ⟨this.2.trans ih.1, Nat.le_trans this.1 ih.2⟩
        | expired =>
          simp only [work] at hs
          split at hs
          · cases hs
          · cases hs
            exact ⟨ih.1, Nat.le_trans (set_le hp (by simp [counted]) rfl) ih.2⟩
        | leaving =>
          simp only [work] at hs
          split at hs
          · cases hs
          · cases hs
            refine ⟨ih.1, Nat.le_trans (set_le hp ?_ ?_) ih.2⟩ <;> split <;> simp [counted, isStart]
        | destroying =>
          simp only [work] at hs
          split at hs
          · cases hs
          · cases hs
            exact ⟨ih.1, Nat.le_trans (set_le hp (by simp [counted]) rfl) ih.2⟩
        | waiting => simp [work] at hs
        | gone => simp [work] at hs
      · cases hs
    | timeout j =>
      simp only [spacedStep, step] at hs
      split at hs
      · rename_i hj
        cases hs
        exact ⟨ih.1, Nat.le_trans (set_le hj (fun _ => rfl) rfl) ih.2⟩
      · cases hs
    | spurious j =>
      simp only [spacedStep, step] at hs
      split at hs
      · rename_i hj
        cases hs
        exact ⟨ih.1, Nat.le_trans (set_le hj (fun _ => rfl) rfl) ih.2⟩
      · cases hs
    | destroy f =>
      simp only [spacedStep, step] at hs
      split at hs
      · cases hs
      · cases hs
        exact ih
    | stop =>
      simp only [spacedStep, step] at hs
      split at hs
      · split at hs
        · cases hs
        · split at hs
          · cases hs
          · cases hs
            refine ⟨ih.1, ?_⟩
            simp only [total, countP_wake counted s.workers rfl, countP_wake isStart s.workers rfl]
            exact ih.2
      · cases hs
    | goOn =>
      simp only [spacedStep, step] at hs
      split at hs
      · split at hs
        · cases hs
        · cases hs; exact ih
      · split at hs
        · cases hs
        · cases hs; exact ih
      · split at hs
        · cases hs
        · cases hs; exact ih
      · cases hs

theorem inHand_length (s : State) : (inHand s).length = s.workers.countP isRun := by
  unfold inHand
  induction s.workers with
  | nil => rfl
  | cons p l ih => cases p <;> simp only [List.filterMap_cons, List.countP_cons, isRun, List.length_cons, ih] <;> simp

/-! ## Destroying -/

def isDest (p : Pc) : Bool := p == .destroying

def present (p : Pc) : Bool := p != .gone

/-- Past `isShutdown = 1`. -/
def past : Option Destroyer → Bool
  | some .leaving => true
  | some .destroying => true
  | some .done => true
  | _ => false

/-- Past stopping. -/
def ended : Option Destroyer → Bool
  | some .stopped => true
  | d => past d

structure Calm (s : State) : Prop where
  one : s.workers.countP Pc.parting + (if parting s.destroyer then 1 else 0) ≤ 1
  begun : ended s.destroyer = true → s.workers.countP isStart = 0
  shut : s.isShutdown = past s.destroyer
  last : s.destroyer = some .destroying → s.threadCount = 0
  lastW : 0 < s.workers.countP isDest → s.threadCount = 0 ∧ s.isShutdown = true
  over : s.freed = true → s.workers.countP present = 0 ∧ s.destroyer = some .done
  kept : s.destroyer = some .done → s.freed = true ∨ 0 < s.threadCount ∨ 0 < s.workers.countP Pc.parting

theorem present_sum (l : List Pc) :
    l.countP present = l.countP counted + l.countP isStart + l.countP Pc.parting := by
  induction l with
  | nil => rfl
  | cons p l ih =>
    simp only [List.countP_cons, ih]
    cases p <;> simp [present, counted, isStart, Pc.parting] <;> omega

theorem dest_le (l : List Pc) : l.countP isDest ≤ l.countP Pc.parting := by
  apply List.countP_mono_left
  intro p _ h
  rw [show p = .destroying from by simpa [isDest] using h]
  rfl

/-- A worker goes on while nobody is parting. -/
theorem calm_set {s s' : State} {j : Nat} {p q : Pc} (c : Calm s) (hp : s.workers[j]? = some p)
    (h0 : s.workers.countP Pc.parting = 0) (hd0 : parting s.destroyer = false)
    (hq : isStart q = false) (hqd : isDest q = false) (hw : s'.workers = s.workers.set j q)
    (hd : s'.destroyer = s.destroyer) (hsh : s'.isShutdown = s.isShutdown) (hf : s'.freed = false)
    (hk : s.freed = false ∧ 0 < s.threadCount → 0 < s'.threadCount ∨ Pc.parting q = true) (hf0 : s.freed = false) :
    Calm s' := by
  have hpp : Pc.parting p = false := by
    have := List.countP_eq_zero.1 h0 p (List.mem_of_getElem? hp)
    simpa using this
  have e1 := countP_setPc (f := Pc.parting) (q := q) hp
  have e2 := countP_setPc (f := isStart) (q := q) hp
  have e3 := countP_setPc (f := isDest) (q := q) hp
  have d0 := dest_le s.workers
  rw [hpp, h0] at e1
  rw [hq] at e2
  rw [hqd] at e3
  simp only [Bool.false_eq_true, if_false, Nat.add_zero, Nat.zero_add] at e1 e2 e3
  refine ⟨?_, ?_, ?_, ?_, ?_, ?_, ?_⟩
  · rw [hw, hd, hd0, e1]; split <;> simp
  · intro h
    rw [hw]
    have := c.begun (hd ▸ h)
    omega
  · rw [hsh, hd]; exact c.shut
  · intro h
    rw [hd] at h
    rw [h] at hd0
    cases hd0
  · intro h
    rw [hw] at h
    omega
  · intro h
    rw [hf] at h
    cases h
  · intro h
    rw [hd] at h
    rcases c.kept h with h1 | h1 | h1
    · rw [hf0] at h1; cases h1
    · rcases hk ⟨hf0, h1⟩ with h2 | h2
      · exact .inr (.inl h2)
      · refine .inr (.inr ?_)
        rw [hw, e1, h2]
        simp
    · omega

theorem loop_calm {s s0 : State} {j : Nat} {p : Pc} (c : Calm s) (hp : s.workers[j]? = some p)
    (h0 : s.workers.countP Pc.parting = 0) (hd0 : parting s.destroyer = false) (hf : s.freed = false)
    (hw : s0.workers = s.workers) (hd : s0.destroyer = s.destroyer) (hsh : s0.isShutdown = s.isShutdown)
    (hf0 : s0.freed = s.freed) (ht : s.threadCount ≤ s0.threadCount) : Calm (loop s0 j).1 := by
  unfold loop
  split
  · split
    · rename_i t _ _
      refine calm_set (q := .running t) c hp h0 hd0 rfl rfl ?_ hd hsh (hf0.trans hf) ?_ hf
      · simp only [setPc, hw]
      · intro h
        left
        show 0 < s0.threadCount
        omega
    · refine calm_set (q := .waiting) c hp h0 hd0 rfl rfl ?_ hd hsh (hf0.trans hf) ?_ hf
      · simp only [setPc, hw]
      · intro h
        left
        show 0 < s0.threadCount
        omega
  · refine calm_set (q := .leaving) c hp h0 hd0 rfl rfl ?_ hd hsh (hf0.trans hf) (fun _ => .inr rfl) hf
    simp only [setPc, hw]

theorem calm_step {s s' : State} {e : Op} {o : Out} (c : Calm s) (it : s.threadCount = s.workers.countP counted)
    (hs : calmStep s e = .ok (s', o)) : Calm s' := by
  unfold calmStep at hs
  split at hs
  · cases hs
  rename_i hg
  split at hs
  · cases hs
  rename_i hstop
  have quiet : ofParting s e = false → s.workers.countP Pc.parting = 0 ∧ parting s.destroyer = false := by
    intro h
    rw [h] at hg
    simp only [Bool.not_false, Bool.and_true, Bool.or_eq_true, not_or, Bool.not_eq_true] at hg
    refine ⟨?_, hg.2⟩
    rw [List.countP_eq_zero]
    intro p hp hpp
    have := List.any_eq_false.1 hg.1 p hp
    exact this hpp
  cases e with
  | submit t w =>
    obtain ⟨h0, hd0⟩ := quiet rfl
    simp only [step] at hs
    split at hs
    · cases hs
    rename_i hdn
    have hdn : s.destroyer = none := by simpa using hdn
    have hf : s.freed = false := by
      cases hf : s.freed with
      | false => rfl
      | true => rw [(c.over hf).2] at hdn; cases hdn
    unfold submit at hs
    simp only [] at hs
    split at hs
    · cases w with
      | some j =>
        simp only [] at hs
        split at hs
        · rename_i hj
          cases hs
          exact calm_set (q := .woken) c hj h0 hd0 rfl rfl rfl rfl rfl hf (fun h => .inl h.2) hf
        · cases hs
      | none =>
        simp only [] at hs
        split at hs
        · cases hs
        · cases hs
          exact ⟨c.one, c.begun, c.shut, c.last, c.lastW, c.over, c.kept⟩
    · split at hs
      · cases hs
      · split at hs
        · cases hs
          refine ⟨?_, ?_, c.shut, c.last, ?_, ?_, ?_⟩
          · simp only [List.countP_append, h0, hd0]
            simp [Pc.parting]
          · intro h
            simp only [hdn] at h
            cases h
          · intro h
            have d0 := dest_le s.workers
            have h : 0 < (s.workers ++ [Pc.starting]).countP isDest := h
            rw [List.countP_append] at h
            have e0 : [Pc.starting].countP isDest = 0 := rfl
            omega
          · intro h
            exact absurd h (by simp [hf])
          · intro h
            simp only [hdn] at h
            cases h
        · cases hs
          exact ⟨c.one, c.begun, c.shut, c.last, c.lastW, c.over, c.kept⟩
  | work j =>
    simp only [step] at hs
    split at hs
    · rename_i p hp
      cases p with
      | starting =>
        obtain ⟨h0, hd0⟩ := quiet (by simp [ofParting, hp, Pc.parting])
        simp only [work] at hs
        split at hs
        · cases hs
        · rename_i hf
          cases hs
          exact loop_calm (s0 := { s with threadCount := s.threadCount + 1 }) c hp h0 hd0 (by simpa using hf) rfl rfl rfl
            rfl (Nat.le_succ _)
      | woken =>
        obtain ⟨h0, hd0⟩ := quiet (by simp [ofParting, hp, Pc.parting])
        simp only [work] at hs
        split at hs
        · cases hs
        · rename_i hf
          cases hs
          exact loop_calm c hp h0 hd0 (by simpa using hf) rfl rfl rfl rfl (Nat.le_refl _)
      | running t =>
        obtain ⟨h0, hd0⟩ := quiet (by simp [ofParting, hp, Pc.parting])
        simp only [work] at hs
        split at hs
        · cases hs
        · rename_i hf
          cases hs
          exact loop_calm (s0 := { s with busy := s.busy - 1 }) c hp h0 hd0 (by simpa using hf) rfl rfl rfl rfl
            (Nat.le_refl _)
      | expired =>
        obtain ⟨h0, hd0⟩ := quiet (by simp [ofParting, hp, Pc.parting])
        simp only [work] at hs
        split at hs
        · cases hs
        · rename_i hf
          cases hs
          exact calm_set (q := .leaving) c hp h0 hd0 rfl rfl rfl rfl rfl (by simpa [setPc] using hf)
            (fun _ => .inr rfl) (by simpa using hf)
      | leaving =>
        simp only [work] at hs
        split at hs
        · cases hs
        · rename_i hf
          cases hs
          have hpos : 0 < s.workers.countP Pc.parting :=
            List.countP_pos_iff.2 ⟨_, List.mem_of_getElem? hp, rfl⟩
          have one := c.one
          have hdp : parting s.destroyer = false := by
            cases h : parting s.destroyer with
            | false => rfl
            | true => rw [h, if_pos rfl] at one; omega
          rw [hdp] at one
          have hq1 : (if shouldDestroy s then Pc.destroying else Pc.gone) = .destroying ∧ s.threadCount = 0 ∧
              s.isShutdown = true ∨ (if shouldDestroy s then Pc.destroying else Pc.gone) = .gone ∧
              (s.isShutdown = true → 0 < s.threadCount) := by
            unfold shouldDestroy
            cases h1 : s.isShutdown <;> cases h2 : s.threadCount with
            | zero => simp
            | succ n => simp
          have d0 := dest_le s.workers
          rcases hq1 with ⟨hq, ht, hsh⟩ | ⟨hq, hk⟩ <;> rw [hq]
          · have e1 := countP_setPc (f := Pc.parting) (q := .destroying) hp
            have e2 := countP_setPc (f := isStart) (q := .destroying) hp
            simp [Pc.parting, isStart] at e1 e2
            refine ⟨?_, ?_, c.shut, ?_, ?_, ?_, ?_⟩
            · simp only [setPc, hdp, e1]; exact one
            · intro h; simp only [setPc] at h ⊢; rw [e2]; exact c.begun h
            · intro h; exact c.last h
            · intro _; exact ⟨ht, hsh⟩
            · intro h; exact absurd h hf
            · intro _; refine .inr (.inr ?_); simp only [setPc, e1]; exact hpos
          · have e1 := countP_setPc (f := Pc.parting) (q := .gone) hp
            have e2 := countP_setPc (f := isStart) (q := .gone) hp
            have e3 := countP_setPc (f := isDest) (q := .gone) hp
            simp [Pc.parting, isStart, isDest] at e1 e2 e3
            refine ⟨?_, ?_, c.shut, ?_, ?_, ?_, ?_⟩
            · simp only [setPc, hdp]; simp; omega
            · intro h; simp only [setPc] at h ⊢; rw [e2]; exact c.begun h
            · intro h; exact c.last h
            · intro h; simp only [setPc, e3] at h; exact c.lastW h
            · intro h; exact absurd h hf
            · intro h
              refine .inr (.inl (hk ?_))
              rw [c.shut, show s.destroyer = some .done from h]
              rfl
      | destroying =>
        simp only [work] at hs
        split at hs
        · cases hs
        · rename_i hf
          cases hs
          have hpos : 0 < s.workers.countP Pc.parting :=
            List.countP_pos_iff.2 ⟨_, List.mem_of_getElem? hp, rfl⟩
          have hposd : 0 < s.workers.countP isDest := List.countP_pos_iff.2 ⟨_, List.mem_of_getElem? hp, rfl⟩
          have one := c.one
          have hdp : parting s.destroyer = false := by
            cases h : parting s.destroyer with
            | false => rfl
            | true => rw [h, if_pos rfl] at one; omega
          rw [hdp] at one
          obtain ⟨ht, hsh⟩ := c.lastW hposd
          have hdone : s.destroyer = some .done := by
            have := c.shut
            rw [hsh] at this
            cases hd : s.destroyer with
            | none => rw [hd] at this; cases this
            | some d =>
              rw [hd] at this hdp
              cases d <;> first | rfl | (cases this; done) | (cases hdp; done)
          have e1 := countP_setPc (f := Pc.parting) (q := .gone) hp
          have e2 := countP_setPc (f := isStart) (q := .gone) hp
          have e3 := countP_setPc (f := isDest) (q := .gone) hp
          have e4 := countP_setPc (f := counted) (q := .gone) hp
          simp [Pc.parting, isStart, isDest, counted] at e1 e2 e3 e4
          have hb := c.begun (by rw [hdone]; rfl)
          have d0 := dest_le s.workers
          have pl : Pc.parting .destroying = true := rfl
          refine ⟨?_, ?_, c.shut, ?_, ?_, ?_, ?_⟩
          · simp only [setPc, hdp]; simp; omega
          · intro h; simp only [setPc]; rw [e2]; exact hb
          · intro h; exact c.last h
          · intro h; exact ⟨ht, hsh⟩
          · intro _
            refine ⟨?_, hdone⟩
            simp only [setPc]
            rw [present_sum]
            simp at one
            omega
          · intro _; exact .inl rfl
      | waiting => simp [work] at hs
      | gone => simp [work] at hs
    · cases hs
  | timeout j =>
    obtain ⟨h0, hd0⟩ := quiet rfl
    simp only [step] at hs
    split at hs
    · rename_i hj
      cases hs
      have hf : s.freed = false := by
        cases hf : s.freed with
        | false => rfl
        | true =>
          exact absurd (show present .waiting = true from rfl)
            (by simpa using List.countP_eq_zero.1 (c.over hf).1 _ (List.mem_of_getElem? hj))
      exact calm_set (q := .expired) c hj h0 hd0 rfl rfl rfl rfl rfl hf (fun h => .inl h.2) hf
    · cases hs
  | spurious j =>
    obtain ⟨h0, hd0⟩ := quiet rfl
    simp only [step] at hs
    split at hs
    · rename_i hj
      cases hs
      have hf : s.freed = false := by
        cases hf : s.freed with
        | false => rfl
        | true =>
          exact absurd (show present .waiting = true from rfl)
            (by simpa using List.countP_eq_zero.1 (c.over hf).1 _ (List.mem_of_getElem? hj))
      exact calm_set (q := .woken) c hj h0 hd0 rfl rfl rfl rfl rfl hf (fun h => .inl h.2) hf
    · cases hs
  | destroy f =>
    obtain ⟨h0, hd0⟩ := quiet rfl
    simp only [step] at hs
    split at hs
    · cases hs
    · rename_i hdn
      have hdn : s.destroyer = none := by simpa using hdn
      cases hs
      have d0 := dest_le s.workers
      refine ⟨?_, ?_, ?_, ?_, ?_, ?_, ?_⟩
      · simp only [h0, parting]; simp
      · intro h; cases h
      · have := c.shut; rw [hdn] at this; exact this
      · intro h; cases h
      · intro h; exact c.lastW h
      · intro h; exact absurd (c.over h).2 (by rw [hdn]; simp)
      · intro h; cases h
  | stop =>
    obtain ⟨h0, hd0⟩ := quiet rfl
    have hns : Pc.starting ∉ s.workers := fun h => hstop ⟨rfl, h⟩
    have hn0 : s.workers.countP isStart = 0 := by
      rw [List.countP_eq_zero]
      intro p hp hst
      rw [show p = .starting from by simpa [isStart] using hst] at hp
      exact hns hp
    simp only [step] at hs
    split at hs
    · rename_i hdn
      split at hs
      · cases hs
      · rename_i hf
        split at hs
        · cases hs
        · cases hs
          have d0 := dest_le s.workers
          refine ⟨?_, ?_, ?_, ?_, ?_, ?_, ?_⟩
          · simp only [countP_wake Pc.parting s.workers rfl, h0, parting]; simp
          · intro _; simp only [countP_wake isStart s.workers rfl]; exact hn0
          · have := c.shut; rw [hdn] at this; exact this
          · intro h; cases h
          · intro h
            simp only [countP_wake isDest s.workers rfl] at h
            omega
          · intro h; exact absurd h hf
          · intro h; cases h
    · cases hs
  | goOn =>
    simp only [step] at hs
    split at hs
    · rename_i hdn
      split at hs
      · cases hs
      · rename_i hf
        cases hs
        have one := c.one
        rw [hdn] at one
        have d0 := dest_le s.workers
        refine ⟨one, fun _ => c.begun (by rw [hdn]; rfl), rfl, ?_, ?_, ?_, ?_⟩
        · intro h; cases h
        · intro h
          rw [show parting (some Destroyer.stopped) = true from rfl, if_pos rfl] at one
          have h : 0 < s.workers.countP isDest := h
          omega
        · intro h; exact absurd h hf
        · intro h; cases h
    · rename_i hdn
      split at hs
      · cases hs
      · rename_i hf
        cases hs
        have one := c.one
        rw [hdn] at one
        have hsh : s.isShutdown = true := by rw [c.shut, hdn]; rfl
        have hp0 : s.workers.countP Pc.parting = 0 := by
          rw [show parting (some Destroyer.leaving) = true from rfl, if_pos rfl] at one
          omega
        have d0 := dest_le s.workers
        unfold shouldDestroy
        cases ht : s.threadCount with
        | zero =>
          refine ⟨?_, fun _ => c.begun (by rw [hdn]; rfl), ?_, ?_, ?_, ?_, ?_⟩
          · simp [hsh, parting, hp0]
          · simp [hsh, past]
          · intro _; rfl
          · intro h
            have h : 0 < s.workers.countP isDest := h
            omega
          · intro h; exact absurd h hf
          · intro h; simp [hsh] at h
        | succ n =>
          refine ⟨?_, fun _ => c.begun (by rw [hdn]; rfl), ?_, ?_, ?_, ?_, ?_⟩
          · simp [hsh, parting, hp0]
          · simp [hsh, past]
          · intro h; simp at h
          · intro h
            have h : 0 < s.workers.countP isDest := h
            omega
          · intro h; exact absurd h hf
          · intro h
            exact .inr (.inl (Nat.succ_pos n))
    · rename_i hdn
      split at hs
      · cases hs
      · rename_i hf
        cases hs
        have one := c.one
        rw [hdn] at one
        have hsh : s.isShutdown = true := by rw [c.shut, hdn]; rfl
        have hp0 : s.workers.countP Pc.parting = 0 := by
          rw [show parting (some Destroyer.destroying) = true from rfl, if_pos rfl] at one
          omega
        have hb := c.begun (by rw [hdn]; rfl)
        have ht := c.last hdn
        have d0 := dest_le s.workers
        refine ⟨?_, fun _ => hb, ?_, ?_, ?_, ?_, ?_⟩
        · simp [parting, hp0]
        · simp [hsh, past]
        · intro h; simp at h
        · intro h
          have h : 0 < s.workers.countP isDest := h
          omega
        · intro _
          refine ⟨?_, rfl⟩
          show s.workers.countP present = 0
          rw [present_sum]
          omega
        · intro _; exact .inl rfl
    · cases hs

theorem calm_ok {s : State} {e : Op} {r} (h : calmStep s e = .ok r) : step s e = .ok r := by
  unfold calmStep at h
  split at h
  · cases h
  · split at h
    · cases h
    · exact h

theorem exec_calm {n : Nat} {h : History} {s : State} (hx : Exec calmStep (State.init n) h s) : Calm s := by
  induction hx with
  | nil =>
    refine ⟨by simp [State.init, parting], fun _ => rfl, rfl, fun h => ?_, fun h => ?_, fun h => ?_, fun h => ?_⟩
    · simp [State.init]
    · simp [State.init] at h
    · simp [State.init] at h
    · simp [State.init] at h
  | snoc hx hs ih => exact calm_step ih (exec_inv (exec_mono (fun _ _ _ => calm_ok) hx)).threads hs

theorem set_ok {α : Type} {b : Bool} {r : α} (hb : b = false) : (if b = true then Res.ub else .ok r) ≠ .ub := by
  rw [hb]
  simp

theorem not_present {s : State} (h : s.workers.countP present = 0) {j : Nat} {p : Pc} (hp : s.workers[j]? = some p) :
    p = .gone := by
  have := List.countP_eq_zero.1 h p (List.mem_of_getElem? hp)
  simpa [present] using this

theorem calm_safe {s : State} (c : Calm s) (e : Op) : step s e ≠ .ub := by
  intro h
  cases e with
  | submit t w =>
    simp only [step] at h
    split at h
    · cases h
    · unfold submit at h
      simp only [] at h
      repeat' (split at h)
      all_goals cases h
  | work j =>
    simp only [step] at h
    split at h
    · rename_i p hp
      cases hf : s.freed with
      | true =>
        rw [not_present (c.over hf).1 hp] at h
        cases h
      | false => cases p <;> simp [work, hf] at h
    · cases h
  | timeout j => simp only [step] at h; split at h <;> cases h
  | spurious j => simp only [step] at h; split at h <;> cases h
  | destroy f => simp only [step] at h; split at h <;> cases h
  | stop =>
    simp only [step] at h
    split at h
    · rename_i hd
      split at h
      · rename_i hf
        rw [(c.over hf).2] at hd
        cases hd
      · split at h <;> cases h
    · cases h
  | goOn =>
    simp only [step] at h
    split at h <;> first | (cases h; done) | skip
    all_goals
      rename_i hd
      split at h
      · rename_i hf
        rw [(c.over hf).2] at hd
        cases hd
      · cases h

theorem calm_freed {s : State} (c : Calm s) (it : s.threadCount = s.workers.countP counted) :
    s.freed = true ↔ (∀ p ∈ s.workers, p = .gone) ∧ s.destroyer = some .done := by
  constructor
  · intro h
    refine ⟨fun p hp => ?_, (c.over h).2⟩
    obtain ⟨j, hj⟩ := List.mem_iff_getElem?.1 hp
    exact not_present (c.over h).1 hj
  · rintro ⟨hg, hd⟩
    have h0 : s.workers.countP present = 0 := by
      rw [List.countP_eq_zero]
      intro p hp
      rw [hg p hp]
      simp [present]
    rw [present_sum] at h0
    rcases c.kept hd with h | h | h
    · exact h
    · omega
    · omega

/-! ## Stopping -/

theorem loop_frame (s : State) (j : Nat) : (loop s j).1.isRunning = s.isRunning ∧ (loop s j).1.destroyer = s.destroyer := by
  unfold loop
  split
  · split <;> exact ⟨rfl, rfl⟩
  · exact ⟨rfl, rfl⟩

theorem work_frame {s s' : State} {j : Nat} {p : Pc} {o : Out} (h : work s j p = .ok (s', o)) :
    s'.isRunning = s.isRunning ∧ s'.destroyer = s.destroyer := by
  cases p <;> simp only [work] at h
  case waiting => cases h
  case gone => cases h
  all_goals
    split at h
    · cases h
    · cases h
      first | exact loop_frame _ _ | exact ⟨rfl, rfl⟩

theorem submit_frame {s s' : State} {t : Nat} {w : Option Nat} {o : Out} (h : submit s t w = .ok (s', o)) :
    s'.isRunning = s.isRunning ∧ s'.destroyer = s.destroyer := by
  unfold submit at h
  simp only [] at h
  repeat' (split at h)
  all_goals cases h
  all_goals exact ⟨rfl, rfl⟩

/-- What the destroying thread is at, as seen from the history. -/
structure Ends (h : History) (s : State) : Prop where
  never : s.destroyer = none → ∀ f o, (Op.destroy f, o) ∉ h
  began : s.destroyer ≠ none → ∃ f o, (Op.destroy f, o) ∈ h
  stop : s.isRunning = false ↔ ended s.destroyer = true
  kind : ∀ f f' o, (Op.destroy f, o) ∈ h → s.destroyer = some (.stopping f') → f = f'

theorem ends_still {h : History} {s s' : State} {e : Op} {o : Out} (i : Ends h s)
    (hf : s'.isRunning = s.isRunning ∧ s'.destroyer = s.destroyer) (he : ∀ f, e ≠ .destroy f) :
    Ends (h ++ [(e, o)]) s' := by
  have mem : ∀ f o', (Op.destroy f, o') ∈ h ++ [(e, o)] → (Op.destroy f, o') ∈ h := by
    intro f o' hm
    rcases List.mem_append.1 hm with hm | hm
    · exact hm
    · simp only [List.mem_singleton, Prod.mk.injEq] at hm
      exact absurd hm.1.symm (he f)
  refine ⟨?_, ?_, ?_, ?_⟩
  · intro hd f o' hm
    exact i.never (hf.2 ▸ hd) f o' (mem f o' hm)
  · intro hd
    obtain ⟨f, o', hm⟩ := i.began (hf.2 ▸ hd)
    exact ⟨f, o', List.mem_append_left _ hm⟩
  · rw [hf.1, hf.2]; exact i.stop
  · intro f f' o' hm hd
    exact i.kind f f' o' (mem f o' hm) (hf.2 ▸ hd)

theorem ends_go {h : History} {s s' : State} {e : Op} {o : Out} (i : Ends h s) (he : ∀ f, e ≠ .destroy f)
    (hd : s.destroyer ≠ none) (hd' : ended s'.destroyer = true) (hr : s'.isRunning = false) :
    Ends (h ++ [(e, o)]) s' := by
  refine ⟨?_, ?_, ?_, ?_⟩
  · intro h; rw [h] at hd'; cases hd'
  · intro _
    obtain ⟨f, o', hm⟩ := i.began hd
    exact ⟨f, o', List.mem_append_left _ hm⟩
  · simp [hr, hd']
  · intro f f' o' _ h
    rw [h] at hd'
    cases hd'

theorem step_ends {h : History} {s s' : State} {e : Op} {o : Out} (i : Ends h s) (hs : step s e = .ok (s', o)) :
    Ends (h ++ [(e, o)]) s' := by
  cases e with
  | submit t w =>
    simp only [step] at hs
    split at hs
    · cases hs
    · exact ends_still i (submit_frame hs) (by simp)
  | work j =>
    simp only [step] at hs
    split at hs
    · exact ends_still i (work_frame hs) (by simp)
    · cases hs
  | timeout j =>
    simp only [step] at hs
    split at hs
    · cases hs; exact ends_still i ⟨rfl, rfl⟩ (by simp)
    · cases hs
  | spurious j =>
    simp only [step] at hs
    split at hs
    · cases hs; exact ends_still i ⟨rfl, rfl⟩ (by simp)
    · cases hs
  | destroy f =>
    simp only [step] at hs
    split at hs
    · cases hs
    · rename_i hd
      have hd : s.destroyer = none := by simpa using hd
      cases hs
      refine ⟨?_, ?_, ?_, ?_⟩
      · intro h; cases h
      · intro _; exact ⟨f, .silent, by simp⟩
      · have := i.stop
        rw [hd] at this
        exact this
      · intro f1 f2 o1 hm h
        rcases List.mem_append.1 hm with hm | hm
        · exact absurd hm (i.never hd f1 o1)
        · simp only [List.mem_singleton, Prod.mk.injEq, Op.destroy.injEq] at hm
          simp only [Option.some.injEq, Destroyer.stopping.injEq] at h
          rw [hm.1, h]
  | stop =>
    simp only [step] at hs
    split at hs
    · rename_i hd
      split at hs
      · cases hs
      · split at hs
        · cases hs
        · cases hs
          exact ends_go i (by simp) (by rw [hd]; simp) rfl rfl
    · cases hs
  | goOn =>
    simp only [step] at hs
    split at hs
    · rename_i hd
      split at hs
      · cases hs
      · cases hs
        exact ends_go i (by simp) (by rw [hd]; simp) rfl (i.stop.2 (by rw [hd]; rfl))
    · rename_i hd
      split at hs
      · cases hs
      · cases hs
        refine ends_go i (by simp) (by rw [hd]; simp) ?_ (i.stop.2 (by rw [hd]; rfl))
        simp only []
        split <;> rfl
    · rename_i hd
      split at hs
      · cases hs
      · cases hs
        exact ends_go i (by simp) (by rw [hd]; simp) rfl (i.stop.2 (by rw [hd]; rfl))
    · cases hs

theorem exec_ends {n : Nat} {h : History} {s : State} (hx : Exec step (State.init n) h s) : Ends h s := by
  induction hx with
  | nil =>
    refine ⟨fun _ f o h => ?_, fun h => absurd rfl h, ?_, fun f f' o h => ?_⟩
    · cases h
    · simp [State.init, ended, past]
    · cases h
  | snoc _ hs ih => exact step_ends ih hs

theorem loop_took {s : State} {j t : Nat} (h : (loop s j).2 = .took t) : s.isRunning = true := by
  unfold loop at h
  split at h
  · assumption
  · cases h

/-- A task is started only while the workers are not stopped. -/
theorem start_running {s s' : State} {e : Op} {o : Out} {t : Nat} (hs : step s e = .ok (s', o))
    (ht : startedIn (e, o) = some t) : s.isRunning = true := by
  have took : ∃ f, o = .worked f (.took t) := by
    cases o with
    | worked f n =>
      cases n with
      | took u =>
        simp only [startedIn, Option.some.injEq] at ht
        exact ⟨f, by rw [ht]⟩
      | waits => cases ht
      | left => cases ht
    | submitted _ => cases ht
    | stopped _ => cases ht
    | silent => cases ht
  obtain ⟨f, rfl⟩ := took
  cases e with
  | submit u w =>
    simp only [step] at hs
    split at hs
    · cases hs
    · unfold submit at hs
      simp only [] at hs
      repeat' (split at hs)
      all_goals cases hs
  | work j =>
    simp only [step] at hs
    split at hs
    · rename_i p _
      cases p <;> simp only [work] at hs
      case waiting => cases hs
      case gone => cases hs
      case expired => split at hs <;> cases hs
      case leaving => split at hs <;> cases hs
      case destroying => split at hs <;> cases hs
      all_goals
        split at hs
        · cases hs
        · simp only [Res.ok.injEq, Prod.mk.injEq, Out.worked.injEq] at hs
          have := loop_took hs.2.2
          exact this
    · cases hs
  | timeout j => simp only [step] at hs; split at hs <;> cases hs
  | spurious j => simp only [step] at hs; split at hs <;> cases hs
  | destroy f => simp only [step] at hs; split at hs <;> cases hs
  | stop =>
    simp only [step] at hs
    repeat' (split at hs)
    all_goals cases hs
  | goOn =>
    simp only [step] at hs
    repeat' (split at hs)
    all_goals cases hs

/-- After the workers were stopped no task is started and none is given to the pool. -/
theorem after_stop {n : Nat} {h : History} {s : State} (hx : Exec step (State.init n) h s) :
    ∀ a c b, h = a ++ (.stop, .stopped c) :: b → started h = started a ∧ submitted h = submitted a := by
  induction hx with
  | nil => intro a c b h; simp at h
  | @snoc h s e o s' hx hs ih =>
    intro a c b hab
    have hi := exec_inv hx
    have he := exec_ends hx
    rcases List.eq_nil_or_concat b with rfl | ⟨b', x, rfl⟩
    · obtain ⟨rfl, hx1⟩ := List.append_inj' hab rfl
      simp only [List.cons.injEq, and_true] at hx1
      rw [sta_snoc, sub_snoc, hx1]
      exact ⟨List.append_nil _, List.append_nil _⟩
    · rw [List.concat_eq_append, ← List.cons_append, ← List.append_assoc] at hab
      obtain ⟨hab, _⟩ := List.append_inj' hab rfl
      obtain ⟨i1, i2⟩ := ih a c b' hab
      have hstop : Stopped h := ⟨c, by rw [hab]; simp⟩
      have hr : s.isRunning = false := hi.stops.2 hstop
      rw [sta_snoc, sub_snoc, i1, i2]
      constructor
      · cases ht : startedIn (e, o) with
        | none => exact List.append_nil _
        | some t => rw [start_running hs ht] at hr; cases hr
      · cases e with
        | submit t w =>
          simp only [step] at hs
          split at hs
          · cases hs
          · rename_i hd
            have hd : s.destroyer = none := by simpa using hd
            have := he.stop.1 hr
            rw [hd] at this
            cases this
        | _ => exact List.append_nil _

/-- Once destroying has begun while a task runs, or none waits, this stays so until the workers are stopped. -/
theorem step_served {s s' : State} {e : Op} {o : Out} (hd : s.destroyer ≠ none)
    (hb : s.isRunning = true → 0 < s.busy ∨ s.queue = []) (hs : step s e = .ok (s', o)) :
    s'.isRunning = true → 0 < s'.busy ∨ s'.queue = [] := by
  cases e with
  | submit t w =>
    simp only [step] at hs
    rw [if_pos hd] at hs
    cases hs
  | work j =>
    simp only [step] at hs
    split at hs
    · rename_i p _
      have key : ∀ s0 : State, ((loop s0 j).1.isRunning = true → 0 < (loop s0 j).1.busy ∨ (loop s0 j).1.queue = []) := by
        intro s0 hr
        rw [(loop_frame s0 j).1] at hr
        unfold loop
        rw [if_pos hr]
        split
        · exact .inl (Nat.succ_pos _)
        · rename_i hq
          exact .inr hq
      cases p <;> simp only [work] at hs
      case waiting => cases hs
      case gone => cases hs
      all_goals
        split at hs
        · cases hs
        · cases hs
          first | exact key _ | exact hb
    · cases hs
  | timeout j =>
    simp only [step] at hs
    split at hs
    · cases hs; exact hb
    · cases hs
  | spurious j =>
    simp only [step] at hs
    split at hs
    · cases hs; exact hb
    · cases hs
  | destroy f =>
    simp only [step] at hs
    rw [if_pos hd] at hs
    cases hs
  | stop =>
    simp only [step] at hs
    split at hs
    · split at hs
      · cases hs
      · split at hs
        · cases hs
        · cases hs
          intro h; cases h
    · cases hs
  | goOn =>
    simp only [step] at hs
    split at hs
    all_goals first
      | (cases hs; done)
      | (split at hs
         · cases hs
         · cases hs; exact hb)

theorem exec_served {n : Nat} {h : History} {s : State} (hx : Exec step (State.init n) h s) :
    ∀ a f o b, h = a ++ (.destroy f, o) :: b →
      (started a = submitted a ∨ ∃ t, (finished a).count t < (started a).count t) →
      s.destroyer ≠ none ∧ (s.isRunning = true → 0 < s.busy ∨ s.queue = []) := by
  induction hx with
  | nil => intro a f o b h; simp at h
  | @snoc h s e o s' hx hs ih =>
    intro a f o1 b hab hc
    have hi := exec_inv hx
    have he := exec_ends (.snoc hx hs)
    refine ⟨fun hd => he.never hd f o1 (by rw [hab]; simp), ?_⟩
    rcases List.eq_nil_or_concat b with rfl | ⟨b', x, rfl⟩
    · obtain ⟨rfl, hx1⟩ := List.append_inj' hab rfl
      simp only [List.cons.injEq, and_true, Prod.mk.injEq] at hx1
      obtain ⟨rfl, rfl⟩ := hx1
      simp only [step] at hs
      split at hs
      · cases hs
      · cases hs
        intro _
        rcases hc with hc | ⟨t, hc⟩
        · right
          have := hi.order
          rw [hc] at this
          simpa using this
        · left
          show 0 < s.busy
          have h1 := hi.hands t
          rw [hi.busy]
          have : 0 < s.workers.countP (isRunOf t) := by omega
          obtain ⟨p, hp, hpt⟩ := List.countP_pos_iff.1 this
          refine List.countP_pos_iff.2 ⟨p, hp, ?_⟩
          rw [show p = .running t by simpa [isRunOf] using hpt]
          rfl
    · rw [List.concat_eq_append, ← List.cons_append, ← List.append_assoc] at hab
      obtain ⟨hab, _⟩ := List.append_inj' hab rfl
      obtain ⟨i1, i2⟩ := ih a f o1 b' hab hc
      exact step_served i1 i2 hs

/-- What stopping the workers finds. -/
theorem stop_found {s s' : State} {c : Bool} (hs : step s .stop = .ok (s', .stopped c)) :
    (c = false ↔ s.queue = []) ∧ ∃ f, s.destroyer = some (.stopping f) ∧ (f = true → s.busy = 0) := by
  simp only [step] at hs
  split at hs
  · rename_i f hd
    split at hs
    · cases hs
    · split at hs
      · cases hs
      · rename_i hb
        cases hs
        refine ⟨by simp, f, hd, ?_⟩
        rintro rfl
        simpa using hb
  · cases hs

theorem idle_perm {h : History} {s : State} (i : Inv h s) (hb : s.busy = 0) : (started h).Perm (finished h) := by
  rw [List.perm_iff_count]
  intro t
  rw [i.hands t]
  have h0 : s.workers.countP isRun = 0 := i.busy ▸ hb
  have : s.workers.countP (isRunOf t) = 0 := by
    rw [List.countP_eq_zero] at h0 ⊢
    intro p hp hpt
    refine h0 p hp ?_
    rw [show p = .running t by simpa [isRunOf] using hpt]
    rfl
  omega

/-! ## The end -/

theorem loop_waits {s : State} {j : Nat} (h : s.isRunning = false) : (loop s j).1.workers = s.workers.set j .leaving := by
  unfold loop
  rw [h]
  rfl

theorem step_awake {s s' : State} {e : Op} {o : Out} (hw : s.isRunning = false → Pc.waiting ∉ s.workers)
    (hn : s.isRunning = false → s.destroyer ≠ none) (hs : step s e = .ok (s', o)) :
    s'.isRunning = false → Pc.waiting ∉ s'.workers := by
  have key : ∀ (q : Pc) (j : Nat), q ≠ .waiting → s.isRunning = false → Pc.waiting ∉ s.workers.set j q := by
    intro q j hq hr hm
    rcases List.mem_or_eq_of_mem_set hm with h | h
    · exact hw hr h
    · exact hq h.symm
  cases e with
  | submit t w =>
    simp only [step] at hs
    split at hs
    · cases hs
    · rename_i hd
      intro hr
      rw [(submit_frame hs).1] at hr
      exact absurd (hn hr) hd
  | work j =>
    simp only [step] at hs
    split at hs
    · rename_i p _
      intro hr
      have hfr := (work_frame hs).1
      rw [hfr] at hr
      cases p <;> simp only [work] at hs
      case waiting => cases hs
      case gone => cases hs
      case starting =>
        split at hs
        · cases hs
        · cases hs
          have : (loop { s with threadCount := s.threadCount + 1 } j).1.workers = s.workers.set j .leaving :=
            loop_waits hr
          rw [this]
          exact key _ _ (by simp) hr
      case woken =>
        split at hs
        · cases hs
        · cases hs
          rw [loop_waits hr]
          exact key _ _ (by simp) hr
      case running =>
        split at hs
        · cases hs
        · cases hs
          have : (loop { s with busy := s.busy - 1 } j).1.workers = s.workers.set j .leaving :=
            loop_waits hr
          rw [this]
          exact key _ _ (by simp) hr
      case expired =>
        split at hs
        · cases hs
        · cases hs
          exact key _ _ (by simp) hr
      case leaving =>
        split at hs
        · cases hs
        · cases hs
          refine key _ _ ?_ hr
          split <;> simp
      case destroying =>
        split at hs
        · cases hs
        · cases hs
          exact key _ _ (by simp) hr
    · cases hs
  | timeout j =>
    simp only [step] at hs
    split at hs
    · cases hs; exact key _ _ (by simp)
    · cases hs
  | spurious j =>
    simp only [step] at hs
    split at hs
    · cases hs; exact key _ _ (by simp)
    · cases hs
  | destroy f =>
    simp only [step] at hs
    split at hs
    · cases hs
    · cases hs; exact hw
  | stop =>
    simp only [step] at hs
    split at hs
    · split at hs
      · cases hs
      · split at hs
        · cases hs
        · cases hs
          intro _ hm
          obtain ⟨p, _, hp⟩ := List.mem_map.1 hm
          split at hp
          · cases hp
          · rename_i h; exact h hp
    · cases hs
  | goOn =>
    simp only [step] at hs
    split at hs
    all_goals first
      | (cases hs; done)
      | (split at hs
         · cases hs
         · cases hs; exact hw)

theorem exec_awake {n : Nat} {h : History} {s : State} (hx : Exec step (State.init n) h s) :
    s.isRunning = false → Pc.waiting ∉ s.workers := by
  induction hx with
  | nil => intro h; cases h
  | snoc hx hs ih =>
    refine step_awake ih (fun hr hd => ?_) hs
    have := (exec_ends hx).stop.1 hr
    rw [hd] at this
    cases this

/-- A worker that is not gone and does not wait can go on. -/
theorem work_some {s : State} (hf : s.freed = false) {j : Nat} {p : Pc} (hg : p ≠ .gone) (hw : p ≠ .waiting) :
    ∃ r, work s j p = .ok r := by
  cases p <;> simp [work, hf] at hg hw ⊢

theorem calm_done {h : History} {n : Nat} {s : State} (hx : Exec calmStep (State.init n) h s) (hst : Stopped h)
    (hno : ∀ e r, calmStep s e ≠ .ok r) : s.freed = true := by
  have c := exec_calm hx
  have hx' := exec_mono (fun _ _ _ => calm_ok) hx
  have i := exec_inv hx'
  have he := exec_ends hx'
  have hr := i.stops.2 hst
  have haw := exec_awake hx' hr
  cases hf : s.freed with
  | true => rfl
  | false =>
    exfalso
    have go : ∀ (j : Nat) (p : Pc), s.workers[j]? = some p → p ≠ .gone →
        (Pc.parting p = true ∨ (s.workers.any Pc.parting || parting s.destroyer) = false) → False := by
      intro j p hp hg hq
      have hwt : p ≠ .waiting := by
        rintro rfl
        exact haw (List.mem_of_getElem? hp)
      obtain ⟨r, hwk⟩ := work_some hf (j := j) hg hwt
      apply hno (.work j) r
      unfold calmStep
      rw [if_neg, if_neg]
      · simp only [step, hp, hwk]
      · simp
      · rcases hq with hq | hq
        · simp [ofParting, hp, hq]
        · rw [hq]; simp
    have hdes : parting s.destroyer = true → False := by
      intro hp
      have hgo : ∃ r, step s .goOn = .ok r := by
        cases hd : s.destroyer with
        | none => rw [hd] at hp; cases hp
        | some d =>
          cases d with
          | stopping f => rw [hd] at hp; cases hp
          | done => rw [hd] at hp; cases hp
          | stopped => simp [step, hd, hf]
          | leaving => simp [step, hd, hf]
          | destroying => simp [step, hd, hf]
      obtain ⟨r, hgo⟩ := hgo
      apply hno .goOn r
      unfold calmStep
      rw [if_neg, if_neg]
      · exact hgo
      · simp
      · simp [ofParting, hp]
    have hd0 : parting s.destroyer = false := by
      cases h : parting s.destroyer with
      | false => rfl
      | true => exact (hdes h).elim
    have hw0 : s.workers.any Pc.parting = false := by
      rw [List.any_eq_false]
      intro p hp hpp
      obtain ⟨j, hj⟩ := List.mem_iff_getElem?.1 hp
      refine go j p hj ?_ (.inl hpp)
      rintro rfl
      cases hpp
    have hgone : ∀ p ∈ s.workers, p = .gone := by
      intro p hp
      obtain ⟨j, hj⟩ := List.mem_iff_getElem?.1 hp
      refine Classical.byContradiction fun hg => go j p hj hg (.inr ?_)
      rw [hw0, hd0]
      rfl
    have hdone : s.destroyer = some .done := by
      have := he.stop.1 hr
      cases hd : s.destroyer with
      | none => rw [hd] at this; cases this
      | some d =>
        rw [hd] at this hd0
        cases d <;> first | rfl | (cases this; done) | (cases hd0; done)
    rw [(calm_freed c i.threads).2 ⟨hgone, hdone⟩] at hf
    cases hf

end Verif.Spec.ThreadPool
