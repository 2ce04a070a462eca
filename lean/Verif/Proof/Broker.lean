import Verif.Spec.Broker
import Verif.Proof.Exec

/-!
# Proofs about opening and closing the connection
-/

namespace Verif.Proof.Broker

open Verif Verif.Broker Verif.Spec.Broker

theorem sheet_snoc (h : List (Event × Out)) (x) : sheet (h ++ [x]) = note (sheet h) x := by simp [sheet]

/-- What the variables are in an orderly process. -/
inductive Rel : Sheet → State → Prop where
  | idle : Rel ⟨none, none⟩ ⟨true, .free, false, .absent, [], []⟩
  | raw : Rel ⟨none, none⟩ ⟨false, .dead, false, .absent, [], []⟩
  | opening (t) : Rel ⟨some (.open t), none⟩ ⟨true, .free, false, .absent, [(t, false)], []⟩
  | first (t) : Rel ⟨some (.open t), none⟩ ⟨false, .dead, false, .absent, [(t, true)], []⟩
  | up (n) : Rel ⟨none, some n⟩ ⟨true, .free, true, .live n, [], []⟩
  | again (n t) : Rel ⟨some (.open t), some n⟩ ⟨true, .free, true, .live n, [(t, false)], []⟩
  | closing (n t) : Rel ⟨some (.close t), some n⟩ ⟨true, .free, true, .absent, [], [t]⟩

theorem rel_step {k : Sheet} {s : State} (hr : Rel k s) {e : Event} (ha : Allowed k e) :
    ∃ s', step s e = .ok (s', answer k e) ∧ Rel (note k (e, answer k e)) s' := by
  cases hr <;> cases e <;> simp only [Allowed, reduceCtorEq, Option.isSome, and_false, false_and,
    Option.some.injEq, Event.open.injEq, Event.close.injEq, Bool.false_eq_true] at ha
  all_goals first
    | (subst ha)
    | skip
  case up.close n t =>
    by_cases h : 1 < n
    · refine ⟨⟨true, .free, true, .live n, [], []⟩, ?_, ?_⟩
      · simp [step, State.locked, State.lock, State.leave, h, State.unlock, answer]
      · simp only [answer, Option.getD_some, h, if_true, note]; exact .up n
    · refine ⟨⟨true, .free, true, .absent, [], [t]⟩, ?_, ?_⟩
      · simp [step, State.locked, State.lock, State.leave, h, State.unlock, State.cleanUp, answer]
      · simp only [answer, Option.getD_some, h, if_false, note]; exact .closing n t
  case idle.open t => exact ⟨_, rfl, .opening t⟩
  case raw.open t => exact ⟨_, rfl, .first t⟩
  case up.open n t => exact ⟨_, rfl, .again n t⟩
  case opening.opened t r =>
    cases r
    · exact ⟨⟨true, .free, false, .absent, [], []⟩, by
        simp [step, State.finishOpen, State.afterLock, State.prepare, State.lock, State.connect, State.cleanUp, State.setUp,
          State.unlock, answer], .idle⟩
    · exact ⟨⟨true, .free, true, .live 0, [], []⟩, by
        simp [step, State.finishOpen, State.afterLock, State.prepare, State.lock, State.connect, State.setUp,
          State.unlock, answer], .up 0⟩
  case first.opened t r =>
    cases r
    · exact ⟨⟨true, .free, false, .absent, [], []⟩, by
        simp [step, State.finishOpen, State.afterLock, State.prepare, State.lock, State.connect, State.cleanUp, State.setUp,
          State.unlock, answer], .idle⟩
    · exact ⟨⟨true, .free, true, .live 0, [], []⟩, by
        simp [step, State.finishOpen, State.afterLock, State.prepare, State.lock, State.connect, State.setUp,
          State.unlock, answer], .up 0⟩
  case again.opened n t r =>
    exact ⟨⟨true, .free, true, .live n, [], []⟩, by
        simp [step, State.finishOpen, State.afterLock, State.prepare, State.lock, State.connect,
          State.unlock, answer], .up n⟩
  case closing.closed n t =>
    exact ⟨⟨false, .dead, false, .absent, [], []⟩, by
        simp [step, State.finishClose, State.unlock, answer], .raw⟩
  case up.register n t =>
    exact ⟨⟨true, .free, true, .live (n + 1), [], []⟩, by
        simp [step, State.locked, State.lock, State.change, State.unlock, answer], .up _⟩
  case up.unregister n t =>
    exact ⟨⟨true, .free, true, .live (n - 1), [], []⟩, by
        simp [step, State.locked, State.lock, State.change, State.unlock, answer], .up _⟩
  case up.look n t =>
    exact ⟨⟨true, .free, true, .live n, [], []⟩, by
        simp [step, State.locked, State.lock, State.change, State.unlock, answer], .up _⟩
  case idle.register t => exact ⟨_, rfl, .idle⟩
  case raw.register t => exact ⟨_, rfl, .raw⟩
  case idle.unregister t => exact ⟨_, rfl, .idle⟩
  case raw.unregister t => exact ⟨_, rfl, .raw⟩

theorem orderly_prefix {h : List (Event × Out)} {x : Event × Out} (hc : Orderly (h ++ [x])) :
    Orderly h ∧ Allowed (sheet h) x.1 :=
  ⟨(fun a y b e => hc a y (b ++ [x]) (by simp [e])), hc h x [] rfl⟩

theorem rel_exec {h : List (Event × Out)} {s : State} (hx : Exec step init h s) (hc : Orderly h) : Rel (sheet h) s := by
  induction hx with
  | nil => exact .raw
  | @snoc h s e o s' hx hs ih =>
    obtain ⟨h1, h2⟩ := orderly_prefix hc
    obtain ⟨s1, hs1, hr⟩ := rel_step (ih h1) h2
    rw [hs] at hs1
    injection hs1 with hs1
    injection hs1 with e1 e2
    rw [sheet_snoc, e1, e2]
    exact hr

/-- What holds in every process. -/
structure Any (s : State) (h : List (Event × Out)) : Prop where
  one : h.countP (fun x => x.2 = .connected) = h.countP (fun x => x.2 = .destroyed) + if s.conn then 1 else 0
  closing : s.closing = [] ∨ ∃ t, s.closing = [t] ∧ s.conn = true ∧ s.lists = .absent
  owner : ∀ t, s.mutex = .held t → (Event.close t, Out.invalidState) ∈ h

theorem unlock_ok {s s' : State} {t : Nat} (h : s.unlock t = .ok s') :
    s' = { s with mutex := s'.mutex } ∧ (∀ u, s'.mutex = .held u → s.mutex = .held u ∧ u ≠ t) ∧ s.mutex ≠ .dead := by
  unfold State.unlock at h
  cases hm : s.mutex with
  | dead => rw [hm] at h; cases h
  | free => rw [hm] at h; cases h; exact ⟨rfl, (fun u hu => by rw [hm] at hu; cases hu), by simp⟩
  | held v =>
    rw [hm] at h
    dsimp only at h
    by_cases e : v = t
    · rw [if_pos e] at h; cases h; exact ⟨rfl, (fun u hu => by cases hu), by simp⟩
    · rw [if_neg e] at h; cases h
      exact ⟨rfl, (fun u hu => by rw [hm] at hu; cases hu; exact ⟨rfl, e⟩), by simp⟩

theorem lock_ok {s : State} {t : Nat} {r : Option State} (h : s.lock t = .ok r) :
    (r = none ∧ ∃ u, s.mutex = .held u ∧ u ≠ t) ∨ r = some { s with mutex := .held t } := by
  unfold State.lock at h
  cases hm : s.mutex with
  | dead => rw [hm] at h; cases h
  | free => rw [hm] at h; cases h; exact .inr rfl
  | held v =>
    rw [hm] at h
    dsimp only at h
    by_cases e : v = t
    · rw [if_pos e] at h; cases h; subst e; right; rw [← hm]
    · rw [if_neg e] at h; cases h; exact .inl ⟨rfl, v, rfl, e⟩

theorem unlock_own {s s' : State} {t : Nat} (h : ({ s with mutex := .held t } : State).unlock t = .ok s') :
    s' = { s with mutex := .free } := by
  simp only [State.unlock, if_true] at h
  cases h
  rfl

/-- The kinds of steps, with what they change. -/
inductive Kind (s : State) : Event → Out → State → Prop where
  | «open» (t) : Kind s (.open t) .pending { s with opening := s.opening ++ [(t, !s.ready)] }
  | wait (t r b m op) : (∀ u, m = .held u → s.mutex = .held u) → (∃ u, s.mutex = .held u ∧ u ≠ t) →
      Kind s (.opened t r) .blocked { s with mutex := m, ready := b, opening := op }
  | shared (t r b op) : s.conn = true →
      Kind s (.opened t r) .shared { s with mutex := .free, ready := b, opening := op }
  | connected (t b op) : s.conn = false →
      Kind s (.opened t true) .connected
        { s with mutex := .free, ready := b, opening := op, conn := true, lists := .live 0 }
  | failed (t b op) : s.conn = false →
      Kind s (.opened t false) .general { s with mutex := .free, ready := b, opening := op, lists := .absent }
  | stay (e o) : (o = .success ∨ o = .invalidState ∨ o = .general) → (e = .register e.thread ∨ e = .unregister e.thread) →
      Kind s e o s
  | blocked (e) : (∃ u, s.mutex = .held u ∧ u ≠ e.thread) → Kind s e .blocked s
  | change (e n m) : s.lists = .live n → Kind s e .success { s with mutex := .free, lists := .live m }
  | refused (t) : s.conn = false → Kind s (.close t) .invalidState { s with mutex := .held t }
  | leave (t n) : s.conn = true → s.lists = .live n → n ≤ 1 →
      Kind s (.close t) .pending { s with mutex := .free, lists := .absent, closing := s.closing ++ [t] }
  | closed (t) : t ∈ s.closing →
      Kind s (.closed t) .destroyed
        { s with mutex := .dead, ready := false, conn := false, closing := s.closing.filter (· != t) }

theorem change_ok {s s' : State} {t : Nat} {f : Nat → Nat} {o : Out} {e : Event}
    (h : ({ s with mutex := .held t } : State).change t f = .ok (s', o)) : Kind s e o s' := by
  unfold State.change at h
  dsimp only at h
  cases hl : s.lists with
  | absent => rw [hl] at h; cases h
  | live n =>
    rw [hl] at h
    obtain ⟨s1, h1, h⟩ := res_bind_ok h
    cases h
    have := unlock_own (s := { s with lists := .live (f n) }) h1
    rw [this]
    exact .change e n (f n) hl

theorem locked_ok {s s' : State} {t : Nat} {g : State → Res (State × Out)} {o : Out}
    (h : s.locked t g = .ok (s', o)) :
    ((∃ u, s.mutex = .held u ∧ u ≠ t) ∧ s' = s ∧ o = .blocked) ∨ g { s with mutex := .held t } = .ok (s', o) := by
  unfold State.locked at h
  obtain ⟨r, h1, h⟩ := res_bind_ok h
  rcases lock_ok h1 with ⟨rfl, hu⟩ | rfl
  · cases h; exact .inl ⟨hu, rfl, rfl⟩
  · exact .inr h

theorem prepare_ok {s s' : State} {b : Bool} (h : s.prepare b = .ok s') :
    ∃ r m, s' = { s with ready := r, mutex := m } ∧ (∀ u, m = .held u → s.mutex = .held u) := by
  unfold State.prepare at h
  cases b with
  | false => cases h; exact ⟨s.ready, s.mutex, rfl, fun _ h => h⟩
  | true =>
    simp only [if_true] at h
    split at h
    · cases h; exact ⟨true, .free, rfl, (fun u h => by cases h)⟩
    · cases h

theorem kind_of_step {s s' : State} {e : Event} {o : Out} (h : step s e = .ok (s', o)) : Kind s e o s' := by
  cases e with
  | «open» t =>
    simp only [step] at h
    split at h
    · cases h
    · cases h; exact .open t
  | opened t r =>
    simp only [step] at h
    cases hf : s.opening.find? (fun x => x.1 == t) with
    | none => rw [hf] at h; cases h
    | some x =>
      rw [hf] at h
      dsimp only at h
      unfold State.finishOpen at h
      obtain ⟨s1, h1, h⟩ := res_bind_ok h
      obtain ⟨b, m, rfl, hm⟩ := prepare_ok h1
      obtain ⟨q, h2, h⟩ := res_bind_ok h
      rcases lock_ok h2 with ⟨rfl, u, hu, hne⟩ | rfl
      · cases h
        exact .wait t r b m _ hm ⟨u, hm u hu, hne⟩
      · unfold State.afterLock State.connect at h
        dsimp only at h
        split at h
        · rename_i hc
          obtain ⟨s2, h3, h⟩ := res_bind_ok h
          cases h
          rw [unlock_own (s := { s with ready := b, mutex := m, opening := s.opening.filter (fun x => x.1 != t) }) h3]
          exact .shared t r b _ hc
        · rename_i hc
          have hc : s.conn = false := by simpa using hc
          split at h
          · rename_i hr
            rw [hr]
            obtain ⟨s2, h3, h⟩ := res_bind_ok h
            cases h
            rw [unlock_own (s := { s with ready := b, mutex := m, opening := s.opening.filter (fun x => x.1 != t), lists := .live 0, conn := true }) h3]
            exact .connected t b _ hc
          · rename_i hr
            have hr : r = false := by simpa using hr
            rw [hr]
            obtain ⟨s2, h3, h⟩ := res_bind_ok h
            obtain ⟨s3, h4, h⟩ := res_bind_ok h
            cases h
            have := unlock_own (s := { s with ready := b, mutex := m, opening := s.opening.filter (fun x => x.1 != t), lists := .absent }) h3
            subst this
            cases h4
            exact .failed t b _ hc
  | close t =>
    rcases locked_ok h with ⟨hu, rfl, rfl⟩ | h
    · exact .blocked _ hu
    · unfold State.leave at h
      dsimp only at h
      split at h
      · rename_i hc
        split at h
        · cases h
        · rename_i n hl
          split at h
          · obtain ⟨s2, h3, h⟩ := res_bind_ok h
            cases h
            rw [unlock_own h3]
            have : ({ s with mutex := .free } : State) = { s with mutex := .free, lists := .live n } := by rw [← hl]
            rw [this]
            exact .change _ n n hl
          · rename_i hn
            obtain ⟨s2, h3, h⟩ := res_bind_ok h
            cases h
            simp only [State.cleanUp, hl] at h3
            rw [unlock_own (s := { s with lists := .absent }) h3]
            exact .leave t n hc hl (by omega)
      · rename_i hc
        cases h
        exact .refused t (by simpa using hc)
  | closed t =>
    simp only [step] at h
    split at h
    · rename_i hc
      unfold State.finishClose at h
      obtain ⟨s1, h1, h⟩ := res_bind_ok h
      obtain ⟨he, _, _⟩ := unlock_ok h1
      split at h
      · rename_i hfr
        rw [hfr] at he
        subst he
        cases h
        exact .closed t (by simpa using hc)
      · cases h
    · cases h
  | register t =>
    simp only [step] at h
    split at h
    · rcases locked_ok h with ⟨hu, rfl, rfl⟩ | h
      · exact .blocked _ hu
      · exact change_ok h
    · cases h; exact .stay _ _ (.inr (.inl rfl)) (.inl rfl)
  | unregister t =>
    simp only [step] at h
    split at h
    · rcases locked_ok h with ⟨hu, rfl, rfl⟩ | h
      · exact .blocked _ hu
      · exact change_ok h
    · cases h; exact .stay _ _ (.inr (.inr rfl)) (.inr rfl)
  | look t =>
    rcases locked_ok h with ⟨hu, rfl, rfl⟩ | h
    · exact .blocked _ hu
    · exact change_ok h

theorem any_step {s s' : State} {e : Event} {o : Out} {h : List (Event × Out)} (ha : Any s h)
    (hs : step s e = .ok (s', o)) : Any s' (h ++ [(e, o)]) := by
  have hone := ha.one
  have keep : ∀ {m : Mutex}, (∀ u, m = .held u → s.mutex = .held u) → ∀ t, m = .held t →
      (Event.close t, Out.invalidState) ∈ h ++ [(e, o)] :=
    fun hm t ht => List.mem_append_left _ (ha.owner t (hm t ht))
  have nil : ∀ {n}, s.lists = .live n → s.closing = [] := by
    intro n hl
    rcases ha.closing with h | ⟨_, _, _, h⟩
    · exact h
    · rw [h] at hl; cases hl
  have noc : s.conn = false → s.closing = [] := by
    intro hc
    rcases ha.closing with h | ⟨_, _, h, _⟩
    · exact h
    · rw [h] at hc; cases hc
  cases kind_of_step hs with
  | «open» t => exact ⟨by simpa [List.countP_cons] using hone, ha.closing, keep fun _ h => h⟩
  | wait t r b m op hm => exact ⟨by simpa [List.countP_cons] using hone, ha.closing, keep hm⟩
  | shared t r b op hc => exact ⟨by simpa [List.countP_cons] using hone, ha.closing, keep (by simp)⟩
  | connected t b op hc =>
    refine ⟨?_, .inl (noc hc), keep (by simp)⟩
    simp only [List.countP_append, List.countP_cons, List.countP_nil]
    simp [hone, hc]
  | failed t b op hc =>
    exact ⟨by simpa [List.countP_cons] using hone, .inl (noc hc), keep (by simp)⟩
  | stay _ _ ho =>
    refine ⟨?_, ha.closing, keep fun _ h => h⟩
    rcases ho with rfl | rfl | rfl <;> simpa [List.countP_cons] using hone
  | blocked => exact ⟨by simpa [List.countP_cons] using hone, ha.closing, keep fun _ h => h⟩
  | change _ n m hl => exact ⟨by simpa [List.countP_cons] using hone, .inl (nil hl), keep (by simp)⟩
  | refused t hc =>
    refine ⟨by simpa [List.countP_cons] using hone, ha.closing, ?_⟩
    intro u hu
    cases hu
    simp
  | leave t n hc hl hn =>
    refine ⟨by simpa [List.countP_cons] using hone, .inr ⟨t, ?_, hc, rfl⟩, keep (by simp)⟩
    simp [nil hl]
  | closed t ht =>
    have hcl : s.closing = [t] ∧ s.conn = true := by
      rcases ha.closing with h | ⟨u, h, hc, _⟩
      · rw [h] at ht; simp at ht
      · rw [h] at ht; simp at ht; subst ht; exact ⟨h, hc⟩
    refine ⟨?_, .inl (by simp [hcl.1]), keep (by simp)⟩
    simp only [List.countP_append, List.countP_cons, List.countP_nil]
    simp [hone, hcl.2]

theorem any_exec {h : List (Event × Out)} {s : State} (hx : Exec step init h s) : Any s h := by
  induction hx with
  | nil => exact ⟨rfl, .inl rfl, (fun t h => by cases h)⟩
  | snoc _ hs ih => exact any_step ih hs

/-- The mutex is locked by thread 0, there is no connection, and nobody is about to make the mutex anew. -/
def Stuck (s : State) : Prop :=
  s.ready = true ∧ s.mutex = .held 0 ∧ s.conn = false ∧ s.closing = [] ∧ ∀ x ∈ s.opening, x.2 = false

theorem stuck_step {s : State} (hk : Stuck s) {e : Event} (he : e.thread ≠ 0) :
    step s e = .fail ∨ ∃ s' o, step s e = .ok (s', o) ∧ Stuck s' ∧
      o ∈ [Out.pending, .blocked, .invalidState, .general] := by
  obtain ⟨h1, h2, h3, h4, h5⟩ := hk
  have hl : ∀ t, t ≠ 0 → s.lock t = .ok none := by
    intro t ht
    simp [State.lock, h2, Ne.symm ht]
  cases e with
  | «open» t =>
    simp only [step]
    split
    · exact .inl rfl
    · refine .inr ⟨_, _, rfl, ⟨h1, h2, h3, h4, ?_⟩, by simp⟩
      intro x hx
      rcases List.mem_append.mp hx with hx | hx
      · exact h5 x hx
      · simp at hx; simp [hx, h1]
  | opened t r =>
    simp only [step]
    cases hf : s.opening.find? (fun x => x.1 == t) with
    | none => exact .inl rfl
    | some x =>
      have hx := h5 x (List.mem_of_find?_eq_some hf)
      refine .inr ⟨{ s with opening := s.opening.filter (fun x => x.1 != t) ++ [(t, false)] }, .blocked, ?_,
        ⟨h1, h2, h3, h4, ?_⟩, by simp⟩
      · simp [State.finishOpen, State.afterLock, hx, State.prepare, hl t he]
      · intro y hy
        rcases List.mem_append.mp hy with hy | hy
        · exact h5 y (List.mem_filter.mp hy).1
        · simp at hy; simp [hy]
  | close t =>
    exact .inr ⟨s, .blocked, by simp [step, State.locked, hl t he], ⟨h1, h2, h3, h4, h5⟩, by simp⟩
  | closed t => left; simp [step, h4]
  | register t => exact .inr ⟨s, .invalidState, by simp [step, h3], ⟨h1, h2, h3, h4, h5⟩, by simp⟩
  | unregister t => exact .inr ⟨s, .general, by simp [step, h3], ⟨h1, h2, h3, h4, h5⟩, by simp⟩
  | look t =>
    exact .inr ⟨s, .blocked, by simp [step, State.locked, hl t he], ⟨h1, h2, h3, h4, h5⟩, by simp⟩

theorem stuck_run {es : List Event} : ∀ {s : State}, Stuck s → (∀ e ∈ es, e.thread ≠ 0) → run s es ≠ .ub ∧
    ∀ s' os, run s es = .ok (s', os) → ∀ o ∈ os, o ∈ [Out.pending, .blocked, .invalidState, .general] := by
  induction es with
  | nil =>
    intro s _ _
    refine ⟨by simp [run], ?_⟩
    intro s' os h
    cases h
    simp
  | cons e es ih =>
    intro s hk he
    simp only [run]
    rcases stuck_step hk (he e (by simp)) with h | ⟨s1, o, h, hk1, ho⟩
    · rw [h]; simp
    · rw [h, Res.ok_bind]
      have := ih hk1 (fun e' h' => he e' (List.mem_cons_of_mem _ h'))
      cases hr : run s1 es with
      | fail => simp
      | ub => exact absurd hr this.1
      | ok x =>
        obtain ⟨s2, os⟩ := x
        refine ⟨by simp, ?_⟩
        intro s' os' h'
        cases h'
        intro o' ho'
        rcases List.mem_cons.mp ho' with rfl | ho'
        · exact ho
        · exact this.2 _ _ hr o' ho'

end Verif.Proof.Broker
