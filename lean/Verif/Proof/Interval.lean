import Verif.Spec.Interval

/-!
# Lemmas about subscriptions with an interval
-/

namespace Verif.Interval

open Verif Verif.Spec.Interval

variable {i d : Nat}

theorem sent_snoc (h : History) (e : Op) (o : Out) :
    sent (h ++ [(e, o)]) = sent h ++
      (match o with | .interval => [Event.interval] | .complete => [Event.complete] | _ => []) := by
  unfold sent
  rw [List.filterMap_append]
  cases o <;> rfl

theorem sent_append (a b : History) : sent (a ++ b) = sent a ++ sent b := List.filterMap_append

theorem reads_snoc (h : History) (e : Op) (o : Out) :
    reads (h ++ [(e, o)]) = reads h +
      (match e with | .timeout true => 1 | .signal true => 1 | _ => 0) := by
  unfold reads
  rw [List.countP_append]
  cases e with
  | timeout r => cases r <;> simp
  | signal r => cases r <;> simp
  | _ => simp

theorem tdiv_nat (hi : 0 < i) : durationCount i d = .ok ((d / i : Nat) : Int) := by
  unfold durationCount
  rw [if_neg (by omega), if_neg (by omega), Int.ofNat_tdiv]

/-- The publishing thread has stopped for good, or is about to. -/
def Closing (p : Pub) : Prop := p = .wantRecords ∨ p = .wantSubs ∨ p = .removing ∨ p = .ended

/-- What was sent so far, and where the publishing thread is. -/
def Inv (i d : Nat) (h : History) (s : State) : Prop :=
  (sent h = List.replicate s.count .interval ∧ reads h = s.count ∧ (d ≠ 0 → s.count ≤ d / i) ∧
    (s.pub = .top ∨ s.pub = .asleep ∨ (s.pub = .ended ∧ s.running = false))) ∨
  (d ≠ 0 ∧ reads h = d / i + 1 ∧ sent h = List.replicate (d / i) .interval ++ [.complete] ∧ Closing s.pub)

theorem inv_of_quiet {h : History} {s s' : State} {e : Op} {o : Out} (hi : Inv i d h s)
    (hs : sent (h ++ [(e, o)]) = sent h) (hr : reads (h ++ [(e, o)]) = reads h) (hc : s'.count = s.count)
    (hn : s'.running = s.running ∨ s'.running = false)
    (hp : s'.pub = s.pub ∨ (s.pub = .top ∧ (s'.pub = .asleep ∨ (s'.pub = .ended ∧ s'.running = false))) ∨ (s.pub = .asleep ∧ s'.pub = .top) ∨
      (s.pub ≠ .top ∧ s.pub ≠ .asleep ∧ s.pub ≠ .ended ∧ Closing s'.pub)) :
    Inv i d (h ++ [(e, o)]) s' := by
  unfold Inv Closing at *
  rw [hs, hr, hc]
  grind

theorem publish_inv (hi0 : 0 < i) {h : History} {s s' : State} {r : Bool} {o : Out} {e : Op} (hi : Inv i d h s)
    (he : e = .timeout r ∨ e = .signal r) (hp : s.pub = .asleep)
    (hs : publish i d s r = .ok (s', o)) : Inv i d (h ++ [(e, o)]) s' := by
  unfold publish at hs
  have hA : sent h = List.replicate s.count .interval ∧ reads h = s.count ∧ (d ≠ 0 → s.count ≤ d / i) := by
    unfold Inv Closing at hi
    grind
  cases hf : s.freed with
  | true => rw [hf] at hs; cases hs
  | false =>
  rw [hf] at hs
  cases r with
  | false =>
    cases hs
    exact inv_of_quiet hi (by rw [sent_snoc]; simp) (by rw [reads_snoc]; rcases he with rfl | rfl <;> rfl) rfl
      (Or.inl rfl) (by grind)
  | true =>
  have hr : reads (h ++ [(e, o)]) = s.count + 1 := by
    rw [reads_snoc, hA.2.1]; rcases he with rfl | rfl <;> rfl
  simp only [Bool.false_eq_true, if_false, Bool.not_true] at hs
  by_cases hd : (d : Int) = 0
  · rw [if_pos hd] at hs
    simp only [Res.ok.injEq, Prod.mk.injEq] at hs
    obtain ⟨rfl, rfl⟩ := hs
    refine Or.inl ⟨?_, by rw [hr], fun h => absurd hd (by omega), Or.inl rfl⟩
    rw [sent_snoc, hA.1, List.replicate_succ']
  · rw [if_neg hd, tdiv_nat hi0] at hs
    simp only [Res.ok_bind] at hs
    have hd' : d ≠ 0 := by omega
    split at hs
    · rename_i hle
      simp only [Res.pure_eq, Res.ok.injEq, Prod.mk.injEq] at hs
      obtain ⟨rfl, rfl⟩ := hs
      have hc : s.count = d / i := by have := hA.2.2 hd'; omega
      refine Or.inr ⟨hd', by rw [hr, hc], ?_, Or.inl rfl⟩
      rw [sent_snoc, hA.1, hc]
    · rename_i hle
      simp only [Res.pure_eq, Res.ok.injEq, Prod.mk.injEq] at hs
      obtain ⟨rfl, rfl⟩ := hs
      refine Or.inl ⟨?_, by rw [hr], fun _ => ?_, Or.inl rfl⟩
      · rw [sent_snoc, hA.1, List.replicate_succ']
      · show s.count + 1 ≤ d / i
        omega

theorem step_inv (hi0 : 0 < i) {h : History} {s s' : State} {o : Out} {e : Op} (hi : Inv i d h s)
    (hs : step i d s e = .ok (s', o)) : Inv i d (h ++ [(e, o)]) s' := by
  cases e with
  | timeout r =>
    cases hp : s.pub <;> simp only [step, hp] at hs <;> try cases hs
    exact publish_inv hi0 hi (Or.inl rfl) hp hs
  | signal r =>
    cases hp : s.pub <;> simp only [step, hp] at hs <;> try cases hs
    split at hs
    · cases hs
    · exact publish_inv hi0 hi (Or.inr rfl) hp hs
  | publisher =>
    cases hp : s.pub <;> simp only [step, hp] at hs <;> try cases hs
    · unfold top at hs
      repeat' split at hs
      all_goals first | cases hs | skip
      · exact inv_of_quiet hi (by rw [sent_snoc]; simp) (by rw [reads_snoc]; rfl) rfl (by simp) (by grind)
      · exact inv_of_quiet hi (by rw [sent_snoc]; simp) (by rw [reads_snoc]; rfl) rfl (by simp) (by grind)
    all_goals
      repeat' split at hs
      all_goals first | cases hs | skip
      exact inv_of_quiet hi (by rw [sent_snoc]; simp) (by rw [reads_snoc]; rfl) rfl (by simp) (by unfold Closing; grind)
  | unsubscribe =>
    simp only [step] at hs
    repeat' split at hs
    all_goals first | cases hs | skip
    exact inv_of_quiet hi (by rw [sent_snoc]; simp) (by rw [reads_snoc]; rfl) rfl (by simp) (by grind)
  | other =>
    simp only [step] at hs
    repeat' split at hs
    all_goals first | cases hs | skip
    all_goals exact inv_of_quiet hi (by rw [sent_snoc]; simp) (by rw [reads_snoc]; rfl) rfl (by simp) (by grind)
  | close =>
    simp only [step] at hs
    repeat' split at hs
    all_goals first | cases hs | skip
    exact inv_of_quiet hi (by rw [sent_snoc]; simp) (by rw [reads_snoc]; rfl) rfl (by simp) (by grind)

theorem leads_inv (hi0 : 0 < i) {h : History} {s : State} (hx : Leads i d h s) : Inv i d h s := by
  unfold Leads at hx
  induction hx with
  | nil => exact Or.inl ⟨rfl, rfl, fun _ => Nat.zero_le _, Or.inl rfl⟩
  | snoc _ hs ih => exact step_inv hi0 ih hs

/-- When nobody is unsubscribing. -/
def Calm (s : State) : Prop :=
  s.running = true ∧ s.un = .away ∧ s.freed = false ∧ (s.pub ≠ .ended ∨ s.present = false) ∧
    (s.subs = none ∨ (s.subs = some .publisher ∧ s.pub = .removing)) ∧
    (s.records = none ∨ (s.records = some .publisher ∧ (s.pub = .wantSubs ∨ s.pub = .removing)))

theorem publish_calm {i d : Int} {s s' : State} {r : Bool} {o : Out} (hc : Calm s) (hp : s.pub = .asleep)
    (hs : publish i d s r = .ok (s', o)) : Calm s' := by
  unfold publish at hs
  repeat' split at hs
  · cases hs
  · cases hs; unfold Calm at *; grind
  · cases hs; unfold Calm at *; grind
  · obtain ⟨n, _, hs⟩ := res_bind_ok hs
    split at hs <;> cases hs <;> unfold Calm at * <;> grind

theorem step_calm {i d : Int} {s s' : State} {e : Op} {o : Out} (hc : Calm s) (he : e ≠ .unsubscribe ∧ e ≠ .close)
    (hs : step i d s e = .ok (s', o)) : Calm s' := by
  cases e with
  | timeout r =>
    cases hp : s.pub <;> simp only [step, hp] at hs <;> try cases hs
    exact publish_calm hc hp hs
  | signal r =>
    cases hp : s.pub <;> simp only [step, hp] at hs <;> try cases hs
    split at hs
    · cases hs
    · exact publish_calm hc hp hs
  | publisher =>
    cases hp : s.pub <;> simp only [step, hp] at hs <;> try cases hs
    · unfold top at hs
      repeat' split at hs
      all_goals first | cases hs | skip
      all_goals unfold Calm at *; grind
    all_goals
      repeat' split at hs
      all_goals first | cases hs | skip
      unfold Calm at *; grind
  | unsubscribe => exact absurd rfl he.1
  | other =>
    simp only [step, hc.2.1] at hs
    cases hs
  | close => exact absurd rfl he.2

theorem leads_calm {i d : Int} {h : History} {s : State} (hx : Leads i d h s) (hu : Undisturbed h) : Calm s := by
  unfold Leads at hx
  induction hx with
  | nil => unfold Calm State.init; simp
  | snoc _ hs ih =>
    exact step_calm (ih fun e he => hu e (List.mem_append_left _ he)) (hu _ (List.mem_append_right _ List.mem_cons_self)) hs

/-- Stopped, and nothing comes any more. -/
theorem ended_step {i d : Int} {s s' : State} {e : Op} {o : Out} (hp : s.pub = .ended)
    (hs : step i d s e = .ok (s', o)) : s'.pub = .ended ∧ o ≠ .interval ∧ o ≠ .complete := by
  cases e <;> simp only [step, hp] at hs <;> try cases hs
  all_goals
    repeat' split at hs
    all_goals first | cases hs | skip
    all_goals exact ⟨by first | rfl | exact hp, by simp, by simp⟩

theorem unsubscribed_ended {i d : Int} {h : History} {s : State} (hx : Leads i d h s) :
    (s.un = .wantRecords2 → s.pub = .ended) ∧ ((∃ e, (e, Out.unsubscribed) ∈ h) → s.pub = .ended) := by
  unfold Leads at hx
  induction hx with
  | nil => simp [State.init]
  | @snoc h s e o s' _ hs ih =>
    by_cases hp : s.pub = .ended
    · have := (ended_step hp hs).1
      exact ⟨fun _ => this, fun _ => this⟩
    · have hn : ¬ ∃ e, (e, Out.unsubscribed) ∈ h := fun hh => hp (ih.2 hh)
      have hw : s.un ≠ .wantRecords2 := fun hh => hp (ih.1 hh)
      have key : s'.un ≠ .wantRecords2 ∧ o ≠ .unsubscribed := by
        cases e with
        | timeout r =>
          simp only [step] at hs
          split at hs <;> try cases hs
          unfold publish at hs
          repeat' split at hs
          all_goals first | cases hs | skip
          · exact ⟨hw, by simp⟩
          · exact ⟨hw, by simp⟩
          · obtain ⟨n, _, hs⟩ := res_bind_ok hs
            split at hs <;> cases hs <;> exact ⟨hw, by simp⟩
        | signal r =>
          simp only [step] at hs
          split at hs <;> try cases hs
          unfold publish at hs
          repeat' split at hs
          all_goals first | cases hs | skip
          · exact ⟨hw, by simp⟩
          · exact ⟨hw, by simp⟩
          · obtain ⟨n, _, hs⟩ := res_bind_ok hs
            split at hs <;> cases hs <;> exact ⟨hw, by simp⟩
        | publisher =>
          simp only [step, top] at hs
          repeat' split at hs
          all_goals first | cases hs | skip
          all_goals exact ⟨hw, by simp⟩
        | unsubscribe =>
          simp only [step] at hs
          repeat' split at hs
          all_goals first | cases hs | skip
          exact ⟨by simp, by simp⟩
        | other =>
          simp only [step] at hs
          repeat' split at hs
          all_goals first | cases hs | skip
          all_goals first | (exact absurd ‹s.un = .wantRecords2› hw) | exact ⟨by simp, by simp⟩
        | close =>
          simp only [step] at hs
          repeat' split at hs
          all_goals first | cases hs | skip
          exact ⟨hw, by simp⟩
      refine ⟨fun hh => absurd hh key.1, ?_⟩
      rintro ⟨e', he'⟩
      rw [List.mem_append] at he'
      rcases he' with he' | he'
      · exact absurd ⟨e', he'⟩ hn
      · simp only [List.mem_singleton, Prod.mk.injEq] at he'
        exact absurd he'.2.symm key.2

theorem unsubscribed_quiet {i d : Int} {h : History} {s : State} (hx : Leads i d h s) :
    ∀ a e b, h = a ++ (e, Out.unsubscribed) :: b → sent b = [] := by
  unfold Leads at hx
  induction hx with
  | nil => intro a e b h; simp at h
  | @snoc h s e' o s' hx' hs ih =>
    intro a e b hab
    rcases List.eq_nil_or_concat b with rfl | ⟨b', x, rfl⟩
    · rfl
    · rw [List.concat_eq_append, ← List.cons_append, ← List.append_assoc] at hab
      have h1 := List.append_inj_left' hab rfl
      have h2 := List.append_inj_right' hab rfl
      subst h1
      cases h2
      have hp := (unsubscribed_ended hx').2 ⟨e, by simp⟩
      have := ended_step hp hs
      rw [List.concat_eq_append, sent_snoc, ih a e b' rfl]
      cases o <;> simp at this ⊢

/-- Appending steps. -/
theorem leads_run {i d : Int} {h : History} {s s' : State} {es : List Op} {os : List Out} (hx : Leads i d h s)
    (hr : run i d s es = .ok (s', os)) : Leads i d (h ++ es.zip os) s' :=
  (Exec.extend hx (run := run i d) (fun _ => rfl) (fun _ _ _ => rfl) es s' os hr).2

/-- The first step of the thread. -/
theorem start_step {i d : Int} (h1 : -2 ^ 31 ≤ i * 1000) (h2 : i * 1000 < 2 ^ 31) :
    step i d State.init .publisher = .ok (⟨true, 0, .asleep, .away, none, none, true, false⟩, .silent) := by
  show (if i * 1000 < -2 ^ 31 ∨ 2 ^ 31 ≤ i * 1000 then Res.ub else _) = _
  rw [if_neg (by omega)]
  rfl

theorem start_overflow {i d : Int} (h2 : 2 ^ 31 ≤ i * 1000) : step i d State.init .publisher = .ub := by
  show (if i * 1000 < -2 ^ 31 ∨ 2 ^ 31 ≤ i * 1000 then Res.ub else _) = _
  rw [if_pos (Or.inr h2)]

/-- A negative duration is over at once. -/
theorem publish_negative {d : Int} (hd : d < 0) (s : State) (hf : s.freed = false) (hp : s.pub = .asleep) :
    step 1 d s (.timeout true) = .ok ({ s with pub := .wantRecords }, .complete) := by
  have c1 : ¬ (d = 0) := by omega
  have c2 : ¬ (d = -2 ^ 31 ∧ (1 : Int) = -1) := by omega
  have c3 : d ≤ (s.count : Int) := by omega
  simp only [step, hp]
  unfold publish durationCount
  rw [hf, if_neg (by decide), if_neg (by decide), if_neg c1, if_neg (by decide), if_neg c2, Int.tdiv_one]
  simp only [Res.ok_bind]
  rw [if_pos c3]
  rfl

theorem int32_small {n : Nat} (h : n < 2 ^ 31) : int32 n = n := by
  unfold int32
  rw [BitVec.toInt_eq_toNat_cond, BitVec.toNat_ofNat]
  omega

theorem int32_large {n : Nat} (h31 : 2 ^ 31 ≤ n) (h32 : n < 2 ^ 32) : int32 n < 0 := by
  unfold int32
  rw [BitVec.toInt_eq_toNat_cond, BitVec.toNat_ofNat]
  omega

theorem undisturbed_of {es : List Op} {os : List Out} (h : ∀ e ∈ es, e ≠ .unsubscribe ∧ e ≠ .close) :
    Undisturbed (es.zip os) := by
  intro e he
  have := List.of_mem_zip (a := e.1) (b := e.2) he
  exact h _ this.1

/-- Undisturbed and not over: one more interval, one more event. -/
theorem next_event (hi : 0 < i) (hlt : i * 1000 < 2 ^ 31) {h : History} {s : State} (hx : Leads i d h s)
    (hu : Undisturbed h) (hn : d ≠ 0 → reads h ≤ d / i) :
    ∃ h' s', Leads i d (h ++ h') s' ∧ Undisturbed h' ∧ timeouts h' = 1 ∧ reads h' = 1 ∧
      sent h' = [if d ≠ 0 ∧ d / i ≤ s.count then .complete else .interval] := by
  obtain ⟨c1, c2, c3, c4, c5, c6⟩ := leads_calm hx hu
  have hp : s.pub = .top ∨ s.pub = .asleep := by
    rcases leads_inv hi hx with ⟨_, _, _, h | h | h⟩ | ⟨h, h', _⟩
    · exact Or.inl h
    · exact Or.inr h
    · rw [c1] at h; cases h.2
    · have := hn h; omega
  have key : ∀ s1 : State, s1.freed = false → s1.count = s.count → ∃ s2,
      publish i d s1 true = .ok (s2, if d ≠ 0 ∧ d / i ≤ s.count then .complete else .interval) := by
    intro s1 h1 h2
    unfold publish
    rw [h1, h2, tdiv_nat hi]
    by_cases hd : d = 0
    · subst hd; exact ⟨_, rfl⟩
    · simp only [Bool.false_eq_true, if_false, Bool.not_true, Res.ok_bind]
      rw [if_neg (by omega)]
      by_cases hc : d / i ≤ s.count
      · rw [if_pos (by omega), if_pos ⟨hd, hc⟩]; exact ⟨_, rfl⟩
      · rw [if_neg (by omega), if_neg (by omega)]; exact ⟨_, rfl⟩
  have fin : ∀ h' s', Leads i d (h ++ h') s' → h' = ([.publisher, .timeout true] : List Op).zip
        [.silent, if d ≠ 0 ∧ d / i ≤ s.count then .complete else .interval] ∨
        h' = ([.timeout true] : List Op).zip [if d ≠ 0 ∧ d / i ≤ s.count then Out.complete else .interval] →
      ∃ h' s', Leads i d (h ++ h') s' ∧ Undisturbed h' ∧ timeouts h' = 1 ∧ reads h' = 1 ∧
        sent h' = [if d ≠ 0 ∧ d / i ≤ s.count then .complete else .interval] := by
    intro h' s' hx' he
    refine ⟨h', s', hx', ?_, ?_, ?_, ?_⟩
    · rcases he with rfl | rfl <;> exact undisturbed_of (by simp)
    · rcases he with rfl | rfl <;> rfl
    · rcases he with rfl | rfl <;> rfl
    · rcases he with rfl | rfl <;> split <;> rfl
  rcases hp with hp | hp
  · obtain ⟨s2, h2⟩ := key { s with pub := .asleep } c3 rfl
    refine fin _ s2 (leads_run hx (es := [.publisher, .timeout true]) ?_) (Or.inl rfl)
    simp only [run, step, hp, top, c1, c3]
    rw [if_neg (by simp), if_neg (by simp), if_neg (by omega)]
    rw [c1, c3] at h2
    simp only [Res.ok_bind, h2, Res.pure_eq]
  · obtain ⟨s2, h2⟩ := key s c3 rfl
    refine fin _ s2 (leads_run hx (es := [.timeout true]) ?_) (Or.inr rfl)
    simp only [run, step, hp, h2, Res.ok_bind, Res.pure_eq]

theorem reads_append (a b : History) : reads (a ++ b) = reads a + reads b := List.countP_append
theorem timeouts_append (a b : History) : timeouts (a ++ b) = timeouts a + timeouts b := List.countP_append

theorem undisturbed_append {a b : History} (ha : Undisturbed a) (hb : Undisturbed b) : Undisturbed (a ++ b) := by
  intro e he
  rcases List.mem_append.mp he with he | he
  · exact ha e he
  · exact hb e he

/-- After the notice, the thread gets both mutexes and removes the subscription. -/
theorem closes {h : History} {s : State} (hx : Leads i d h s)
    (hu : Undisturbed h) (hc : Closing s.pub) :
    ∃ h' s', Leads i d (h ++ h') s' ∧ Undisturbed h' ∧ timeouts h' = 0 ∧
      s'.present = false ∧ s'.pub = .ended ∧ s'.running = true := by
  obtain ⟨c1, c2, c3, c4, c5, c6⟩ := leads_calm hx hu
  rcases hc with hp | hp | hp | hp
  · have e5 : s.subs = none := by grind
    have e6 : s.records = none := by grind
    refine ⟨_, { s with pub := .ended, subs := none, records := none, present := false },
      leads_run hx (es := [.publisher, .publisher, .publisher]) (os := [.silent, .silent, .silent]) ?_,
      undisturbed_of (by simp), rfl, rfl, rfl, c1⟩
    simp [run, step, hp, c3, e5, e6]
  · have e5 : s.subs = none := by grind
    refine ⟨_, { s with pub := .ended, subs := none, records := none, present := false },
      leads_run hx (es := [.publisher, .publisher]) (os := [.silent, .silent]) ?_,
      undisturbed_of (by simp), rfl, rfl, rfl, c1⟩
    simp [run, step, hp, c3, e5]
  · refine ⟨_, { s with pub := .ended, subs := none, records := none, present := false },
      leads_run hx (es := [.publisher]) (os := [.silent]) ?_,
      undisturbed_of (by simp), rfl, rfl, rfl, c1⟩
    simp [run, step, hp, c3]
  · refine ⟨[], s, by simpa using hx, by simp [Undisturbed], rfl, ?_, hp, c1⟩
    rcases c4 with h | h
    · exact absurd hp h
    · exact h

theorem completes (hi : 0 < i) (hlt : i * 1000 < 2 ^ 31) (hd : d ≠ 0) {h : History} {s : State} (hx : Leads i d h s)
    (hu : Undisturbed h) :
    ∃ h' s', Leads i d (h ++ h') s' ∧ Undisturbed h' ∧ timeouts h' = d / i + 1 - reads h ∧
      s'.present = false ∧ s'.pub = .ended ∧ s'.running = true := by
  generalize hk : d / i + 1 - reads h = k
  induction k generalizing h s with
  | zero =>
    have hc : Closing s.pub := by
      rcases leads_inv hi hx with ⟨_, h2, h3, _⟩ | ⟨_, _, _, h⟩
      · have := h3 hd; omega
      · exact h
    exact closes hx hu hc
  | succ k ih =>
    obtain ⟨h1, s1, hx1, hu1, ht1, hr1, _⟩ := next_event hi hlt hx hu (fun _ => by omega)
    obtain ⟨h2, s2, hx2, hu2, ht2, r⟩ := ih hx1 (undisturbed_append hu hu1) (by rw [reads_append]; omega)
    exact ⟨h1 ++ h2, s2, by rw [← List.append_assoc]; exact hx2, undisturbed_append hu1 hu2,
      by rw [timeouts_append]; omega, r⟩

end Verif.Interval
