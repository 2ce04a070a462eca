import Verif.Spec.Locks

/-!
# Locks: an order that the functions keep, and what follows from it
-/

namespace Verif.Proof.Locks

open Verif Verif.Locks Verif.Spec.Locks

/-! ## The order -/

/-- In this order mutexes are locked. -/
def lvl (w : Mode) : Mutex → Nat
  | .handles => 10
  | .events _ => 20
  | .changes => 30
  | .record _ => 35
  | .element _ => 40
  | .tree => 50
  | .intervals => match w with | .changing => 55 | .subscribing => 28
  | .subs _ => match w with | .changing => 60 | .subscribing => 26
  | .retries => 70
  | .listeners => 80
  | .directServer => 90
  | .directClient => 90
  | .core => 95
  | .connection => 100

/-- What is locked at a place is above this. -/
def base (w : Mode) : Place → Nat
  | .thread => 0
  | .told => 15
  | .event => 20
  | .helper => match w with | .changing => 25 | .subscribing => 27
  | .handler => 40

/-- A script that locks in order and unlocks what was locked last; `b`: the base of its thread. -/
def Ordered (w : Mode) (role : Nat → Place) (b : Nat) : List Mutex → List Instr → Prop
  | H, [] => H = []
  | H, .lock m :: k => b < lvl w m ∧ (∀ x ∈ H, lvl w x < lvl w m) ∧ Ordered w role b (m :: H) k
  | H, .unlock m :: k => ∃ H', H = m :: H' ∧ Ordered w role b H' k
  | H, .join u :: k => b < base w (role u) ∧ (∀ x ∈ H, lvl w x < base w (role u)) ∧ Ordered w role b H k

/-- A piece of a script that may be used where nothing above `n` is locked. -/
def Above (w : Mode) (role : Nat → Place) (n : Nat) (A : List Instr) : Prop :=
  ∀ b H K, b ≤ n → (∀ x ∈ H, lvl w x ≤ n) → Ordered w role b H K → Ordered w role b H (A ++ K)

section
variable {w : Mode} {role : Nat → Place} {n k : Nat} {A B : List Instr}

theorem above_nil : Above w role n [] := fun _ _ _ _ _ h => h

theorem above_append (ha : Above w role n A) (hb : Above w role n B) : Above w role n (A ++ B) := by
  intro b H K h1 h2 h3
  rw [List.append_assoc]
  exact ha b H _ h1 h2 (hb b H K h1 h2 h3)

theorem above_mono (h : n ≤ k) (ha : Above w role k A) : Above w role n A :=
  fun b H K h1 h2 h3 => ha b H K (Nat.le_trans h1 h) (fun x hx => Nat.le_trans (h2 x hx) h) h3

theorem above_sec {m : Mutex} (h : n < lvl w m) (ha : Above w role (lvl w m) A) : Above w role n (sec m A) := by
  intro b H K h1 h2 h3
  show Ordered w role b H (.lock m :: (A ++ [.unlock m] ++ K))
  refine ⟨by omega, fun x hx => by have := h2 x hx; omega, ?_⟩
  rw [List.append_assoc]
  refine ha b (m :: H) _ (by omega) (fun x hx => ?_) ⟨H, rfl, h3⟩
  rcases List.mem_cons.1 hx with rfl | hx
  · exact Nat.le_refl _
  · have := h2 x hx; omega

theorem above_join {t : Nat} (h : n < base w (role t)) : Above w role n [.join t] :=
  fun _ _ _ h1 h2 h3 => ⟨by omega, fun x hx => by have := h2 x hx; omega, h3⟩

theorem above_flatMap {α : Type} {f : α → List Instr} (l : List α) (h : ∀ x ∈ l, Above w role n (f x)) :
    Above w role n (l.flatMap f) := by
  induction l with
  | nil => exact above_nil
  | cons x l ih =>
    rw [List.flatMap_cons]
    exact above_append (h x (List.mem_cons_self ..)) (ih fun y hy => h y (List.mem_cons_of_mem _ hy))

theorem above_joins (ts : List Nat) (h : ∀ t ∈ ts, n < base w (role t)) : Above w role n (joins ts) := by
  induction ts with
  | nil => exact above_nil
  | cons t ts ih =>
    exact above_append (above_join (h t (List.mem_cons_self ..))) (ih fun y hy => h y (List.mem_cons_of_mem _ hy))

theorem above_replicate (i : Nat) (h : Above w role n A) : Above w role n (List.replicate i A).flatten := by
  induction i with
  | zero => exact above_nil
  | succ i ih => rw [List.replicate_succ, List.flatten_cons]; exact above_append h ih

/-- An empty section. -/
theorem above_sec0 {m : Mutex} (h : n < lvl w m) : Above w role n (sec m []) := above_sec h above_nil

theorem above_send (h : n < 100) : Above w role n send := above_sec0 h

theorem above_request (h : n < 90) : Above w role n Locks.request :=
  above_append (above_append (above_sec0 h) (above_send (by omega))) (above_send (by omega))

theorem above_core_send (h : n < 95) : Above w role n (sec .core send) := above_sec h (above_send (by simp [lvl]))

theorem above_sendEvent {p : Bool} (h : n < 90) : Above w role n (sendEvent p) := by
  unfold sendEvent
  refine above_append (above_sec0 h) ?_
  cases p
  · exact above_core_send (by omega)
  · exact above_nil

theorem above_publish {h : Nat} {to : List Bool} (h1 : n < 50) (h2 : n < lvl w (.subs h)) :
    Above w role n (Locks.publish h to) :=
  above_append (above_sec0 h1)
    (above_sec h2 (above_flatMap _ fun _ _ => above_sendEvent (by cases w <;> simp [lvl])))

theorem above_listener (h : n < 80) : Above w role n Locks.listener := above_sec h (above_send (by simp [lvl]))

theorem above_ask (h : n < 90) : Above w role n askSubscribe :=
  above_append (above_core_send (by omega)) (above_request h)

theorem above_handleEvent {h : Nat} (hn : n < 10) (ha : Above w role 20 A) : Above w role n (handleEvent h A) :=
  above_append (above_sec0 hn) (above_sec (by simp [lvl]; omega) ha)

theorem above_watch {e : Nat} (hn : n < 30) (ha : Above w role 40 A) : Above w role n (Locks.watch e A) :=
  above_append (above_append (above_sec0 hn) (above_sec (by simp [lvl]; omega) ha)) (above_sec0 hn)

theorem above_unwatch {l : Option Nat} (hn : n < 30) (hl : ∀ t, l = some t → n < base w (role t)) :
    Above w role n (Locks.unwatch l) := by
  unfold Locks.unwatch
  refine above_append (above_sec0 hn) ?_
  cases l with
  | none => exact above_nil
  | some t => exact above_join (hl t rfl)

end

/-- The functions keep the order. -/
theorem above_call {w : Mode} {role : Nat → Place} {p : Place} {c : Call} {A B : List Instr} (hm : may w p c = true)
    (hh : ∀ t ∈ helpers c, role t = .helper) (he : ∀ t ∈ ending c, role t = .helper ∨ role t = .told)
    (ha : Above w role (base w (inner c)) A) (hb : Above w role 40 B) : Above w role (base w p) (c.script A B) := by
  have hp40 : base w p ≤ 40 := by cases p <;> cases w <;> simp [base]
  have hout : p.outer = true → base w p ≤ 20 := by cases p <;> simp [base, Place.outer]
  cases c with
  | request => exact above_request (by omega)
  | listener => exact above_listener (by omega)
  | publish h to =>
    refine above_publish (by omega) ?_
    cases w
    · simp [lvl]; omega
    · simp [may] at hm; have := hout hm; simp [lvl]; omega
  | isSubscribed h =>
    simp [may] at hm
    refine above_sec0 ?_
    rcases hm with rfl | rfl <;> simp [lvl, base]
  | subscribe h i =>
    have h15 : base w p ≤ 15 := by
      simp [may] at hm
      rcases hm with rfl | ⟨rfl, -⟩ <;> simp [base]
    refine above_append (above_append (above_append (above_sec ?_ (above_sec0 ?_)) (above_ask ?_)) (above_sec0 ?_)) ?_
    all_goals try (simp [lvl]; done)
    · simp [lvl]; omega
    · omega
    · simp [lvl]; omega
    · cases i
      · exact above_nil
      · simp [may] at hm
        subst hm
        exact above_handleEvent (by simp [base]) ha
  | subscribeAsync h =>
    have h15 : base w p ≤ 15 := by
      simp [may] at hm
      rcases hm with rfl | rfl <;> simp [base]
    exact above_append (above_sec (by simp [lvl]; omega) (above_sec0 (by simp [lvl]))) (above_sec0 (by simp [lvl]; omega))
  | unsubscribe h =>
    have h15 : base w p ≤ 15 := by
      simp [may] at hm
      rcases hm with rfl | rfl <;> simp [base]
    exact above_sec (by simp [lvl]; omega) (above_append (above_append (above_listener (by simp [lvl]))
      (above_request (by simp [lvl]))) (above_sec0 (by simp [lvl])))
  | registerRow h ws to cached =>
    simp [may] at hm
    obtain ⟨rfl, hm⟩ := hm
    have hs : base w p < lvl w (.subs h) := by
      rcases hm with hm | ⟨rfl, -⟩
      · have := hout hm; cases w <;> simp [lvl] <;> omega
      · simp [lvl]; omega
    refine above_append (above_append (above_append (above_append (above_sec0 ?_) (above_sec0 hs))
      (above_flatMap _ fun e he => ?_)) (above_publish (by omega) hs)) (above_sec0 hs)
    · simp [lvl]; omega
    · rcases hm with hm | ⟨rfl, rfl⟩
      · have := hout hm; exact above_watch (by omega) hb
      · cases he
  | unregisterRow h ws to =>
    simp [may] at hm
    have hs : base w p < lvl w (.subs h) := by
      rcases hm with hm | ⟨rfl, -⟩
      · have := hout hm; cases w <;> simp [lvl] <;> omega
      · simp [lvl]; omega
    refine above_append (above_append (above_append (above_flatMap _ fun l hl => ?_) (above_sec0 hs)) (above_sec0 ?_))
      (above_publish (by omega) hs)
    · rcases hm with hm | ⟨rfl, rfl⟩
      · have := hout hm
        refine above_unwatch (by omega) ?_
        rintro t rfl
        have ht := hh t (by simpa [helpers] using hl)
        have hb : 20 < base w .helper := by cases w <;> simp [base]
        rw [ht]; omega
      · cases hl
    · simp [lvl]; omega
  | registerElement h cached =>
    simp [may] at hm
    obtain ⟨rfl, hm⟩ := hm
    have hs : base w p < lvl w (.subs h) := by
      rcases hm with hm | rfl
      · have := hout hm; cases w <;> simp [lvl] <;> omega
      · simp [lvl]; omega
    exact above_append (above_append (above_send (by omega)) (above_sec0 (by simp [lvl]; omega))) (above_sec0 hs)
  | «open» =>
    simp [may] at hm; subst hm
    exact above_sec (by simp [lvl, base]) (above_append (above_append (above_core_send (by simp [lvl]))
      (above_send (by simp [lvl]))) (above_sec0 (by simp [lvl])))
  | close h i ts =>
    simp [may] at hm; subst hm
    refine above_sec (by simp [lvl, base]) ?_
    refine above_append (above_append (above_append (above_append (above_append (above_append (above_append ?_ ?_) ?_)
      ?_) ?_) ?_) ?_) ?_
    · exact above_sec (by simp [lvl]) (above_replicate _ (above_request (by simp [lvl])))
    · exact above_listener (by simp [lvl])
    · exact above_sec0 (by cases w <;> simp [lvl])
    · exact above_sec0 (by simp [lvl])
    · exact above_sec0 (by simp [lvl])
    · refine above_joins _ fun t ht => ?_
      rcases he t ht with h | h <;> rw [h] <;> cases w <;> simp [lvl, base]
    · exact above_send (by simp [lvl])
    · exact above_sec0 (by simp [lvl])
  | closeLast _ _ _ _ => simp [may] at hm
  | closeDirect _ => simp [may] at hm
  | event h =>
    simp [may] at hm; subst hm
    exact above_handleEvent (by simp [base]) ha
  | serve e table =>
    simp [may] at hm
    obtain ⟨rfl, rfl⟩ := hm
    exact above_append (above_append (above_append (above_sec0 (by simp [lvl, base]))
      (above_sec0 (by simp [lvl, base]))) (above_sec (by simp [lvl, base]) ha)) (above_send (by simp [base]))
  | serveSubscribe h e x table =>
    simp [may] at hm
    obtain ⟨⟨rfl, rfl⟩, hx⟩ := hm
    refine above_append (above_append (above_append (above_sec0 (by simp [lvl, base]))
      (above_sec0 (by simp [lvl, base]))) (above_append (above_sec (by simp [lvl, base]) ha)
        (above_sec (by cases w <;> simp [lvl, base]) ?_))) (above_send (by simp [base]))
    cases x with
    | nothing => exact above_nil
    | watch =>
      simp at hx; subst hx
      exact above_watch (by simp [lvl]) hb
    | unwatch l =>
      simp at hx; subst hx
      refine above_unwatch (by simp [lvl]) ?_
      rintro t rfl
      rw [hh t (by simp [helpers])]; simp [lvl, base]
    | begin =>
      simp at hx; subst hx
      exact above_sec0 (by simp [lvl])
    | finish l =>
      simp at hx; subst hx
      cases l with
      | none => exact above_sec0 (by simp [lvl])
      | some t =>
        refine above_append (above_append (above_sec0 (by simp [lvl])) (above_join ?_)) (above_sec0 (by simp [lvl]))
        rw [hh t (by simp [helpers])]; simp [lvl, base]
  | clientGone hs priv =>
    simp [may] at hm
    obtain ⟨⟨rfl, hs0⟩, rfl⟩ := hm
    refine above_sec (by simp [lvl, base]) (above_append (above_flatMap _ fun x hx => ?_) (above_sec0 (by simp [lvl])))
    rw [hs0 x.1 x.2 hx]
    exact above_sec0 (by cases w <;> simp [lvl])
  | poll ps =>
    simp [may] at hm
    obtain ⟨hp, hps⟩ := hm
    refine above_sec (by rcases hp with rfl | rfl <;> cases w <;> simp [lvl, base]) (above_flatMap _ fun x hx => ?_)
    refine above_append (above_sec (by simp [lvl]) ha) ?_
    rcases hps with rfl | hps
    · cases x.2.2 with
      | none => exact above_nil
      | some to => exact above_publish (by simp [lvl]) (by simp [lvl])
    · rw [show x.2.2 = none from hps _ _ _ hx]
      exact above_nil
  | interval r e priv =>
    simp [may] at hm
    refine above_sec (by rcases hm with rfl | rfl <;> cases w <;> simp [lvl, base]) ?_
    exact above_append (above_append (above_sec0 (by simp [lvl])) (above_sec (by simp [lvl]) ha))
      (above_sendEvent (by simp [lvl]))
  | intervalOver h =>
    simp [may] at hm
    obtain ⟨hp, rfl⟩ := hm
    exact above_sec (by rcases hp with rfl | rfl <;> simp [lvl, base]) (above_sec0 (by simp [lvl]))
  | retry h =>
    have h15 : base w p ≤ 15 := by
      simp [may] at hm
      rcases hm with rfl | rfl <;> simp [base]
    exact above_append (above_append (above_append (above_append (above_sec0 (by simp [lvl]; omega))
      (above_ask (by omega))) (above_mono h15 ha)) (above_sec0 (by simp [lvl]; omega))) (above_sec0 (by simp [lvl]; omega))

/-- Fine programs keep the order. -/
theorem above_prog {w : Mode} {role : Nat → Place} (q : Prog) :
    ∀ p, Fine w role p q → Above w role (base w p) q.script := by
  induction q with
  | done => exact fun _ _ => above_nil
  | call c a b next iha ihb ihn =>
    intro p ⟨hm, hh, he, ha, hb, hn⟩
    exact above_append (above_call hm hh he (iha _ ha) (ihb _ hb)) (ihn p hn)

/-! ## The invariant -/

/-- What a thread has locked, the last first. -/
structure Inv (w : Mode) (role : Nat → Place) (held : Nat → List Mutex) (s : State) : Prop where
  ordered : ∀ t, Ordered w role (base w (role t)) (held t) (s.thread t).todo
  owner : ∀ m t, m ∈ held t → s.owner m = some (t, 1)
  mine : ∀ m t n, s.owner m = some (t, n) → m ∈ held t
  nodup : ∀ t, (held t).Nodup
  past : ∀ t m, (s.thread t).past.count (.lock m) = (s.thread t).past.count (.unlock m) + (held t).count m

theorem inv_start {w : Mode} {role : Nat → Place} {p : Nat → Prog} (h : AllFine w role p) :
    Inv w role (fun _ => []) (start p) := by
  refine ⟨fun t => ?_, by simp, by simp [start], by simp, by simp [start]⟩
  have := above_prog (p t) (role t) (h t) (base w (role t)) [] [] (Nat.le_refl _) (by simp) rfl
  simpa [start] using this

/-- A step keeps the invariant. -/
theorem inv_step {w : Mode} {role : Nat → Place} {held : Nat → List Mutex} {s s' : State} {t : Nat}
    (i : Inv w role held s) (h : step s t = .ok s') : ∃ held', Inv w role held' s' := by
  have ho := i.ordered t
  unfold step at h
  cases ht : (s.thread t).todo with
  | nil => simp [ht] at h
  | cons x k =>
    rw [ht] at ho
    simp only [ht] at h
    cases x with
    | lock m =>
      obtain ⟨h1, h2, h3⟩ := ho
      have hm : m ∉ held t := fun hm => Nat.lt_irrefl _ (h2 m hm)
      cases hown : s.owner m with
      | some un =>
        obtain ⟨u, n⟩ := un
        by_cases hu : u = t
        · subst hu; exact absurd (i.mine m u n hown) hm
        · simp [exec, hown, hu] at h
      | none =>
        simp only [exec, hown, Res.ok_bind, Res.pure_eq, Res.ok.injEq] at h
        subst h
        refine ⟨fun u => if u = t then m :: held t else held u, fun u => ?_, fun x u hx => ?_, fun x u n hx => ?_,
          fun u => ?_, fun u x => ?_⟩
        · by_cases hu : u = t
          · subst hu; simpa using h3
          · simpa [hu] using i.ordered u
        · simp only [setOwner]
          by_cases hu : u = t
          · subst hu
            simp at hx
            by_cases hxm : x = m
            · simp [hxm]
            · simp [hxm]; exact i.owner x u (hx.resolve_left hxm)
          · simp [hu] at hx
            have := i.owner x u hx
            by_cases hxm : x = m
            · subst hxm; rw [hown] at this; cases this
            · simp [hxm, this]
        · simp only [setOwner] at hx
          by_cases hxm : x = m
          · subst hxm; simp at hx; simp [hx.1]
          · simp [hxm] at hx
            have := i.mine x u n hx
            by_cases hu : u = t
            · subst hu; simp [this]
            · simp [hu, this]
        · by_cases hu : u = t
          · subst hu; simp [hm, i.nodup u]
          · simp [hu, i.nodup u]
        · by_cases hu : u = t
          · subst hu
            have := i.past u x
            by_cases hxm : m = x
            · subst hxm; simp [List.count_append, this]; omega
            · simp [List.count_append, List.count_cons, hxm, this]
          · simpa [hu] using i.past u x
    | unlock m =>
      obtain ⟨H', h1, h2⟩ := ho
      have hown := i.owner m t (by simp [h1])
      simp only [exec, hown, if_true, Nat.le_refl, Res.ok_bind, Res.pure_eq, Res.ok.injEq] at h
      subst h
      have hnd := i.nodup t
      rw [h1, List.nodup_cons] at hnd
      refine ⟨fun u => if u = t then H' else held u, fun u => ?_, fun x u hx => ?_, fun x u n hx => ?_,
        fun u => ?_, fun u x => ?_⟩
      · by_cases hu : u = t
        · subst hu; simpa using h2
        · simpa [hu] using i.ordered u
      · simp only [setOwner]
        by_cases hu : u = t
        · subst hu
          simp at hx
          have hxm : x ≠ m := fun e => hnd.1 (e ▸ hx)
          simp [hxm]; exact i.owner x u (by simp [h1, hx])
        · simp [hu] at hx
          have := i.owner x u hx
          by_cases hxm : x = m
          · subst hxm; rw [hown] at this; simp at this; exact absurd this.symm hu
          · simp [hxm, this]
      · simp only [setOwner] at hx
        by_cases hxm : x = m
        · subst hxm; simp at hx
        · simp [hxm] at hx
          have := i.mine x u n hx
          by_cases hu : u = t
          · subst hu; rw [h1] at this; simpa [hxm] using this
          · simp [hu, this]
      · by_cases hu : u = t
        · subst hu; simp [hnd.2]
        · simp [hu, i.nodup u]
      · by_cases hu : u = t
        · subst hu
          have := i.past u x
          rw [h1] at this
          by_cases hxm : m = x
          · subst hxm; simp [List.count_append] at this ⊢; omega
          · simp [List.count_append, List.count_cons, hxm] at this ⊢; omega
        · simpa [hu] using i.past u x
    | join v =>
      obtain ⟨h1, h2, h3⟩ := ho
      by_cases hv : (s.thread v).todo = []
      · simp only [exec, hv, if_true, Res.ok_bind, Res.pure_eq, Res.ok.injEq] at h
        subst h
        refine ⟨held, fun u => ?_, i.owner, i.mine, i.nodup, fun u x => ?_⟩
        · by_cases hu : u = t
          · subst hu; simpa using h3
          · simpa [hu] using i.ordered u
        · by_cases hu : u = t
          · subst hu
            have := i.past u x
            simpa [List.count_append, List.count_cons] using this
          · simpa [hu] using i.past u x
      · simp [exec, hv] at h

theorem inv_run {w : Mode} {role : Nat → Place} (sched : List Nat) : ∀ {held : Nat → List Mutex} {s s' : State},
    Inv w role held s → run s sched = .ok s' → ∃ held', Inv w role held' s' := by
  induction sched with
  | nil => intro held s s' i h; simp [run] at h; exact ⟨held, h ▸ i⟩
  | cons t ts ih =>
    intro held s s' i h
    simp only [run] at h
    cases hs : step s t with
    | ok s1 =>
      rw [hs, Res.ok_bind] at h
      obtain ⟨held1, i1⟩ := inv_step i hs
      exact ih i1 h
    | fail => rw [hs] at h; cases h
    | ub => rw [hs] at h; cases h

/-- Nothing undefined happens. -/
theorem inv_defined {w : Mode} {role : Nat → Place} {held : Nat → List Mutex} {s : State} (i : Inv w role held s)
    (t : Nat) : step s t ≠ .ub := by
  have ho := i.ordered t
  unfold step
  cases ht : (s.thread t).todo with
  | nil => simp
  | cons x k =>
    rw [ht] at ho
    cases x with
    | lock m =>
      simp only [exec]
      cases hown : s.owner m with
      | none => simp [Res.ok_bind, Res.pure_eq]
      | some un =>
        obtain ⟨u, n⟩ := un
        by_cases hu : u = t
        · simp only [hu, if_true]; cases m.kind <;> simp [Res.ok_bind, Res.fail_bind, Res.pure_eq]
        · simp [hu, Res.fail_bind]
    | unlock m =>
      obtain ⟨H', h1, h2⟩ := ho
      have hown := i.owner m t (by simp [h1])
      simp [exec, hown, Res.ok_bind, Res.pure_eq]
    | join v =>
      by_cases hv : (s.thread v).todo = [] <;> simp [exec, hv, Res.ok_bind, Res.fail_bind, Res.pure_eq]

/-- How far up the order is what a thread waits for. -/
def rank (w : Mode) (role : Nat → Place) (s : State) (t : Nat) : Nat :=
  match (s.thread t).todo with
  | .lock m :: _ => lvl w m
  | .join u :: _ => base w (role u)
  | _ => 0

theorem rank_le (w : Mode) (role : Nat → Place) (s : State) (t : Nat) : rank w role s t ≤ 100 := by
  unfold rank
  split
  · rename_i m _ _; cases m <;> cases w <;> simp [lvl]
  · rename_i u _ _; cases role u <;> cases w <;> simp [base]
  · omega

/-- One that is waited for has not ended, and if it waits, then further up. -/
theorem waits_up {w : Mode} {role : Nat → Place} {held : Nat → List Mutex} {s : State} (i : Inv w role held s)
    {t u : Nat} (h : Waits s t u) :
    (s.thread u).todo ≠ [] ∧ ∀ v, Waits s u v → rank w role s t < rank w role s u := by
  unfold Waits at h
  have hou := i.ordered u
  cases ht : (s.thread t).todo with
  | nil => rw [ht] at h; cases h
  | cons x k =>
    rw [ht] at h
    cases x with
    | lock m =>
      obtain ⟨n, h1, h2⟩ := h
      have hm := i.mine m u n h1
      have hr : rank w role s t = lvl w m := by simp [rank, ht]
      cases hu : (s.thread u).todo with
      | nil => rw [hu] at hou; rw [show held u = [] from hou] at hm; cases hm
      | cons y l =>
        rw [hu] at hou
        refine ⟨by simp, fun v hv => ?_⟩
        cases y with
        | lock m' => rw [hr]; simp only [rank, hu]; exact hou.2.1 m hm
        | unlock m' => simp [Waits, hu] at hv
        | join v' => rw [hr]; simp only [rank, hu]; exact hou.2.1 m hm
    | unlock m => cases h
    | join v =>
      obtain ⟨rfl, h1⟩ := h
      refine ⟨h1, fun v' hv => ?_⟩
      have hr : rank w role s t = base w (role v) := by simp [rank, ht]
      cases hu : (s.thread v).todo with
      | nil => exact absurd hu h1
      | cons y l =>
        rw [hu] at hou
        cases y with
        | lock m' => rw [hr]; simp only [rank, hu]; exact hou.1
        | unlock m' => simp [Waits, hu] at hv
        | join v' => rw [hr]; simp only [rank, hu]; exact hou.1

theorem no_deadlock {w : Mode} {role : Nat → Place} {held : Nat → List Mutex} {s : State} (i : Inv w role held s)
    {D : Nat → Prop} : ¬ Deadlock s D := by
  intro ⟨⟨t, ht⟩, hD⟩
  have key : ∀ n t, D t → 100 - rank w role s t ≤ n → False := by
    intro n
    induction n with
    | zero =>
      intro t ht hn
      obtain ⟨u, hu, hw⟩ := hD t ht
      obtain ⟨v, hv, hw'⟩ := hD u hu
      have := (waits_up i hw).2 v hw'
      have := rank_le w role s u
      omega
    | succ n ih =>
      intro t ht hn
      obtain ⟨u, hu, hw⟩ := hD t ht
      obtain ⟨v, hv, hw'⟩ := hD u hu
      have := (waits_up i hw).2 v hw'
      have := rank_le w role s u
      exact ih u hu (by omega)
  exact key _ t ht (Nat.le_refl _)

/-- A thread that cannot go on waits. -/
theorem stuck_waits {s : State} {t : Nat} (ht : (s.thread t).todo ≠ []) (h : step s t = .fail) : ∃ u, Waits s t u := by
  unfold step at h
  cases hx : (s.thread t).todo with
  | nil => exact absurd hx ht
  | cons x k =>
    simp only [hx] at h
    cases x with
    | lock m =>
      simp only [exec] at h
      cases hown : s.owner m with
      | none => simp [hown, Res.ok_bind, Res.pure_eq] at h
      | some un =>
        obtain ⟨u, n⟩ := un
        simp only [hown] at h
        refine ⟨u, ?_⟩
        simp only [Waits, hx]
        refine ⟨n, hown, ?_⟩
        by_cases hu : u = t
        · subst hu
          right
          cases hk : m.kind <;> simp [hk, Res.ok_bind, Res.pure_eq] at h ⊢
        · exact Or.inl hu
    | unlock m =>
      exfalso
      simp only [exec] at h
      cases hown : s.owner m with
      | none =>
        simp only [hown] at h
        by_cases hk : m.kind = .normal <;> simp [hk, Res.ok_bind, Res.ub_bind, Res.pure_eq] at h
      | some un =>
        obtain ⟨u, n⟩ := un
        simp only [hown] at h
        by_cases hu : u = t
        · simp [hu, Res.ok_bind, Res.pure_eq] at h
        · by_cases hk : m.kind = .normal <;> simp [hk, hu, Res.ok_bind, Res.ub_bind, Res.pure_eq] at h
    | join v =>
      by_cases hv : (s.thread v).todo = []
      · simp [exec, hv, Res.ok_bind, Res.pure_eq] at h
      · exact ⟨v, by simp only [Waits, hx]; exact ⟨trivial, hv⟩⟩

/-- Whoever has not ended can go on, or is behind one that can. -/
theorem progress {w : Mode} {role : Nat → Place} {held : Nat → List Mutex} {s : State} (i : Inv w role held s)
    {t : Nat} (ht : (s.thread t).todo ≠ []) : ∃ u s', Behind s t u ∧ step s u = .ok s' := by
  have key : ∀ n t, (s.thread t).todo ≠ [] → 100 - rank w role s t ≤ n → ∃ u s', Behind s t u ∧ step s u = .ok s' := by
    intro n
    induction n with
    | zero =>
      intro t ht hn
      cases hs : step s t with
      | ok s' => exact ⟨t, s', .here, hs⟩
      | ub => exact absurd hs (inv_defined i t)
      | fail =>
        obtain ⟨u, hu⟩ := stuck_waits ht hs
        have hw := waits_up i hu
        cases hs' : step s u with
        | ok s' => exact ⟨u, s', .next hu .here, hs'⟩
        | ub => exact absurd hs' (inv_defined i u)
        | fail =>
          obtain ⟨v, hv⟩ := stuck_waits hw.1 hs'
          have := hw.2 v hv
          have := rank_le w role s u
          omega
    | succ n ih =>
      intro t ht hn
      cases hs : step s t with
      | ok s' => exact ⟨t, s', .here, hs⟩
      | ub => exact absurd hs (inv_defined i t)
      | fail =>
        obtain ⟨u, hu⟩ := stuck_waits ht hs
        have hw := waits_up i hu
        cases hs' : step s u with
        | ok s' => exact ⟨u, s', .next hu .here, hs'⟩
        | ub => exact absurd hs' (inv_defined i u)
        | fail =>
          obtain ⟨v, hv⟩ := stuck_waits hw.1 hs'
          have := hw.2 v hv
          have := rank_le w role s u
          obtain ⟨x, s', hb, hx⟩ := ih u hw.1 (by omega)
          exact ⟨x, s', .next hu hb, hx⟩
  exact key _ t ht (Nat.le_refl _)

/-- Only one is inside. -/
theorem exclusion {w : Mode} {role : Nat → Place} {held : Nat → List Mutex} {s : State} (i : Inv w role held s)
    {t u : Nat} {m : Mutex} (ht : Inside s t m) (hu : Inside s u m) : t = u := by
  have key : ∀ t, Inside s t m → m ∈ held t := by
    intro t h
    unfold Inside at h
    rw [i.past t m] at h
    exact List.count_pos_iff.1 (by omega)
  have h1 := i.owner m t (key t ht)
  have h2 := i.owner m u (key u hu)
  rw [h1] at h2
  simpa using h2

/-! ## To the end -/

/-- The steps left to the first `n` threads. -/
def left (s : State) : Nat → Nat
  | 0 => 0
  | n + 1 => left s n + (s.thread n).todo.length

theorem step_thread {s s' : State} {t : Nat} (h : step s t = .ok s') :
    ∃ x k, (s.thread t).todo = x :: k ∧ s'.thread = fun u => if u = t then ⟨(s.thread t).past ++ [x], k⟩ else s.thread u := by
  unfold step at h
  cases ht : (s.thread t).todo with
  | nil => simp [ht] at h
  | cons x k =>
    simp only [ht] at h
    cases he : exec s t x with
    | ok o =>
      simp only [he, Res.ok_bind, Res.pure_eq, Res.ok.injEq] at h
      exact ⟨x, k, rfl, by rw [← h]⟩
    | fail => rw [he] at h; cases h
    | ub => rw [he] at h; cases h

theorem left_step {s s' : State} {t : Nat} (h : step s t = .ok s') (n : Nat) :
    left s n = left s' n + if t < n then 1 else 0 := by
  obtain ⟨x, k, h1, h2⟩ := step_thread h
  induction n with
  | zero => simp [left]
  | succ n ih =>
    simp only [left, ih, h2]
    by_cases hn : n = t
    · subst hn; simp [h1]; omega
    · simp only [if_neg hn]
      by_cases hlt : t < n
      · simp [hlt, show t < n + 1 by omega]; omega
      · simp [hlt, show ¬ t < n + 1 by omega]

theorem left_zero {s : State} {n : Nat} (h : left s n = 0) {t : Nat} (ht : t < n) : (s.thread t).todo = [] := by
  induction n with
  | zero => omega
  | succ n ih =>
    simp only [left] at h
    by_cases hn : t = n
    · subst hn; exact List.length_eq_zero_iff.1 (by omega)
    · exact ih (by omega) (by omega)

/-- With finitely many threads all can be brought to their end. -/
theorem all_finish {w : Mode} {role : Nat → Place} (n : Nat) : ∀ (k : Nat) {held : Nat → List Mutex} {s : State},
    Inv w role held s → (∀ t, n ≤ t → (s.thread t).todo = []) → left s n ≤ k →
    ∃ sched s', run s sched = .ok s' ∧ ∀ t, (s'.thread t).todo = [] := by
  intro k
  induction k with
  | zero =>
    intro held s i hn hl
    refine ⟨[], s, rfl, fun t => ?_⟩
    by_cases ht : t < n
    · exact left_zero (by omega) ht
    · exact hn t (by omega)
  | succ k ih =>
    intro held s i hn hl
    by_cases h : ∃ t, (s.thread t).todo ≠ []
    · obtain ⟨t, ht⟩ := h
      obtain ⟨u, s1, -, hs⟩ := progress i ht
      obtain ⟨held1, i1⟩ := inv_step i hs
      obtain ⟨x, l, h1, h2⟩ := step_thread hs
      have hu : u < n := by
        apply Decidable.byContradiction
        intro hc
        rw [hn u (by omega)] at h1; cases h1
      have hl1 := left_step hs n
      rw [if_pos hu] at hl1
      obtain ⟨sched, s2, hr, he⟩ := ih i1 (fun t ht => by
        rw [h2]; simp only [if_neg (show t ≠ u by omega)]; exact hn t ht) (by omega)
      exact ⟨u :: sched, s2, by simp only [run, hs, Res.ok_bind, hr], he⟩
    · exact ⟨[], s, rfl, fun t => Decidable.byContradiction fun hc => h ⟨t, hc⟩⟩

/-! ## Once dead, always dead -/

theorem deadlock_stuck {s : State} {D : Nat → Prop} (h : Deadlock s D) {t : Nat} (ht : D t) : step s t = .fail := by
  obtain ⟨u, hu, hw⟩ := h.2 t ht
  unfold Waits at hw
  unfold step
  cases hx : (s.thread t).todo with
  | nil => rfl
  | cons x k =>
    rw [hx] at hw
    cases x with
    | lock m =>
      obtain ⟨n, h1, h2⟩ := hw
      by_cases hut : u = t
      · have := h2.resolve_left (by simp [hut])
        simp [exec, h1, hut, this, Res.fail_bind]
      · simp [exec, h1, hut, Res.fail_bind]
    | unlock m => cases hw
    | join v =>
      obtain ⟨rfl, h1⟩ := hw
      simp [exec, h1, Res.fail_bind]

theorem deadlock_step {s s' : State} {D : Nat → Prop} (h : Deadlock s D) {x : Nat} (hs : step s x = .ok s') :
    Deadlock s' D ∧ ∀ t, D t → s'.thread t = s.thread t := by
  have hx : ¬ D x := fun hx => by rw [deadlock_stuck h hx] at hs; cases hs
  obtain ⟨i, k, h1, h2⟩ := step_thread hs
  have same : ∀ t, D t → s'.thread t = s.thread t := fun t ht => by
    rw [h2]; simp only [if_neg (show t ≠ x from fun e => hx (e ▸ ht))]
  refine ⟨⟨h.1, fun t ht => ?_⟩, same⟩
  obtain ⟨u, hu, hw⟩ := h.2 t ht
  refine ⟨u, hu, ?_⟩
  have hux : u ≠ x := fun e => hx (e ▸ hu)
  unfold Waits at hw ⊢
  rw [same t ht]
  cases ht' : (s.thread t).todo with
  | nil => rw [ht'] at hw; exact hw
  | cons y l =>
    rw [ht'] at hw
    cases y with
    | unlock m => exact hw
    | join v => rw [same u hu]; exact hw
    | lock m =>
      obtain ⟨n, hn, hk⟩ := hw
      refine ⟨n, ?_, hk⟩
      unfold step at hs
      simp only [h1] at hs
      cases i with
      | join v =>
        by_cases hv : (s.thread v).todo = []
        · simp only [exec, hv, if_true, Res.ok_bind, Res.pure_eq, Res.ok.injEq] at hs; rw [← hs]; exact hn
        · simp [exec, hv] at hs
      | lock m' =>
        cases hown : s.owner m' with
        | none =>
          simp only [exec, hown, Res.ok_bind, Res.pure_eq, Res.ok.injEq] at hs
          rw [← hs]; simp only [setOwner]
          rw [if_neg (fun e => by rw [e, hown] at hn; cases hn)]; exact hn
        | some vn =>
          obtain ⟨v, j⟩ := vn
          by_cases hv : v = x
          · subst hv
            have hmm : m ≠ m' := fun e => by rw [e, hown] at hn; simp at hn; exact hux hn.1.symm
            cases hkk : m'.kind <;> simp only [exec, hown, hkk, if_true, Res.ok_bind, Res.fail_bind, Res.pure_eq, Res.ok.injEq, reduceCtorEq] at hs
            · rw [← hs]; exact hn
            · rw [← hs]; simp only [setOwner]; rw [if_neg hmm]; exact hn
          · simp [exec, hown, hv] at hs
      | unlock m' =>
        cases hown : s.owner m' with
        | none =>
          by_cases hkk : m'.kind = .normal
          · simp [exec, hown, hkk] at hs
          · simp only [exec, hown, hkk, if_false, Res.ok_bind, Res.pure_eq, Res.ok.injEq] at hs; rw [← hs]; exact hn
        | some vn =>
          obtain ⟨v, j⟩ := vn
          by_cases hv : v = x
          · subst hv
            have hmm : m ≠ m' := fun e => by rw [e, hown] at hn; simp at hn; exact hux hn.1.symm
            simp only [exec, hown, if_true, Res.ok_bind, Res.pure_eq, Res.ok.injEq] at hs
            rw [← hs]; simp only [setOwner]; rw [if_neg hmm]; exact hn
          · by_cases hkk : m'.kind = .normal
            · simp [exec, hown, hv, hkk] at hs
            · simp only [exec, hown, hv, hkk, if_false, Res.ok_bind, Res.pure_eq, Res.ok.injEq] at hs; rw [← hs]; exact hn

theorem deadlock_run (sched : List Nat) : ∀ {s s' : State} {D : Nat → Prop}, Deadlock s D → run s sched = .ok s' →
    Deadlock s' D ∧ ∀ t, D t → s'.thread t = s.thread t := by
  induction sched with
  | nil => intro s s' D h hr; simp [run] at hr; subst hr; exact ⟨h, fun _ _ => rfl⟩
  | cons x ts ih =>
    intro s s' D h hr
    simp only [run] at hr
    cases hs : step s x with
    | ok s1 =>
      rw [hs, Res.ok_bind] at hr
      obtain ⟨h1, h2⟩ := deadlock_step h hs
      obtain ⟨h3, h4⟩ := ih h1 hr
      exact ⟨h3, fun t ht => (h4 t ht).trans (h2 t ht)⟩
    | fail => rw [hs] at hr; cases hr
    | ub => rw [hs] at hr; cases hr

end Verif.Proof.Locks
