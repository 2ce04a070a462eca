import Verif.Spec.SubscribeMany
import Verif.Proof.Consumer

/-!
# Lemmas about subscribing to several events at once
-/

namespace Verif.SubscribeMany

open Verif Verif.Consumer Verif.Spec.Consumer

theorem alike_plain {sc : Bool} {a k : Key} (ha : PlainFilter sc a.filter) (hk : PlainFilter sc k.filter) :
    ∃ b, alike sc a k = .ok b ∧ (b = true ↔ Rival sc a k) := by
  unfold alike Rival
  by_cases hn : a.name = k.name
  · rw [if_neg (by simp [hn])]
    obtain ⟨c, hc⟩ := cmp_plain ha hk
    have hs := Verif.Props.C53_filter_compare_equal_iff sc a.filter k.filter
    rw [hc] at hs ⊢
    refine ⟨c == .eq, rfl, ?_⟩
    simp only [Res.ok.injEq] at hs
    simp [hn, hs]
  · rw [if_pos hn]
    exact ⟨false, rfl, by simp [hn]⟩

theorem alike_true {sc : Bool} {a k : Key} (ha : PlainFilter sc a.filter) (hk : PlainFilter sc k.filter) (h : Rival sc a k) :
    alike sc a k = .ok true := by
  obtain ⟨b, hb, hi⟩ := alike_plain ha hk
  rw [hb, hi.2 h]

theorem alike_false {sc : Bool} {a k : Key} (ha : PlainFilter sc a.filter) (hk : PlainFilter sc k.filter) (h : ¬ Rival sc a k) :
    alike sc a k = .ok false := by
  obtain ⟨b, hb, hi⟩ := alike_plain ha hk
  cases b with
  | false => exact hb
  | true => exact absurd (hi.1 rfl) h

theorem rival_refl {sc : Bool} {k : Key} (h : PlainFilter sc k.filter) : Rival sc k k := ⟨rfl, same_refl h⟩

/-- Waiting requests have plain filters. -/
def Waiting (sc : Bool) (ps : List (Key × Nat)) : Prop := ∀ p ∈ ps, PlainFilter sc p.1.filter

theorem take_none {sc : Bool} {ps : List (Key × Nat)} {k : Key} (hp : Waiting sc ps) (hk : PlainFilter sc k.filter)
    (h : ∀ p ∈ ps, ¬ Rival sc p.1 k) : takePending sc ps k = .ok none := by
  induction ps with
  | nil => rfl
  | cons p ps ih =>
    have h1 := alike_false (hp p (List.mem_cons_self ..)) hk (h p (List.mem_cons_self ..))
    have h2 := ih (fun q hq => hp q (List.mem_cons_of_mem _ hq)) fun q hq => h q (List.mem_cons_of_mem _ hq)
    simp only [takePending, h1, Res.ok_bind, Bool.false_eq_true, if_false, h2, Res.pure_eq, Option.map_none]

theorem take_hit {sc : Bool} {ps r : List (Key × Nat)} {d : Key × Nat} {k : Key} (hp : Waiting sc ps)
    (hk : PlainFilter sc k.filter) (h : ∀ p ∈ ps, ¬ Rival sc p.1 k) (hd : PlainFilter sc d.1.filter) (hr : Rival sc d.1 k) :
    takePending sc (ps ++ d :: r) k = .ok (some (ps ++ r)) := by
  induction ps with
  | nil =>
    simp only [List.nil_append, takePending, alike_true hd hk hr, Res.ok_bind, if_true, Res.pure_eq]
  | cons p ps ih =>
    have h1 := alike_false (hp p (List.mem_cons_self ..)) hk (h p (List.mem_cons_self ..))
    have h2 := ih (fun q hq => hp q (List.mem_cons_of_mem _ hq)) fun q hq => h q (List.mem_cons_of_mem _ hq)
    simp only [List.cons_append, takePending, h1, Res.ok_bind, Bool.false_eq_true, if_false, h2, Res.pure_eq, Option.map_some]

theorem take_some {sc : Bool} {ps : List (Key × Nat)} {k : Key} (hp : Waiting sc ps) (hk : PlainFilter sc k.filter)
    (h : ∃ p ∈ ps, Rival sc p.1 k) : ∃ r, takePending sc ps k = .ok (some r) := by
  induction ps with
  | nil => obtain ⟨p, hp, _⟩ := h; cases hp
  | cons p ps ih =>
    by_cases hr : Rival sc p.1 k
    · exact ⟨ps, by simp only [takePending, alike_true (hp p (List.mem_cons_self ..)) hk hr, Res.ok_bind, if_true, Res.pure_eq]⟩
    · obtain ⟨q, hq, hqr⟩ := h
      have hq' : q ∈ ps := by
        rcases List.mem_cons.1 hq with rfl | hq
        · exact absurd hqr hr
        · exact hq
      obtain ⟨r, h2⟩ := ih (fun q hq => hp q (List.mem_cons_of_mem _ hq)) ⟨q, hq', hqr⟩
      refine ⟨p :: r, ?_⟩
      simp only [takePending, alike_false (hp p (List.mem_cons_self ..)) hk hr, Res.ok_bind, Bool.false_eq_true, if_false, h2,
        Res.pure_eq, Option.map_some]

theorem take_mem {sc : Bool} {ps r : List (Key × Nat)} {k : Key} (h : takePending sc ps k = .ok (some r)) : ∀ p ∈ r, p ∈ ps := by
  induction ps generalizing r with
  | nil => simp [takePending] at h
  | cons p ps ih =>
    simp only [takePending] at h
    obtain ⟨b, _, h⟩ := res_bind_ok h
    cases b with
    | true =>
      simp only [if_true, Res.pure_eq, Res.ok.injEq, Option.some.injEq] at h
      subst h
      exact fun q hq => List.mem_cons_of_mem _ hq
    | false =>
      simp only [Bool.false_eq_true, if_false] at h
      obtain ⟨t, ht, h⟩ := res_bind_ok h
      cases t with
      | none => simp at h
      | some t =>
        simp only [Res.pure_eq, Option.map_some, Res.ok.injEq, Option.some.injEq] at h
        subst h
        intro q hq
        rcases List.mem_cons.1 hq with rfl | hq
        · exact List.mem_cons_self ..
        · exact List.mem_cons_of_mem _ (ih ht q hq)

/-- Nothing stands in the way of these subscriptions. -/
structure Free (sc : Bool) (s : State) (qs : List Wish) : Prop where
  new : ∀ q ∈ qs, look sc s.subs q.key = none
  unasked : ∀ q ∈ qs, ∀ p ∈ s.pending, ¬ Rival sc p.1 q.key
  apart : qs.Pairwise fun a b => ¬ Rival sc a.key b.key

/-- What is assumed throughout. -/
structure Calm (sc : Bool) (s : State) (qs : List Wish) : Prop where
  sound : Sound sc s.subs
  waiting : Waiting sc s.pending
  plain : ∀ q ∈ qs, q.Plain sc
  clean : ∀ q ∈ qs, ∀ e, look sc s.subs q.key = some e → e.dirty = false

theorem Calm.of_mem {sc : Bool} {s : State} {qs rs : List Wish} (h : Calm sc s qs) (hm : ∀ q ∈ rs, q ∈ qs) : Calm sc s rs :=
  ⟨h.sound, h.waiting, fun q hq => h.plain q (hm q hq), fun q hq => h.clean q (hm q hq)⟩

theorem asked_nil (s : State) : asked s [] = s := by simp [asked]

theorem asked_snoc (s : State) (qs : List Wish) (q : Wish) : asked s (qs ++ [q]) =
    { asked s qs with pending := (asked s qs).pending ++ [(q.key, q.handler)] } := by
  simp [asked]

theorem waiting_asked {sc : Bool} {s : State} {qs : List Wish} (h : Calm sc s qs) : Waiting sc (asked s qs).pending := by
  intro p hp
  simp only [asked, List.mem_append, List.mem_map] at hp
  rcases hp with hp | ⟨q, hq, rfl⟩
  · exact h.waiting p hp
  · exact (h.plain q hq).1

theorem cancel_all {sc : Bool} {s : State} {qs : List Wish} (h : Calm sc s qs) (hf : Free sc s qs) :
    cancelAll sc (asked s qs) qs = .ok s := by
  induction qs with
  | nil => rw [asked_nil]; rfl
  | cons q qs ih =>
    have hq := h.plain q (List.mem_cons_self ..)
    have hfind : find sc (asked s (q :: qs)).subs q.key = .ok none := by
      rw [find_sound (k := q.key) (show Sound sc (asked s (q :: qs)).subs from h.sound) hq.1]
      exact congrArg _ (hf.new q (List.mem_cons_self ..))
    have htake : takePending sc (asked s (q :: qs)).pending q.key = .ok (some (asked s qs).pending) := by
      simp only [asked, List.map_cons]
      exact take_hit h.waiting hq.1 (hf.unasked q (List.mem_cons_self ..)) hq.1 (rival_refl hq.1)
    have hstep : step sc (asked s (q :: qs)) (.unsubscribe true q.key q.undo) = .ok (asked s qs, .success) := by
      have hraw := hq.2
      simp only [step, hfind, Res.ok_bind, hraw, Bool.false_eq_true, Bool.true_eq_false, or_self, if_false, htake, Res.pure_eq]
      rfl
    simp only [cancelAll, hstep, Res.ok_bind]
    exact ih (h.of_mem fun q hq => List.mem_cons_of_mem _ hq)
      ⟨fun q hq => hf.new q (List.mem_cons_of_mem _ hq), fun q hq => hf.unasked q (List.mem_cons_of_mem _ hq),
        (List.pairwise_cons.1 hf.apart).2⟩

theorem pairwise_snoc {α : Type} {R : α → α → Prop} {l : List α} {a : α} :
    (l ++ [a]).Pairwise R ↔ l.Pairwise R ∧ ∀ b ∈ l, R b a := by
  simp [List.pairwise_append]

theorem free_snoc {sc : Bool} {s : State} {qs : List Wish} {q : Wish} : Free sc s (qs ++ [q]) ↔ Free sc s qs ∧
    look sc s.subs q.key = none ∧ ∀ p ∈ (asked s qs).pending, ¬ Rival sc p.1 q.key := by
  constructor
  · intro h
    refine ⟨⟨fun x hx => h.new x (List.mem_append_left _ hx), fun x hx => h.unasked x (List.mem_append_left _ hx),
      (pairwise_snoc.1 h.apart).1⟩, h.new q (by simp), ?_⟩
    intro p hp
    simp only [asked, List.mem_append, List.mem_map] at hp
    rcases hp with hp | ⟨x, hx, rfl⟩
    · exact h.unasked q (by simp) p hp
    · exact (pairwise_snoc.1 h.apart).2 x hx
  · rintro ⟨h, h1, h2⟩
    refine ⟨fun x hx => ?_, fun x hx p hp => ?_, pairwise_snoc.2 ⟨h.apart, fun x hx => ?_⟩⟩
    · rcases List.mem_append.1 hx with hx | hx
      · exact h.new x hx
      · rw [List.mem_singleton.1 hx]; exact h1
    · rcases List.mem_append.1 hx with hx | hx
      · exact h.unasked x hx p hp
      · rw [List.mem_singleton.1 hx]
        exact h2 p (by simp only [asked, List.mem_append]; exact .inl hp)
    · exact h2 (x.key, x.handler) (by simp only [asked, List.mem_append, List.mem_map]; exact .inr ⟨x, hx, rfl⟩)

theorem free_prefix {sc : Bool} {s : State} {qs rs : List Wish} (h : Free sc s (qs ++ rs)) : Free sc s qs :=
  ⟨fun x hx => h.new x (List.mem_append_left _ hx), fun x hx => h.unasked x (List.mem_append_left _ hx),
    (List.pairwise_append.1 h.apart).1⟩

theorem ask_all {sc : Bool} {s : State} (qs : List Wish) : ∀ done : List Wish, Calm sc s (done ++ qs) → Free sc s done →
    ∃ b : Bool, askAll sc done (asked s done) qs = .ok (if b then asked s (done ++ qs) else s, b) ∧
      (b = true ↔ Free sc s (done ++ qs)) := by
  induction qs with
  | nil =>
    intro done _ hf
    exact ⟨true, by simp [askAll], by simpa using hf⟩
  | cons q qs ih =>
    intro done hc hf
    have hq := hc.plain q (by simp)
    have hcd : Calm sc s done := hc.of_mem fun x hx => List.mem_append_left _ hx
    have hfind : find sc (asked s done).subs q.key = .ok (look sc s.subs q.key) :=
      find_sound (show Sound sc (asked s done).subs from hc.sound) hq.1
    have hw := waiting_asked hcd
    have hraw := hq.2
    have split : done ++ q :: qs = (done ++ [q]) ++ qs := by simp
    by_cases hn : Free sc s (done ++ [q])
    · obtain ⟨_, h1, h2⟩ := free_snoc.1 hn
      have ht := take_none hw hq.1 h2
      have hstep : step sc (asked s done) (.subscribeAsync q.key q.handler) = .ok (asked s (done ++ [q]), .success) := by
        rw [asked_snoc]
        simp only [step, hraw, Bool.false_eq_true, if_false, check, hfind, h1, Res.ok_bind, ht, Res.pure_eq]
      obtain ⟨b, hb, hi⟩ := ih (done ++ [q]) (by rw [← split]; exact hc) hn
      refine ⟨b, ?_, ?_⟩
      · simp only [askAll, hstep, Res.ok_bind, if_true]
        rw [split]
        exact hb
      · rw [split]
        exact hi
    · have hno : ¬ Free sc s (done ++ q :: qs) := by
        rw [split]
        exact fun h => hn (free_prefix h)
      have hcheck : check sc (asked s done) q.key = .ok none := by
        cases hl : look sc s.subs q.key with
        | some e =>
          have hd := hc.clean q (by simp) e hl
          simp only [check, hfind, hl, Res.ok_bind, hd, Bool.false_eq_true, if_false, Res.pure_eq]
        | none =>
          have hr : ∃ p ∈ (asked s done).pending, Rival sc p.1 q.key := by
            apply Classical.byContradiction
            intro hno
            exact hn (free_snoc.2 ⟨hf, hl, fun p hp hr => hno ⟨p, hp, hr⟩⟩)
          obtain ⟨r, hr⟩ := take_some hw hq.1 hr
          simp only [check, hfind, hl, Res.ok_bind, hr, Res.pure_eq]
      have hstep : step sc (asked s done) (.subscribeAsync q.key q.handler) = .ok (asked s done, .already) := by
        simp only [step, hraw, Bool.false_eq_true, if_false, hcheck, Res.ok_bind, Res.pure_eq]
      refine ⟨false, ?_, by simp [hno]⟩
      have ho : ¬ Out.already = Out.success := by decide
      simp only [askAll, hstep, Res.ok_bind, if_neg ho, cancel_all hcd hf, Res.pure_eq]
      rfl

theorem put_pending {sc : Bool} {s s' : State} {k h r n} (hs : put sc s k h r n = .ok s') : s'.pending = s.pending := by
  unfold put at hs
  obtain ⟨f, _, hs⟩ := res_bind_ok hs
  cases hs
  rfl

theorem mem_eraseIdx {α : Type} {l : List α} {i : Nat} {a : α} (h : a ∈ l.eraseIdx i) : a ∈ l := List.mem_of_mem_eraseIdx h

theorem step_waiting {sc : Bool} {s s' : State} {op : Op} {o : Out} (hw : Waiting sc s.pending)
    (hk : ∀ k, keyOf op = some k → PlainFilter sc k.filter) (hs : step sc s op = .ok (s', o)) : Waiting sc s'.pending := by
  cases op with
  | subscribe c k h =>
    simp only [step] at hs
    split at hs
    · cases hs
    · obtain ⟨x, _, hs⟩ := res_bind_ok hs
      cases x <;> cases hs <;> exact hw
  | replied c k h r =>
    simp only [step] at hs
    split at hs
    · cases r with
      | accepted =>
        obtain ⟨x, hx, hs⟩ := res_bind_ok hs
        cases hs
        have := put_pending hx
        simpa only [this] using hw
      | noProvider =>
        obtain ⟨x, _, hs⟩ := res_bind_ok hs
        cases x <;> cases hs <;> exact hw
      | existing =>
        obtain ⟨x, hx, hs⟩ := res_bind_ok hs
        cases hs
        have := put_pending hx
        simpa only [this] using hw
      | refused => cases hs; exact hw
      | failed => cases hs; exact hw
    · cases hs
  | numbered c n =>
    simp only [step] at hs
    split at hs
    · split at hs
      · cases hs; exact hw
      · cases hs
    · cases hs
  | subscribeAsync k h =>
    simp only [step] at hs
    split at hs
    · cases hs
    · obtain ⟨x, _, hs⟩ := res_bind_ok hs
      cases x with
      | none => cases hs; exact hw
      | some x =>
        cases hs
        intro p hp
        rcases List.mem_append.1 hp with hp | hp
        · exact hw p hp
        · rw [List.mem_singleton.1 hp]
          exact hk k rfl
  | repliedAsync i k h n =>
    simp only [step] at hs
    split at hs
    · cases n with
      | none => cases hs; exact fun p hp => hw p (mem_eraseIdx hp)
      | some n =>
        obtain ⟨x, hx, hs⟩ := res_bind_ok hs
        cases hs
        have := put_pending hx
        rw [this]
        exact fun p hp => hw p (mem_eraseIdx hp)
    · cases hs
  | event k over r =>
    simp only [step] at hs
    split at hs
    · cases hs
    · obtain ⟨x, _, hs⟩ := res_bind_ok hs
      cases x with
      | none => cases hs; exact hw
      | some e =>
        simp only at hs
        split at hs
        · cases hs; exact hw
        · split at hs <;> cases hs <;> exact hw
  | unsubscribe ex k r =>
    simp only [step] at hs
    obtain ⟨x, _, hs⟩ := res_bind_ok hs
    cases x with
    | some e => cases hs; exact hw
    | none =>
      simp only at hs
      split at hs
      · cases hs; exact hw
      · obtain ⟨t, ht, hs⟩ := res_bind_ok hs
        cases t with
        | none => cases hs; exact hw
        | some t => cases hs; exact fun p hp => hw p (take_mem ht p hp)
  | «exists» k =>
    simp only [step] at hs
    split at hs
    · cases hs
    · obtain ⟨x, _, hs⟩ := res_bind_ok hs
      cases hs
      exact hw

theorem exec_waiting {sc : Bool} {h : History} {s : State} (hx : Exec (step sc) State.init h s) (hp : Plain sc h) :
    Waiting sc s.pending := by
  induction hx with
  | nil => intro p hp; cases hp
  | @snoc h s e o s' hx hs ih =>
    exact step_waiting (ih fun x hx => hp x (List.mem_append.2 (.inl hx))) (hp (e, o) (by simp)) hs

end Verif.SubscribeMany
