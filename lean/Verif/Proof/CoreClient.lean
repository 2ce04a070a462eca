import Verif.Spec.CoreClient
import Verif.Proof.Core
import Verif.Proof.Exec

/-! # Subscriptions made with the core library: what is put down and what was answered -/

namespace Verif.Proof.CoreClient

open Verif Verif.CoreClient Verif.Spec.CoreClient
open Verif.Proof.Core (find_append find_none_iff find_key find_erase nodup_erase find_update map_update mem_update)

/-- The callback put down for an event of an object. -/
def loc (l : List Sub) (o e : Bytes) : Option Nat := (getSub l o).bind (·.callback e)

/-- Every object and every event of an object is there once. -/
structure WF (l : List Sub) : Prop where
  objects : (l.map (·.object)).Nodup
  events : ∀ s ∈ l, (s.events.map (·.1)).Nodup

theorem getSub_mem {l : List Sub} {o : Bytes} {s : Sub} (h : getSub l o = some s) : s.object = o ∧ s ∈ l :=
  find_key (key := Sub.object) h

theorem getSub_of_mem {l : List Sub} (hn : (l.map (·.object)).Nodup) {s : Sub} (h : s ∈ l) :
    getSub l s.object = some s := by
  induction l with
  | nil => simp at h
  | cons x l ih =>
    simp only [List.map_cons, List.nodup_cons] at hn
    unfold getSub
    rcases List.mem_cons.1 h with rfl | h
    · simp
    · have hne : ¬ x.object = s.object := fun he => hn.1 (he ▸ List.mem_map_of_mem h)
      rw [List.find?_cons_of_neg (by simpa using hne)]
      exact ih hn.2 h

theorem callback_append (s : Sub) (e : Bytes) (k : Nat) (h : s.callback e = none) (e' : Bytes) :
    Sub.callback ⟨s.object, s.events ++ [(e, k)]⟩ e' = if e' = e then some k else s.callback e' := by
  have hf := find_append (key := fun y : Bytes × Nat => y.1) s.events (e, k) e'
  simp only [Sub.callback] at h ⊢
  rw [hf]
  by_cases he : e' = e
  · subst he
    have : s.events.find? (fun y => y.1 == e') = none := by simpa using h
    simp [this]
  · have he' : ¬ e = e' := fun h => he h.symm
    simp [he, he']

theorem callback_erase {s : Sub} (hn : (s.events.map (·.1)).Nodup) (e e' : Bytes) :
    Sub.callback ⟨s.object, s.events.eraseP (fun y => y.1 == e)⟩ e' = if e' = e then none else s.callback e' := by
  have := find_erase (key := fun y : Bytes × Nat => y.1) hn e e'
  simp only [Sub.callback]
  rw [this]
  split <;> rfl

theorem not_mem_of_callback {s : Sub} {e : Bytes} (h : s.callback e = none) : e ∉ s.events.map (·.1) := by
  have h1 : s.events.find? (fun y => y.1 == e) = none := by simpa [Sub.callback] using h
  exact (find_none_iff (key := fun y : Bytes × Nat => y.1) s.events e).1 h1

theorem nodup_snoc {l : List Bytes} {a : Bytes} (hn : l.Nodup) (h : a ∉ l) : (l ++ [a]).Nodup := by
  rw [List.nodup_append]
  refine ⟨hn, by simp, ?_⟩
  intro b hb c hc
  simp only [List.mem_singleton] at hc
  rintro rfl
  exact h (hc ▸ hb)

theorem getSub_update {l : List Sub} {o : Bytes} {s t : Sub} (hs : getSub l o = some s) (ht : t.object = o)
    (o' : Bytes) :
    getSub (Core.updateFirst (fun y => y.object == o) (fun _ => t) l) o' = if o' = o then some t else getSub l o' := by
  refine (find_update (key := Sub.object) l o o' (fun _ => t) (fun _ _ _ => ht)).trans ?_
  have hs' : l.find? (fun y => y.object == o) = some s := hs
  rw [hs']
  rfl

theorem wf_update {l : List Sub} {o : Bytes} {t : Sub} (hl : WF l) (ht : t.object = o)
    (hn : (t.events.map (·.1)).Nodup) : WF (Core.updateFirst (fun y => y.object == o) (fun _ => t) l) := by
  refine ⟨?_, ?_⟩
  · exact (map_update (key := Sub.object) l o (fun _ => t) (fun _ _ _ => ht)) ▸ hl.objects
  · intro x hx
    rcases mem_update (key := Sub.object) hx with hx | ⟨_, _, _, rfl⟩
    · exact hl.events x hx
    · exact hn

theorem add_spec {l : List Sub} (hl : WF l) (o e : Bytes) (k : Nat) (h : loc l o e = none) :
    WF (addSub l o e k) ∧ ∀ o' e', loc (addSub l o e k) o' e' = if o' = o ∧ e' = e then some k else loc l o' e' := by
  unfold addSub
  rcases hs : getSub l o with _ | s
  · refine ⟨⟨?_, ?_⟩, ?_⟩
    · rw [List.map_append]
      exact nodup_snoc hl.objects ((find_none_iff (key := Sub.object) l o).1 hs)
    · intro x hx
      rcases List.mem_append.1 hx with hx | hx
      · exact hl.events x hx
      · obtain rfl := List.mem_singleton.1 hx
        simp
    · intro o' e'
      have hg : getSub (l ++ [⟨o, [(e, k)]⟩]) o' = if o' = o then some ⟨o, [(e, k)]⟩ else getSub l o' := by
        refine (find_append (key := Sub.object) l ⟨o, [(e, k)]⟩ o').trans ?_
        by_cases ho : o' = o
        · subst ho
          have hs' : l.find? (fun y => y.object == o') = none := hs
          simp [hs']
        · have ho' : ¬ o = o' := fun h => ho h.symm
          simp [ho, ho', getSub]
      simp only [loc, hg]
      by_cases ho : o' = o
      · subst ho
        by_cases he : e' = e
        · simp [he, Sub.callback]
        · have he' : ¬ e = e' := fun h => he h.symm
          simp [he, he', Sub.callback, hs]
      · simp [ho]
  · have hm := getSub_mem hs
    have hc : s.callback e = none := by simpa [loc, hs] using h
    refine ⟨wf_update hl hm.1 ?_, ?_⟩
    · rw [List.map_append]
      exact nodup_snoc (hl.events s hm.2) (not_mem_of_callback hc)
    · intro o' e'
      simp only [loc, getSub_update (t := ⟨s.object, s.events ++ [(e, k)]⟩) hs hm.1]
      by_cases ho : o' = o
      · subst ho
        simp only [if_true, Option.bind_some, callback_append s e k hc, hs, true_and]
      · simp [ho]

theorem remove_spec {l : List Sub} (hl : WF l) (o e : Bytes) :
    WF (removeSub l o e) ∧ ∀ o' e', loc (removeSub l o e) o' e' = if o' = o ∧ e' = e then none else loc l o' e' := by
  unfold removeSub
  rcases hs : getSub l o with _ | s
  · refine ⟨hl, fun o' e' => ?_⟩
    by_cases h : o' = o ∧ e' = e
    · simp [h, loc, hs]
    · simp [h]
  have hm := getSub_mem hs
  have hn := hl.events s hm.2
  simp only []
  rcases hc : s.callback e with _ | k
  · refine ⟨hl, fun o' e' => ?_⟩
    by_cases h : o' = o ∧ e' = e
    · simp [h, loc, hs, hc]
    · simp [h]
  simp only []
  by_cases he : s.events.eraseP (fun y => y.1 == e) = []
  · rw [if_pos he]
    refine ⟨⟨nodup_erase (key := Sub.object) hl.objects o, fun x hx => hl.events x (List.mem_of_mem_eraseP hx)⟩, ?_⟩
    intro o' e'
    have hg : getSub (l.eraseP (fun y => y.object == o)) o' = if o' = o then none else getSub l o' :=
      find_erase (key := Sub.object) hl.objects o o'
    simp only [loc, hg]
    by_cases ho : o' = o
    · subst ho
      have := callback_erase hn e e'
      rw [he] at this
      by_cases hee : e' = e
      · simp [hee]
      · rw [if_neg hee] at this
        have h0 : s.callback e' = none := by rw [← this]; simp [Sub.callback]
        simp [hee, hs, h0]
    · simp [ho]
  · rw [if_neg he]
    refine ⟨wf_update hl hm.1 (nodup_erase (key := fun y : Bytes × Nat => y.1) hn e), ?_⟩
    intro o' e'
    simp only [loc, getSub_update (t := ⟨s.object, s.events.eraseP (fun y => y.1 == e)⟩) hs hm.1]
    by_cases ho : o' = o
    · subst ho
      simp only [if_true, Option.bind_some, callback_erase hn, hs, true_and]
    · simp [ho]

theorem deliver_some {l : List Sub} (hl : WF l) {x e : Bytes} {k : Nat} (h : deliver l x e = some k) :
    ∃ o, (o = x ∨ o = e) ∧ loc l o e = some k := by
  obtain ⟨s, hs, hk⟩ := List.exists_of_findSome?_eq_some h
  split at hk
  · rename_i ho
    exact ⟨s.object, ho, by simp [loc, getSub_of_mem hl.objects hs, hk]⟩
  · simp at hk

theorem deliver_eq {l : List Sub} (hl : WF l) {o x e : Bytes} {k : Nat} (h : loc l o e = some k) (ho : o = x ∨ o = e)
    (hu : ∀ o', (loc l o' e).isSome → o' = x ∨ o' = e → o' = o) : deliver l x e = some k := by
  rcases hd : deliver l x e with _ | k'
  · exfalso
    rcases hs : getSub l o with _ | s
    · simp [loc, hs] at h
    · have hm := getSub_mem hs
      have := List.findSome?_eq_none_iff.1 hd s hm.2
      rw [hm.1, if_pos ho] at this
      simp [loc, hs, this] at h
  · obtain ⟨o', ho', hk⟩ := deliver_some hl hd
    have := hu o' (by simp [hk]) ho'
    subst this
    rw [hk] at h
    exact h

/-! ## Histories -/

theorem has_snoc (o e : Bytes) (h : List (Event × Out)) (x : Event × Out) :
    has o e (h ++ [x]) = if names x.1 = some (o, e) then change (has o e h) x else has o e h := by
  simp only [has, List.foldl_append, List.foldl_cons, List.foldl_nil]

theorem apart_init {h : List (Event × Out)} {x : Event × Out} (ha : Apart (h ++ [x])) : Apart h := by
  intro a y b he o e
  exact ha a y (b ++ [x]) (by simp [he]) o e

/-- What is put down, and what was answered. -/
structure Inv (h : List (Event × Out)) (s : State) : Prop where
  wf : WF s.subs
  nodup : s.waiting.Nodup
  waiting : ∀ o e, (o, e) ∈ s.waiting ↔ (has o e h).2.isSome
  coming : ∀ o e k, (has o e h).2 = some k → loc s.subs o e = some k ∧ (has o e h).1 = none
  there : ∀ o e, (has o e h).2 = none → loc s.subs o e = (has o e h).1
  short : ∀ o e, (loc s.subs o e).isSome → o.length < 256
  seen : ∀ o e, (loc s.subs o e).isSome → ∃ x ∈ h, names x.1 = some (o, e)

theorem inv_init : Inv [] init :=
  ⟨⟨List.nodup_nil, by simp [init]⟩, List.nodup_nil, by simp [init, has], by simp [has], by simp [has, loc, init, getSub],
    by simp [loc, init, getSub], by simp [loc, init, getSub]⟩

/-- A step that changes nothing. -/
theorem inv_same {h : List (Event × Out)} {s : State} (hi : Inv h s) {x : Event × Out} {s' : State}
    (h1 : s'.subs = s.subs) (h2 : s'.waiting = s.waiting) (h3 : ∀ o e, has o e (h ++ [x]) = has o e h) :
    Inv (h ++ [x]) s' := by
  refine ⟨h1 ▸ hi.wf, h2 ▸ hi.nodup, ?_, ?_, ?_, ?_, ?_⟩
  · intro o e; rw [h3, h2]; exact hi.waiting o e
  · intro o e; rw [h3, h1]; exact hi.coming o e
  · intro o e; rw [h3, h1]; exact hi.there o e
  · intro o e; rw [h1]; exact hi.short o e
  · intro o e hl
    rw [h1] at hl
    obtain ⟨y, hy, hn⟩ := hi.seen o e hl
    exact ⟨y, List.mem_append_left _ hy, hn⟩

theorem begin_cases {s s' : State} {o e : Option Bytes} {k : Option Nat} {out : Out}
    (h : begin s o e k = .ok (s', out)) :
    (s' = s ∧ out ≠ .requested) ∨ ∃ o' e' k', o.or e = some o' ∧ e = some e' ∧ k = some k' ∧ o'.length < 256 ∧
      loc s.subs o' e' = none ∧ s' = ⟨addSub s.subs o' e' k', (o', e') :: s.waiting, s.listed⟩ ∧ out = .requested := by
  unfold begin Core.maxName at h
  rcases ho : o.or e with _ | o'
  · rw [ho] at h
    cases h
    exact .inl ⟨rfl, by simp⟩
  rw [ho] at h
  rcases k with _ | k'
  · cases h
    exact .inl ⟨rfl, by simp⟩
  simp only at h
  by_cases hl : 256 ≤ o'.length
  · rw [if_pos hl] at h
    cases h
    exact .inl ⟨rfl, by simp⟩
  rw [if_neg hl] at h
  rcases e with _ | e'
  · cases h
  simp only at h
  by_cases hl' : 256 ≤ e'.length
  · rw [if_pos hl'] at h
    cases h
    exact .inl ⟨rfl, by simp⟩
  rw [if_neg hl'] at h
  rcases hg : (getSub s.subs o').bind (·.callback e') with _ | q
  · rw [hg] at h
    cases h
    exact .inr ⟨o', e', k', rfl, rfl, rfl, by omega, hg, rfl, rfl⟩
  · rw [hg] at h
    cases h
    exact .inl ⟨rfl, by simp⟩

/-- A step about one event of an object. -/
theorem inv_change {h : List (Event × Out)} {s s' : State} (hi : Inv h s) {x : Event × Out} {o e : Bytes}
    (hn : names x.1 = some (o, e)) (hw : WF s'.subs) (hnd : s'.waiting.Nodup)
    (hl : ∀ o' e', ¬ (o' = o ∧ e' = e) → loc s'.subs o' e' = loc s.subs o' e')
    (hwait : ∀ o' e', ¬ (o' = o ∧ e' = e) → ((o', e') ∈ s'.waiting ↔ (o', e') ∈ s.waiting))
    (h1 : (o, e) ∈ s'.waiting ↔ (change (has o e h) x).2.isSome)
    (h2 : ∀ k, (change (has o e h) x).2 = some k → loc s'.subs o e = some k ∧ (change (has o e h) x).1 = none)
    (h3 : (change (has o e h) x).2 = none → loc s'.subs o e = (change (has o e h) x).1)
    (h4 : (loc s'.subs o e).isSome → o.length < 256) : Inv (h ++ [x]) s' := by
  have hhas : ∀ o' e', ¬ (o' = o ∧ e' = e) → has o' e' (h ++ [x]) = has o' e' h := by
    intro o' e' hc
    rw [has_snoc, hn, if_neg]
    simp only [Option.some.injEq, Prod.mk.injEq]
    rintro ⟨rfl, rfl⟩
    exact hc ⟨rfl, rfl⟩
  have hthis : has o e (h ++ [x]) = change (has o e h) x := by rw [has_snoc, if_pos hn]
  refine ⟨hw, hnd, ?_, ?_, ?_, ?_, ?_⟩
  · intro o' e'
    by_cases hc : o' = o ∧ e' = e
    · obtain ⟨rfl, rfl⟩ := hc; rw [hthis]; exact h1
    · rw [hhas _ _ hc, hwait _ _ hc]; exact hi.waiting o' e'
  · intro o' e'
    by_cases hc : o' = o ∧ e' = e
    · obtain ⟨rfl, rfl⟩ := hc; rw [hthis]; exact h2
    · rw [hhas _ _ hc, hl _ _ hc]; exact hi.coming o' e'
  · intro o' e'
    by_cases hc : o' = o ∧ e' = e
    · obtain ⟨rfl, rfl⟩ := hc; rw [hthis]; exact h3
    · rw [hhas _ _ hc, hl _ _ hc]; exact hi.there o' e'
  · intro o' e'
    by_cases hc : o' = o ∧ e' = e
    · obtain ⟨rfl, rfl⟩ := hc; exact h4
    · rw [hl _ _ hc]; exact hi.short o' e'
  · intro o' e'
    by_cases hc : o' = o ∧ e' = e
    · obtain ⟨rfl, rfl⟩ := hc
      exact fun _ => ⟨x, by simp, hn⟩
    · rw [hl _ _ hc]
      intro hq
      obtain ⟨y, hy, hny⟩ := hi.seen o' e' hq
      exact ⟨y, List.mem_append_left _ hy, hny⟩

theorem inv_step {owner : Bytes → Bytes} {h : List (Event × Out)} {s s' : State} {ev : Event} {out : Out}
    (hi : Inv h s) (ha : Apart (h ++ [(ev, out)])) (hs : step owner s ev = .ok (s', out)) :
    Inv (h ++ [(ev, out)]) s' := by
  have hap := ha h (ev, out) [] rfl
  cases ev with
  | «begin» o e k =>
    rcases begin_cases hs with ⟨rfl, hne⟩ | ⟨o', e', k', ho, he, hk, hsh, hloc, rfl, rfl⟩
    · refine inv_same hi rfl rfl fun o' e' => ?_
      rw [has_snoc]
      split
      · cases out <;> simp_all [change]
      · rfl
    · subst he
      subst hk
      obtain ⟨hw, hl⟩ := add_spec hi.wf o' e' k' hloc
      have hnm : names (.begin o (some e') (some k')) = some (o', e') := by simp [names, ho]
      have h2none : (has o' e' h).2 = none := by
        rcases hq : (has o' e' h).2 with _ | q
        · rfl
        · obtain ⟨r, hr⟩ := hap o' e' hnm (by simp [hq])
          simp at hr
      have hnw : (o', e') ∉ s.waiting := by
        rw [hi.waiting, h2none]
        simp
      refine inv_change hi (x := (.begin o (some e') (some k'), .requested)) hnm hw (List.nodup_cons.2 ⟨hnw, hi.nodup⟩)
        ?_ ?_ ?_ ?_ ?_ (fun _ => hsh)
      · intro o e hc
        rw [hl, if_neg hc]
      · intro o e hc
        simp only [List.mem_cons, Prod.mk.injEq, hc, false_or]
      · simp [change]
      · intro k hk
        simp only [change, Option.some.injEq] at hk
        subst hk
        refine ⟨by rw [hl]; simp, ?_⟩
        simp only [change]
        rw [← hi.there o' e' h2none, hloc]
      · intro hk
        simp [change] at hk
  | finish o e r =>
    simp only [step, finish] at hs
    split at hs
    · rename_i hw
      have hw : (o, e) ∈ s.waiting := by simpa using hw
      obtain ⟨k, hk⟩ := Option.isSome_iff_exists.1 ((hi.waiting o e).1 hw)
      obtain ⟨hloc, h1none⟩ := hi.coming o e k hk
      have hnot : (o, e) ∉ s.waiting.erase (o, e) := hi.nodup.not_mem_erase
      have hother : ∀ o' e', ¬ (o' = o ∧ e' = e) → ((o', e') ∈ s.waiting.erase (o, e) ↔ (o', e') ∈ s.waiting) := by
        intro o' e' hc
        exact List.mem_erase_of_ne (by simpa using hc)
      by_cases hr : r.code = .success
      · rw [if_pos hr, hr] at hs
        cases hs
        refine inv_change hi (x := (.finish o e r, .code .success)) rfl hi.wf (hi.nodup.erase _) (fun _ _ _ => rfl)
          hother ?_ ?_ ?_ (hi.short o e)
        · simp [change, hnot]
        · simp [change]
        · intro _
          simp only [change]
          rw [hloc, hk]
      · rw [if_neg hr] at hs
        cases hs
        obtain ⟨hwf, hl⟩ := remove_spec hi.wf o e
        have hch : change (has o e h) (.finish o e r, .code r.code) = ((has o e h).1, none) := by
          cases r <;> simp_all [change, Reply.code]
        refine inv_change hi (x := (.finish o e r, .code r.code)) rfl hwf (hi.nodup.erase _) ?_ hother ?_ ?_ ?_ ?_
        · intro o' e' hc
          rw [hl, if_neg hc]
        · simp [hch, hnot]
        · simp [hch]
        · intro _
          rw [hch, hl]
          simp [h1none]
        · rw [hl]
          simp
    · cases hs
      refine inv_same hi rfl rfl fun o' e' => ?_
      rw [has_snoc]
      split <;> rfl
  | unsubscribe o e r =>
    simp only [step, unsubscribe] at hs
    rcases ho : o.or e with _ | o'
    · rw [ho] at hs
      cases hs
      refine inv_same hi rfl rfl fun o' e' => ?_
      rw [has_snoc]
      simp [names, ho]
    · rw [ho] at hs
      have hnm : names (.unsubscribe o e r) = some (o', e.getD []) := by simp [names, ho]
      have h2none : (has o' (e.getD []) h).2 = none := by
        rcases hq : (has o' (e.getD []) h).2 with _ | q
        · rfl
        · obtain ⟨r, hr⟩ := hap o' (e.getD []) hnm (by simp [hq])
          simp at hr
      have hnw : (o', e.getD []) ∉ s.waiting := by
        rw [hi.waiting, h2none]
        simp
      simp only at hs
      by_cases hl : Core.maxName ≤ o'.length
      · rw [if_pos hl] at hs
        cases hs
        have hloc : loc s.subs o' (e.getD []) = none := by
          rcases hq : loc s.subs o' (e.getD []) with _ | q
          · rfl
          · have := hi.short o' (e.getD []) (by simp [hq])
            unfold Core.maxName at hl
            omega
        refine inv_change hi (x := (.unsubscribe o e r, .code .invalidParam)) hnm hi.wf hi.nodup (fun _ _ _ => rfl)
          (fun _ _ _ => Iff.rfl) ?_ ?_ ?_ (hi.short o' (e.getD []))
        · simp [change, h2none, hnw]
        · simp [change, h2none]
        · intro _
          simp [change, hloc]
      · rw [if_neg hl] at hs
        cases hs
        obtain ⟨hwf, hlo⟩ := remove_spec hi.wf o' (e.getD [])
        refine inv_change hi (x := (.unsubscribe o e r, .code r.code)) hnm hwf hi.nodup ?_ (fun _ _ _ => Iff.rfl) ?_ ?_ ?_ ?_
        · intro o'' e'' hc
          rw [hlo, if_neg hc]
        · simp [change, h2none, hnw]
        · simp [change, h2none]
        · intro _
          rw [hlo]
          simp [change]
        · rw [hlo]
          simp
  | publish x e =>
    cases hs
    exact inv_same hi rfl rfl fun o' e' => by rw [has_snoc]; simp [names]
  | forget x e =>
    cases hs
    exact inv_same hi rfl rfl fun o' e' => by rw [has_snoc]; simp [names]

theorem inv_exec {owner : Bytes → Bytes} {h : List (Event × Out)} {s : State} (hx : Exec (step owner) init h s)
    (ha : Apart h) : Inv h s := by
  induction hx with
  | nil => exact inv_init
  | snoc hx hs ih => exact inv_step (ih (apart_init ha)) ha hs

/-! ## What the providers noted -/

theorem mem_note (l : List (Bytes × Bytes)) (x e : Bytes) (added : Bool) (p : Bytes × Bytes) :
    p ∈ note l x e added ↔ (p = (x, e) ∧ added = true) ∨ (p ∈ l ∧ (p ≠ (x, e) ∨ added = true)) := by
  unfold note
  cases added
  · simp
  · by_cases hm : (x, e) ∈ l
    · by_cases hp : p = (x, e)
      · simp [hm, hp]
      · simp [hm, hp]
    · by_cases hp : p = (x, e)
      · simp [hm, hp]
      · simp [hm, hp]

theorem listed_exec {owner : Bytes → Bytes} {h : List (Event × Out)} {s : State} (hx : Exec (step owner) init h s)
    (ha : Apart h) (hk : Kept h) (ht : Tidy owner h) :
    ∀ o e, (has o e h).1.isSome → (owner o, e) ∈ s.listed := by
  induction hx with
  | nil => intro o e h; simp [has] at h
  | @snoc h s ev out s' hx hs ih =>
    have ha' := apart_init ha
    have hi := inv_exec hx ha'
    have hk' : Kept h := fun x hx => hk x (List.mem_append_left _ hx)
    have ht' : Tidy owner h := fun x hx o e hn =>
      ⟨(ht x (List.mem_append_left _ hx) o e hn).1, fun y hy => (ht x (List.mem_append_left _ hx) o e hn).2 y (List.mem_append_left _ hy)⟩
    have ih := ih ha' hk' ht'
    have hx1 : (ev, out) ∈ h ++ [(ev, out)] := by simp
    intro o e hq
    rw [has_snoc] at hq
    cases ev with
    | «begin» o1 e1 k1 =>
      have hsame : (has o e h).1.isSome := by
        split at hq
        · cases out <;> exact hq
        · exact hq
      have := ih o e hsame
      rcases begin_cases hs with ⟨rfl, _⟩ | ⟨o', e', k', _, _, _, _, _, rfl, _⟩
      · exact this
      · exact this
    | finish o1 e1 r =>
      simp only [step, finish] at hs
      split at hs
      · rename_i hw
        cases hs
        have hmono : (owner o, e) ∈ s.listed →
            (owner o, e) ∈ (if r.done then note s.listed (owner o1) e1 true else s.listed) := by
          intro hm
          split
          · rw [mem_note]; exact .inr ⟨hm, .inr rfl⟩
          · exact hm
        split at hq
        · rename_i hn
          simp only [names, Option.some.injEq, Prod.mk.injEq] at hn
          obtain ⟨rfl, rfl⟩ := hn
          cases r
          · simp only [Reply.done, if_true]
            rw [mem_note]
            exact .inl ⟨rfl, rfl⟩
          all_goals exact hmono (ih o1 e1 hq)
        · exact hmono (ih o e hq)
      · cases hs
        refine ih o e ?_
        split at hq
        · exact hq
        · exact hq
    | unsubscribe o1 e1 r =>
      simp only [step, unsubscribe] at hs
      rcases ho : o1.or e1 with _ | o'
      · rw [ho] at hs
        cases hs
        simp only [names, ho, Option.map_none, reduceCtorEq, if_false] at hq
        exact ih o e hq
      · rw [ho] at hs
        have hnm : names (.unsubscribe o1 e1 r) = some (o', e1.getD []) := by simp [names, ho]
        have hcode : ∃ c, out = .code c := by
          simp only at hs
          split at hs <;> cases hs <;> exact ⟨_, rfl⟩
        obtain ⟨c, rfl⟩ := hcode
        simp only [hnm] at hq
        split at hq
        · simp [change] at hq
        · rename_i hne
          have hm := ih o e hq
          simp only at hs
          split at hs
          · cases hs
            exact hm
          · cases hs
            simp only []
            split
            · rw [mem_note]
              refine .inr ⟨hm, .inl ?_⟩
              intro heq
              simp only [Prod.mk.injEq] at heq
              obtain ⟨h1, rfl⟩ := heq
              apply hne
              have h2none : (has o (e1.getD []) h).2 = none := by
                rcases hz : (has o (e1.getD []) h).2 with _ | q
                · rfl
                · have := (hi.coming o _ q hz).2
                  rw [this] at hq
                  simp at hq
              have hloc := hi.there o _ h2none
              obtain ⟨y, hy, hny⟩ := hi.seen o (e1.getD []) (by rw [hloc]; exact hq)
              have hy' := List.mem_append_left [((Event.unsubscribe o1 e1 r), Out.code r.code)] hy
              have hT := ht _ hx1 o' (e1.getD []) hnm
              have hTy := (ht y hy' o (e1.getD []) hny).1
              have := hT.2 y hy' o hny (by
                rcases hTy with h' | h'
                · exact .inl (h'.trans h1)
                · exact .inr h')
              rw [this]
            · exact hm
    | publish x1 e1 =>
      cases hs
      simp only [names, reduceCtorEq, if_false] at hq
      exact ih o e hq
    | forget x1 e1 => exact absurd rfl (hk _ hx1 x1 e1)

/-! ## Deciding whether calls are apart -/

/-- The call comes when no other is on its way. -/
def apartAt (a : List (Event × Out)) (x : Event × Out) : Bool :=
  match names x.1, x.1 with
  | none, _ => true
  | some _, .finish _ _ _ => true
  | some (o, e), _ => (has o e a).2.isNone

/-- All calls do. -/
def apartAll (a : List (Event × Out)) : List (Event × Out) → Bool
  | [] => true
  | x :: b => apartAt a x && apartAll (a ++ [x]) b

theorem apart_of {a : List (Event × Out)} : ∀ {b : List (Event × Out)} {p : List (Event × Out)} {x : Event × Out}
    {q : List (Event × Out)}, apartAll a b = true → b = p ++ x :: q → apartAt (a ++ p) x = true := by
  intro b
  induction b generalizing a with
  | nil => intro p x q _ h; simp at h
  | cons y b ih =>
    intro p x q h he
    simp only [apartAll, Bool.and_eq_true] at h
    cases p with
    | nil =>
      simp only [List.nil_append, List.cons.injEq] at he
      rw [← he.1, List.append_nil]
      exact h.1
    | cons z p =>
      simp only [List.cons_append, List.cons.injEq] at he
      have := ih h.2 he.2
      rw [← he.1]
      simpa using this

theorem apart_check {h : List (Event × Out)} (hc : apartAll [] h = true) : Apart h := by
  intro a x b he o e hn hs
  have := apart_of hc he
  rw [List.nil_append] at this
  unfold apartAt at this
  rw [hn] at this
  rcases hx : x.1 with _ | ⟨o', e', r⟩ | _ | _ | _
  · rw [hx] at this; simp only at this; rw [Option.isNone_iff_eq_none] at this; simp [this] at hs
  · rw [hx] at hn
    simp only [names, Option.some.injEq, Prod.mk.injEq] at hn
    exact ⟨r, by rw [hn.1, hn.2]⟩
  · rw [hx] at this; simp only at this; rw [Option.isNone_iff_eq_none] at this; simp [this] at hs
  · rw [hx] at hn; simp [names] at hn
  · rw [hx] at hn; simp [names] at hn

theorem tidy_check {owner : Bytes → Bytes} {h : List (Event × Out)}
    (hc : ∀ p ∈ h.filterMap (fun x => names x.1), (p.1 = owner p.1 ∨ p.1 = p.2) ∧
      ∀ q ∈ h.filterMap (fun x => names x.1), q.2 = p.2 → q.1 = owner p.1 ∨ q.1 = p.2 → q.1 = p.1) : Tidy owner h := by
  intro x hx o e hn
  have h1 := hc (o, e) (List.mem_filterMap.2 ⟨x, hx, hn⟩)
  refine ⟨h1.1, ?_⟩
  intro y hy o' hn' hcc
  exact h1.2 (o', e) (List.mem_filterMap.2 ⟨y, hy, hn'⟩) rfl hcc

end Verif.Proof.CoreClient
