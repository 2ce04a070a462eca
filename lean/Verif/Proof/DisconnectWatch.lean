import Verif.Spec.DisconnectWatch

/-!
# Lemmas for C112
-/

namespace Verif.DisconnectWatch

open Verif

/-- How many listeners have the number of the listener for notices. -/
def cnt : Slots → Nat
  | [] => 0
  | none :: r => cnt r
  | some y :: r => cnt r + if y.id = advisoryId then 1 else 0

theorem put_cnt {x : Slot} : ∀ {l l' : Slots}, put x l = some l' →
    cnt l' = cnt l + if x.id = advisoryId then 1 else 0 := by
  intro l
  induction l with
  | nil => intro l' h; cases h
  | cons y r ih =>
    intro l' h
    cases y with
    | none => simp only [put, Option.some.injEq] at h; subst h; simp only [cnt]
    | some y =>
      simp only [put, Option.map_eq_some_iff] at h
      obtain ⟨a, ha, rfl⟩ := h
      have := ih ha
      simp only [cnt]; omega

theorem put_mem {x : Slot} : ∀ {l l' : Slots}, put x l = some l' → ∀ y, some y ∈ l' → y = x ∨ some y ∈ l := by
  intro l
  induction l with
  | nil => intro l' h; cases h
  | cons y r ih =>
    intro l' h z hz
    cases y with
    | none => simp only [put, Option.some.injEq] at h; subst h; simp at hz ⊢; exact hz
    | some y =>
      simp only [put, Option.map_eq_some_iff] at h
      obtain ⟨a, ha, rfl⟩ := h
      simp only [List.mem_cons, Option.some.injEq] at hz ⊢
      rcases hz with rfl | hz
      · exact .inr (.inl rfl)
      · rcases ih ha z hz with h | h
        · exact .inl h
        · exact .inr (.inr h)

theorem put_some {x : Slot} : ∀ {l : Slots}, none ∈ l ↔ ∃ l', put x l = some l' := by
  intro l
  induction l with
  | nil => simp [put]
  | cons y r ih =>
    cases y with
    | none => simp [put]
    | some y =>
      simp only [List.mem_cons, reduceCtorEq, false_or, put, Option.map_eq_some_iff, ih]
      constructor
      · rintro ⟨l, h⟩; exact ⟨_, l, h, rfl⟩
      · rintro ⟨_, l, h, _⟩; exact ⟨l, h⟩

theorem drop_cnt {id : Nat} : ∀ {l l' : Slots}, drop id l = some l' →
    cnt l = cnt l' + if id = advisoryId then 1 else 0 := by
  intro l
  induction l with
  | nil => intro l' h; cases h
  | cons y r ih =>
    intro l' h
    cases y with
    | none =>
      simp only [drop, Option.map_eq_some_iff] at h
      obtain ⟨a, ha, rfl⟩ := h
      have := ih ha
      simp only [cnt]; omega
    | some y =>
      simp only [drop] at h
      split at h
      · rename_i hy
        cases h
        subst hy
        simp only [cnt]
      · simp only [Option.map_eq_some_iff] at h
        obtain ⟨a, ha, rfl⟩ := h
        have := ih ha
        simp only [cnt]; omega

theorem drop_mem {id : Nat} : ∀ {l l' : Slots}, drop id l = some l' → ∀ y, some y ∈ l' → some y ∈ l := by
  intro l
  induction l with
  | nil => intro l' h; cases h
  | cons y r ih =>
    intro l' h z hz
    cases y with
    | none =>
      simp only [drop, Option.map_eq_some_iff] at h
      obtain ⟨a, ha, rfl⟩ := h
      simp only [List.mem_cons, reduceCtorEq, false_or] at hz ⊢
      exact ih ha z hz
    | some y =>
      simp only [drop] at h
      split at h
      · cases h
        simp only [List.mem_cons, reduceCtorEq, false_or] at hz ⊢
        exact .inr hz
      · simp only [Option.map_eq_some_iff] at h
        obtain ⟨a, ha, rfl⟩ := h
        simp only [List.mem_cons] at hz ⊢
        exact hz.imp_right (ih ha z)

theorem drop_none : ∀ {l : Slots}, drop advisoryId l = none → cnt l = 0 := by
  intro l
  induction l with
  | nil => intro _; rfl
  | cons y r ih =>
    intro h
    cases y with
    | none => simp only [drop, Option.map_eq_none_iff] at h; exact ih h
    | some y =>
      simp only [drop] at h
      split at h
      · cases h
      · rename_i hy
        simp only [Option.map_eq_none_iff] at h
        simp only [cnt, ih h, hy, if_false]

theorem who_some : ∀ {l : Slots}, cnt l ≠ 0 → ∃ x, who advisoryId l = some x ∧ some x ∈ l ∧ x.id = advisoryId := by
  intro l
  induction l with
  | nil => intro h; exact (h rfl).elim
  | cons y r ih =>
    intro h
    cases y with
    | none =>
      obtain ⟨x, h1, h2, h3⟩ := ih h
      exact ⟨x, h1, List.mem_cons_of_mem _ h2, h3⟩
    | some y =>
      by_cases hy : y.id = advisoryId
      · exact ⟨y, by simp only [who, hy, if_true], by simp, hy⟩
      · simp only [cnt, hy, if_false, Nat.add_zero] at h
        obtain ⟨x, h1, h2, h3⟩ := ih h
        exact ⟨x, by simp only [who, hy, if_false, h1], List.mem_cons_of_mem _ h2, h3⟩

/-- What holds in every state while nobody else takes the number. -/
structure Inv (s : State) : Prop where
  count : s.count = s.directs.length
  empty : s.directs = [] → s.installed = false
  one : cnt s.slots = if s.routed then 1 else 0
  own : ∀ x, some x ∈ s.slots → x.id = advisoryId → x.advisory = true
  routed : s.routed = true → s.installed = true ∧ s.callback = true ∧ s.directs ≠ [] ∧ s.mains ≠ []

theorem cnt_noSlots : cnt noSlots = 0 := by decide +kernel
theorem own_noSlots : ∀ x : Slot, some x ∉ noSlots := by
  intro x h
  simp [noSlots] at h

theorem first_slots : ∃ l, put ⟨1, false⟩ noSlots = some l ∧ cnt l = 0 ∧ drop advisoryId l = none ∧
    ∀ x, some x ∈ l → x.id ≠ advisoryId := by
  obtain ⟨l, hl⟩ := (put_some (x := ⟨1, false⟩) (l := noSlots)).mp (by simp [noSlots])
  have hc : cnt l = 0 := by have := put_cnt hl; rw [cnt_noSlots] at this; simpa [advisoryId] using this
  refine ⟨l, hl, hc, ?_, ?_⟩
  · cases hd : drop advisoryId l with
    | none => rfl
    | some r => have := drop_cnt hd; simp at this; omega
  · intro x hx hi
    rcases put_mem hl x hx with rfl | h
    · exact absurd hi (by decide)
    · exact own_noSlots x h

theorem Inv.init : Inv init :=
  ⟨rfl, fun _ => rfl, by simp [DisconnectWatch.init, cnt_noSlots],
    fun x h => absurd h (own_noSlots x), fun h => by cases h⟩

theorem Inv.closed {s : State} (I : Inv s) (hm : s.mains = []) : s.routed = false := by
  cases h : s.routed with
  | false => rfl
  | true => exact absurd hm (I.routed h).2.2.2

/-- One step: the invariant is kept, and it is said when the router has been asked for notices. -/
theorem Inv.step {s s' : State} {e : Event} {o : Out} (I : Inv s) (ha : e ≠ .listen advisoryId)
    (h : step s e = .ok (s', o)) : Inv s' ∧
      (s'.routed = true ↔ Engaged s' ∧ (s.routed = true ∨
        (∃ d m, e = .openDirect d m true) ∧ s.directs = [] ∧ none ∈ s.slots)) := by
  have same : ∀ {t : State}, Inv t → t.routed = s.routed → (∀ d m, e ≠ .openDirect d m true) → Inv t ∧
      (t.routed = true ↔ Engaged t ∧ (s.routed = true ∨
        (∃ d m, e = .openDirect d m true) ∧ s.directs = [] ∧ none ∈ s.slots)) := by
    intro t It hr hn
    refine ⟨It, fun ht => ⟨(It.routed ht).2.2, .inl (hr ▸ ht)⟩, ?_⟩
    rintro ⟨-, h | ⟨⟨d, m, h⟩, -⟩⟩
    · exact hr ▸ h
    · exact absurd h (hn d m)
  cases e with
  | openBus m =>
    simp only [DisconnectWatch.step] at h
    split at h
    · cases h
    cases h
    refine same ?_ ?_ (by simp)
    · by_cases hm : s.mains = []
      · obtain ⟨l, h1, h2, h3, h4⟩ := first_slots
        have hr := I.closed hm
        refine ⟨?_, ?_, ?_, ?_, ?_⟩
        · simpa [connect, hm] using I.count
        · simpa [connect, hm] using I.empty
        · simp [connect, hm, h1, h2, hr]
        · intro x hx hi
          simp [connect, hm, h1] at hx
          exact absurd hi (h4 x hx)
        · simp [connect, hm, hr]
      · refine ⟨?_, ?_, ?_, ?_, ?_⟩
        · simpa [connect, hm] using I.count
        · simpa [connect, hm] using I.empty
        · simpa [connect, hm] using I.one
        · simpa [connect, hm] using I.own
        · intro hr
          simp only [connect, hm, if_false] at hr ⊢
          exact ⟨(I.routed hr).1, (I.routed hr).2.1, (I.routed hr).2.2.1, by simp⟩
    · by_cases hm : s.mains = [] <;> simp [connect, hm]
  | openFails =>
    simp only [DisconnectWatch.step, Res.ok.injEq, Prod.mk.injEq] at h
    obtain ⟨rfl, -⟩ := h
    by_cases hm : s.mains = []
    · obtain ⟨l, h1, h2, h3, h4⟩ := first_slots
      have hr := I.closed hm
      simp only [hm, if_true]
      refine same ⟨?_, ?_, ?_, ?_, ?_⟩ ?_ (by simp)
      · by_cases hi : s.installed = true <;>
          simpa [disconnect, unregisterHandler, connect, hm, h1, hi, h3] using I.count
      · intro hd
        have : s.installed = false := by
          refine I.empty ?_
          by_cases hi : s.installed = true <;>
            simpa [disconnect, unregisterHandler, connect, hm, h1, hi, h3] using hd
        simp [disconnect, unregisterHandler, connect, hm, h1, this]
      · simp [disconnect, cnt_noSlots]
      · intro x hx
        simp only [disconnect] at hx
        exact absurd hx (own_noSlots x)
      · simp [disconnect]
      · simp [disconnect, hr]
    · simp only [hm, if_false]
      exact same I rfl (by simp)
  | closeBus m =>
    simp only [DisconnectWatch.step, closeBus] at h
    split at h
    · simp only [Res.ok.injEq, Prod.mk.injEq] at h
      obtain ⟨rfl, -⟩ := h
      split
      · rename_i hm
        refine ⟨⟨I.count, I.empty, by simp [disconnect, cnt_noSlots],
          fun x hx => absurd hx (own_noSlots x), by simp [disconnect]⟩, ?_⟩
        constructor
        · intro h; cases h
        · rintro ⟨⟨-, h⟩, -⟩; exact absurd hm h
      · rename_i hm
        exact same ⟨I.count, I.empty, I.one, I.own, fun hr =>
          ⟨(I.routed hr).1, (I.routed hr).2.1, (I.routed hr).2.2.1, hm⟩⟩ rfl (by simp)
    · cases h
  | register m =>
    simp only [DisconnectWatch.step] at h
    split at h
    · cases h; exact same I rfl (by simp)
    · cases h
  | listen id =>
    simp only [DisconnectWatch.step] at h
    have hid : id ≠ advisoryId := fun h => ha (by rw [h])
    split at h
    · cases h
    split at h
    · cases h; exact same I rfl (by simp)
    · rename_i l hl
      cases h
      refine same ⟨I.count, I.empty, ?_, ?_, I.routed⟩ rfl (by simp)
      · have := put_cnt hl
        simp only [hid, if_false, Nat.add_zero] at this
        rw [this]; exact I.one
      · intro x hx hi
        rcases put_mem hl x hx with rfl | h
        · exact absurd hi hid
        · exact I.own x h hi
  | unlisten id =>
    simp only [DisconnectWatch.step] at h
    split at h
    · rename_i hmem
      have hid : id ≠ advisoryId := by
        intro hi
        have := I.own _ hmem hi
        cases this
      split at h
      · cases h
      · rename_i l hl
        cases h
        refine same ⟨I.count, I.empty, ?_, ?_, I.routed⟩ rfl (by simp)
        · have := drop_cnt hl
          simp only [hid, if_false, Nat.add_zero] at this
          rw [← this]; exact I.one
        · intro x hx hi
          exact I.own x (drop_mem hl x hx) hi
    · cases h
  | notice n =>
    simp only [DisconnectWatch.step] at h
    obtain ⟨o', -, h⟩ := res_bind_ok h
    cases h
    exact same I rfl (by simp)
  | openDirect d m made =>
    simp only [DisconnectWatch.step, openDirect] at h
    split at h
    · cases h
    split at h
    · cases h
    rename_i hm
    have hm : s.mains ≠ [] := by
      intro h0; rw [h0] at hm; simp at hm
    cases made with
    | false => simp at h; obtain ⟨rfl, -⟩ := h; exact same I rfl (by simp)
    | true =>
      simp only [if_true, Res.ok.injEq, Prod.mk.injEq] at h
      obtain ⟨rfl, -⟩ := h
      by_cases hd : s.directs = []
      · have hc : s.count = 0 := by rw [I.count, hd]; rfl
        have hi := I.empty hd
        have hr : s.routed = false := by
          cases h : s.routed with
          | false => rfl
          | true => exact absurd hd (I.routed h).2.2.1
        simp only [hc, if_true, registerHandler, hi, Bool.false_eq_true, if_false]
        cases hp : put ⟨advisoryId, true⟩ s.slots with
        | none =>
          have hn : none ∉ s.slots := by
            intro h
            obtain ⟨l, hl⟩ := (put_some (x := ⟨advisoryId, true⟩)).mp h
            rw [hp] at hl; cases hl
          refine ⟨⟨by simp [hd, hc], by simp, by simpa using I.one, by simpa using I.own, by simp [hr]⟩, ?_⟩
          simp [hr, hn]
        | some l =>
          have hn : none ∈ s.slots := (put_some (x := ⟨advisoryId, true⟩)).mpr ⟨l, hp⟩
          have h1 := put_cnt hp
          have h0 := I.one
          rw [hr] at h0
          refine ⟨⟨by simp [hd, hc], by simp, by simp [h1, h0], ?_, by simp [hm]⟩, ?_⟩
          · intro x hx hi
            rcases put_mem hp x hx with rfl | h
            · rfl
            · exact I.own x h hi
          · simp [Engaged, hm, hd, hn]
      · have hc : s.count ≠ 0 := by
          rw [I.count]; intro h; exact hd (List.eq_nil_of_length_eq_zero h)
        simp only [hc, if_false]
        refine ⟨⟨by simp [I.count], by simp, I.one, I.own, fun hr =>
          ⟨(I.routed hr).1, (I.routed hr).2.1, by simp, hm⟩⟩, ?_⟩
        simp [Engaged, hm, hd]
  | closeDirect d =>
    simp only [DisconnectWatch.step, closeDirect] at h
    split at h
    · cases h
    rename_i x hx
    split at h
    · rename_i hp
      have hmem := List.mem_of_find?_eq_some hx
      have hm : s.mains ≠ [] := by
        intro h0; rw [h0] at hp; simp at hp
      have hlen := List.length_erase_of_mem hmem
      simp only [Res.ok.injEq, Prod.mk.injEq] at h
      obtain ⟨rfl, -⟩ := h
      by_cases hc : s.count = 1
      · have hl : s.directs.length = 1 := by rw [← I.count]; exact hc
        have he : s.directs.erase x = [] := List.eq_nil_of_length_eq_zero (by omega)
        simp only [hc, if_true]
        by_cases hi : s.installed = true
        · cases hdr : drop advisoryId s.slots with
          | none =>
            have h0 := drop_none hdr
            have h1 := I.one
            have hr : s.routed = false := by
              cases h : s.routed with
              | false => rfl
              | true => rw [h] at h1; simp at h1; omega
            rw [hr] at h1
            simp only [unregisterHandler, hi, hdr, if_true]
            refine ⟨⟨by simp [he, hc], by simp, by simp [h0, hr], I.own, by simp [hr]⟩, ?_⟩
            simp [Engaged, he, hr]
          | some l =>
            have h0 := drop_cnt hdr
            have h1 := I.one
            simp only [if_true] at h0
            have hl0 : cnt l = 0 := by split at h1 <;> omega
            simp only [unregisterHandler, hi, hdr, if_true]
            refine ⟨⟨by simp [he, hc], by simp, by simp [hl0], fun y hy => I.own y (drop_mem hdr y hy), by simp⟩, ?_⟩
            simp [Engaged, he]
        · have hr : s.routed = false := by
            cases h : s.routed with
            | false => rfl
            | true => exact absurd (I.routed h).1 hi
          have hi : s.installed = false := by simpa using hi
          simp only [unregisterHandler, hi, Bool.false_eq_true, if_false]
          refine ⟨⟨by simp [he, hc], fun _ => rfl, I.one, I.own, by simp [hr]⟩, ?_⟩
          simp [Engaged, he, hr]
      · have hne : s.directs.erase x ≠ [] := by
          intro h0
          rw [h0] at hlen
          have := List.length_pos_of_mem hmem
          have := I.count
          simp at hlen; omega
        simp only [hc, if_false]
        refine same ⟨?_, fun h => absurd h hne, I.one, I.own, fun hr =>
          ⟨(I.routed hr).1, (I.routed hr).2.1, hne, hm⟩⟩ rfl (by simp)
        simp only [hlen, I.count]
    · cases h

theorem Exec.inv {h : History} {s : State} (hx : Exec step init h s) (ha : Apart h) : Inv s := by
  induction hx with
  | nil => exact Inv.init
  | @snoc h s e o s' hx hs ih =>
    exact ((ih fun x hm => ha x (List.mem_append_left _ hm)).step (ha (e, o) (by simp)) hs).1

theorem exec_inv_snoc {h : History} {e : Event} {o : Out} {s : State} (hx : Exec step init (h ++ [(e, o)]) s) :
    ∃ t, Exec step init h t ∧ step t e = .ok (s, o) := by
  generalize hg : h ++ [(e, o)] = g at hx
  cases hx with
  | nil => simp at hg
  | snoc hx hs =>
    have h1 := List.append_inj_left' hg rfl
    have h2 := List.append_inj_right' hg rfl
    subst h1; cases h2
    exact ⟨_, hx, hs⟩

theorem exec_det {h : History} {s t : State} (hs : Exec step init h s) (ht : Exec step init h t) : s = t := by
  induction hs generalizing t with
  | nil =>
    generalize hg : ([] : History) = g at ht
    cases ht with
    | nil => rfl
    | snoc => simp at hg
  | snoc _ hst ih =>
    obtain ⟨u, hu, hst'⟩ := exec_inv_snoc ht
    rw [ih hu, hst'] at hst
    cases hst
    rfl

theorem watching_snoc {h : History} {s s' : State} {e : Event} {o : Out} (hx : Exec step init h s)
    (hs : step s e = .ok (s', o)) : Watching (h ++ [(e, o)]) ↔ Engaged s' ∧ (Watching h ∨
      (∃ d m, e = .openDirect d m true) ∧ s.directs = [] ∧ none ∈ s.slots) := by
  constructor
  · rintro ⟨h₁, d, m, o', h₂, t, hh, ht, h3, h4, h5⟩
    have hx' := Exec.snoc hx hs
    rcases List.eq_nil_or_concat h₂ with rfl | ⟨k, x, rfl⟩
    · have e1 := List.append_inj_left' hh rfl
      have e2 := List.append_inj_right' hh rfl
      subst e1; cases e2
      have := exec_det hx ht
      subst this
      exact ⟨h5 [] s' (List.prefix_refl _) hx', .inr ⟨⟨d, m, rfl⟩, h3, h4⟩⟩
    · rw [List.concat_eq_append] at hh h5
      rw [show h₁ ++ (Event.openDirect d m true, o') :: (k ++ [x]) =
        (h₁ ++ (Event.openDirect d m true, o') :: k) ++ [x] by simp] at hh
      have e1 := List.append_inj_left' hh rfl
      have e2 := List.append_inj_right' hh rfl
      subst e1; cases e2
      refine ⟨h5 _ s' (List.prefix_refl _) (by simpa using hx'), .inl ⟨h₁, d, m, o', k, t, rfl, ht, h3, h4, ?_⟩⟩
      intro k' u hk hu
      exact h5 k' u (hk.trans (List.prefix_append _ _)) hu
  · rintro ⟨hE, ⟨h₁, d, m, o', h₂, t, rfl, ht, h3, h4, h5⟩ | ⟨⟨d, m, rfl⟩, h3, h4⟩⟩
    · refine ⟨h₁, d, m, o', h₂ ++ [(e, o)], t, by simp, ht, h3, h4, ?_⟩
      intro k u hk hu
      rcases List.prefix_concat_iff.mp hk with rfl | hk
      · have := exec_det (Exec.snoc hx hs) (by simpa using hu)
        exact this ▸ hE
      · exact h5 k u hk hu
    · refine ⟨h, d, m, o, [], s, rfl, hx, h3, h4, ?_⟩
      intro k u hk hu
      have hk := List.prefix_nil.mp hk
      subst hk
      exact exec_det (Exec.snoc hx hs) hu ▸ hE

theorem routed_iff {h : History} {s : State} (hx : Exec step init h s) (ha : Apart h) :
    s.routed = true ↔ Watching h := by
  induction hx with
  | nil =>
    constructor
    · intro h; cases h
    · rintro ⟨h₁, d, m, o, h₂, t, hh, -⟩
      simp at hh
  | @snoc h s e o s' hx hs ih =>
    have ha' : Apart h := fun x hm => ha x (List.mem_append_left _ hm)
    rw [watching_snoc hx hs, ← ih ha']
    exact ((Exec.inv hx ha').step (ha (e, o) (by simp)) hs).2

theorem told_of_routed {s : State} (I : Inv s) (hr : s.routed = true) : Told s := by
  intro inbox
  have h1 := I.one
  rw [hr] at h1
  obtain ⟨x, w1, w2, w3⟩ := who_some (l := s.slots) (by simp at h1; omega)
  have hc := (I.routed hr).2.1
  simp [step, deliver, hr, w1, I.own x w2 w3, advisoryCallback, Notice.gone, hc]

theorem deaf_of_not {s : State} (hr : s.routed = false) : Deaf s := by
  intro inbox
  simp [step, deliver, hr]

/-- Without a direct handle nothing is ever listened for, whatever numbers others use. -/
theorem never {h : History} {s : State} (hx : Exec step init h s)
    (hn : ∀ x ∈ h, ∀ d m, x.1 ≠ Event.openDirect d m true) :
    s.routed = false ∧ s.directs = [] ∧ s.installed = false := by
  induction hx with
  | nil => exact ⟨rfl, rfl, rfl⟩
  | @snoc h s e o s' hx hs ih =>
    obtain ⟨i1, i2, i3⟩ := ih fun x hm => hn x (List.mem_append_left _ hm)
    have he := hn (e, o) (by simp)
    cases e with
    | openBus m =>
      simp only [step] at hs
      split at hs
      · cases hs
      · cases hs
        by_cases hm : s.mains = [] <;> simp [connect, hm, i1, i2, i3]
    | openFails =>
      simp only [step, Res.ok.injEq, Prod.mk.injEq] at hs
      obtain ⟨rfl, -⟩ := hs
      by_cases hm : s.mains = [] <;> simp [disconnect, unregisterHandler, connect, hm, i1, i2, i3]
    | closeBus m =>
      simp only [step, closeBus] at hs
      split at hs
      · simp only [Res.ok.injEq, Prod.mk.injEq] at hs
        obtain ⟨rfl, -⟩ := hs
        split <;> simp [disconnect, i1, i2, i3]
      · cases hs
    | register m =>
      simp only [step] at hs
      split at hs
      · cases hs; exact ⟨i1, i2, i3⟩
      · cases hs
    | listen id =>
      simp only [step] at hs
      split at hs
      · cases hs
      split at hs <;> cases hs <;> exact ⟨i1, i2, i3⟩
    | unlisten id =>
      simp only [step] at hs
      split at hs
      · split at hs
        · cases hs
        · cases hs; exact ⟨i1, i2, i3⟩
      · cases hs
    | notice n =>
      simp only [step] at hs
      obtain ⟨o', -, hs⟩ := res_bind_ok hs
      cases hs
      exact ⟨i1, i2, i3⟩
    | openDirect d m made =>
      cases made with
      | true => exact absurd rfl (he d m)
      | false =>
        simp only [step, openDirect] at hs
        split at hs
        · cases hs
        split at hs
        · cases hs
        · simp at hs; obtain ⟨rfl, -⟩ := hs; exact ⟨i1, i2, i3⟩
    | closeDirect d =>
      simp [step, closeDirect, i2] at hs

/-- A direct handle whose handle has been closed stays, and its handle's number is not used again. -/
theorem orphan_step {s s' : State} {e : Event} {o : Out} {x : Nat × Nat} (hx : x ∈ s.directs) (hm : x.2 ∉ s.mains)
    (hs : step s e = .ok (s', o)) : x ∈ s'.directs ∧ x.2 ∉ s'.mains := by
  cases e with
  | openBus m =>
    simp only [step] at hs
    split at hs
    · cases hs
    · rename_i hn
      cases hs
      have : x.2 ≠ m := by
        rintro rfl
        exact hn (.inr (List.mem_map_of_mem hx))
      refine ⟨?_, by simp [hm, this]⟩
      by_cases h0 : s.mains = [] <;> simpa [connect, h0] using hx
  | openFails =>
    simp only [step, Res.ok.injEq, Prod.mk.injEq] at hs
    obtain ⟨rfl, -⟩ := hs
    by_cases h0 : s.mains = []
    · by_cases hi : s.installed = true
      · simp only [h0, if_true, disconnect, unregisterHandler, connect, hi]
        split <;> exact ⟨hx, by simp [h0]⟩
      · simp only [h0, if_true, disconnect, unregisterHandler, connect, hi]
        exact ⟨hx, by simp [h0]⟩
    · simp only [h0, if_false]; exact ⟨hx, hm⟩
  | closeBus m =>
    simp only [step, closeBus] at hs
    split at hs
    · simp only [Res.ok.injEq, Prod.mk.injEq] at hs
      obtain ⟨rfl, -⟩ := hs
      split
      · exact ⟨hx, fun h => hm (List.mem_filter.mp h).1⟩
      · exact ⟨hx, fun h => hm (List.mem_filter.mp h).1⟩
    · cases hs
  | register m =>
    simp only [step] at hs
    split at hs
    · cases hs; exact ⟨hx, hm⟩
    · cases hs
  | listen id =>
    simp only [step] at hs
    split at hs
    · cases hs
    split at hs <;> cases hs <;> exact ⟨hx, hm⟩
  | unlisten id =>
    simp only [step] at hs
    split at hs
    · split at hs
      · cases hs
      · cases hs; exact ⟨hx, hm⟩
    · cases hs
  | notice n =>
    simp only [step] at hs
    obtain ⟨o', -, hs⟩ := res_bind_ok hs
    cases hs
    exact ⟨hx, hm⟩
  | openDirect d m made =>
    simp only [step, openDirect] at hs
    split at hs
    · cases hs
    split at hs
    · cases hs
    cases made with
    | false => simp at hs; obtain ⟨rfl, -⟩ := hs; exact ⟨hx, hm⟩
    | true =>
      simp only [if_true, Res.ok.injEq, Prod.mk.injEq] at hs
      obtain ⟨rfl, -⟩ := hs
      split
      · simp only [registerHandler]
        split
        · exact ⟨List.mem_append_left _ hx, hm⟩
        · split <;> exact ⟨List.mem_append_left _ hx, hm⟩
      · exact ⟨List.mem_append_left _ hx, hm⟩
  | closeDirect d =>
    simp only [step, closeDirect] at hs
    split at hs
    · cases hs
    rename_i y hy
    split at hs
    · rename_i hp
      have hne : x ≠ y := by rintro rfl; exact hm hp
      have hmem : x ∈ s.directs.erase y := (List.mem_erase_of_ne hne).mpr hx
      simp only [Res.ok.injEq, Prod.mk.injEq] at hs
      obtain ⟨rfl, -⟩ := hs
      split
      · simp only [unregisterHandler]
        split
        · split <;> exact ⟨hmem, hm⟩
        · exact ⟨hmem, hm⟩
      · exact ⟨hmem, hm⟩
    · cases hs

/-- Once no handle is open and a direct handle is, nothing is listened for any more. -/
theorem never_again {h h' : History} {s s' : State} (hx : Exec step init h s) (hm : s.mains = [])
    (hd : s.directs ≠ []) (hx' : Exec step init (h ++ h') s') (ha : Apart (h ++ h')) :
    s'.routed = false := by
  obtain ⟨x, hxm⟩ := List.exists_mem_of_ne_nil _ hd
  have key : ∀ (k : History) (u : State), Exec step init (h ++ k) u → Apart (h ++ k) →
      u.routed = false ∧ x ∈ u.directs ∧ x.2 ∉ u.mains := by
    intro k
    generalize hn : k.length = n
    induction n generalizing k with
    | zero =>
      intro u hu ha
      have := List.eq_nil_of_length_eq_zero hn
      subst this
      rw [List.append_nil] at hu ha
      have := exec_det hx hu
      subst this
      exact ⟨(Exec.inv hx ha).closed hm, hxm, by simp [hm]⟩
    | succ n ih =>
      intro u hu ha
      rcases List.eq_nil_or_concat k with rfl | ⟨k', y, rfl⟩
      · simp at hn
      · rw [List.concat_eq_append, ← List.append_assoc] at hu ha
        obtain ⟨e, o⟩ := y
        obtain ⟨t, ht, hst⟩ := exec_inv_snoc hu
        have ha' : Apart (h ++ k') := fun z hz => ha z (List.mem_append_left _ hz)
        obtain ⟨i1, i2, i3⟩ := ih k' (by simpa using hn) t ht ha'
        refine ⟨?_, orphan_step i2 i3 hst⟩
        have := ((Exec.inv ht ha').step (ha (e, o) (by simp)) hst).2
        cases hr : u.routed with
        | false => rfl
        | true =>
          rcases (this.mp hr).2 with h | ⟨-, h, -⟩
          · rw [i1] at h; cases h
          · rw [h] at i2; cases i2
  exact (key h' s' hx' ha).1

end Verif.DisconnectWatch
