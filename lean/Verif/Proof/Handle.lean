import Verif.Spec.Handle

namespace Verif.Handle

open Verif

theorem getByNameLoop_eq (name : Bytes) (l : List Handle) :
    getByNameLoop name l = l.find? (fun h => h.name = name) := by
  induction l with
  | nil => rfl
  | cons h hs ih => rw [getByNameLoop, List.find?_cons]; split <;> simp_all

theorem getByNameLoop_some {name : Bytes} {l : List Handle} {h : Handle}
    (e : getByNameLoop name l = some h) : h ∈ l ∧ h.name = name := by
  rw [getByNameLoop_eq] at e
  exact ⟨List.mem_of_find?_eq_some e, by simpa using List.find?_some e⟩

theorem getByNameLoop_none {name : Bytes} {l : List Handle} :
    getByNameLoop name l = none ↔ ∀ h ∈ l, h.name ≠ name := by
  rw [getByNameLoop_eq]; simp

theorem getByNameLoop_append (name : Bytes) (l : List Handle) (x : Handle) :
    getByNameLoop name (l ++ [x]) =
      (getByNameLoop name l).or (if x.name = name then some x else none) := by
  induction l with
  | nil => simp [getByNameLoop]
  | cons h hs ih =>
    simp only [List.cons_append, getByNameLoop]
    split
    · simp
    · exact ih

theorem remove_eq (addr : Nat) (l : List Handle) :
    remove addr l = l.eraseP (fun h => h.addr = addr) := by
  induction l with
  | nil => rfl
  | cons h hs ih => rw [remove, List.eraseP_cons]; split <;> simp_all

theorem inj_of_nodup_map {α β : Type} {f : α → β} {l : List α} (h : (l.map f).Nodup) {x y : α}
    (hx : x ∈ l) (hy : y ∈ l) (e : f x = f y) : x = y := by
  induction l with
  | nil => cases hx
  | cons a l ih =>
    simp only [List.map_cons, List.nodup_cons] at h
    rcases List.mem_cons.mp hx with rfl | hx' <;> rcases List.mem_cons.mp hy with rfl | hy'
    · rfl
    · exact absurd (List.mem_map.mpr ⟨y, hy', e.symm⟩) h.1
    · exact absurd (List.mem_map.mpr ⟨x, hx', e⟩) h.1
    · exact ih h.2 hx' hy'

theorem addr_of_mem_remove {addr : Nat} {l : List Handle} (h : (l.map (·.addr)).Nodup) {z : Handle}
    (hz : z ∈ remove addr l) : z.addr ≠ addr := by
  induction l with
  | nil => cases hz
  | cons a l ih =>
    simp only [List.map_cons, List.nodup_cons] at h
    rw [remove] at hz
    split at hz
    · rename_i ha
      intro e
      exact h.1 (List.mem_map.mpr ⟨z, hz, e.trans ha.symm⟩)
    · rename_i ha
      rcases List.mem_cons.mp hz with rfl | hz
      · exact ha
      · exact ih h.2 hz

/-- Names, addresses and ids of the open handles are pairwise distinct, and new. -/
structure Inv (s : State) : Prop where
  names : (s.handles.map (·.name)).Nodup
  addrs : (s.handles.map (·.addr)).Nodup
  ids : (s.handles.map (·.id)).Nodup
  addrBound : ∀ h ∈ s.handles, h.addr < s.nextAddr
  idBound : ∀ h ∈ s.handles, 0 < h.id ∧ h.id ≤ s.lastId
  size : s.handles.length ≤ maxHandles
  nextPos : 0 < s.nextAddr

theorem inv_init : Inv init := by
  constructor <;> simp [init]

theorem remove_sublist (addr : Nat) (l : List Handle) : (remove addr l).Sublist l := by
  rw [remove_eq]; exact List.eraseP_sublist

theorem inv_sub {s s' : State} (h : Inv s) (hs : s'.handles.Sublist s.handles)
    (ha : s.nextAddr ≤ s'.nextAddr) (hi : s.lastId ≤ s'.lastId) : Inv s' where
  names := h.names.sublist (hs.map _)
  addrs := h.addrs.sublist (hs.map _)
  ids := h.ids.sublist (hs.map _)
  addrBound x hx := Nat.lt_of_lt_of_le (h.addrBound x (hs.subset hx)) ha
  idBound x hx := ⟨(h.idBound x (hs.subset hx)).1, Nat.le_trans (h.idBound x (hs.subset hx)).2 hi⟩
  size := Nat.le_trans hs.length_le h.size
  nextPos := Nat.lt_of_lt_of_le h.nextPos ha

theorem close_handles (s : State) (addr : Nat) : (close s addr).1.handles = remove addr s.handles := by
  unfold close
  split
  · rfl
  · rename_i h
    simp only [isValid, List.any_eq_true, decide_eq_true_eq, not_exists, not_and] at h
    rw [remove_eq, List.eraseP_of_forall_not]
    simpa using h

theorem close_next (s : State) (addr : Nat) : (close s addr).1.nextAddr = s.nextAddr ∧
    (close s addr).1.lastId = s.lastId := by
  unfold close; split <;> exact ⟨rfl, rfl⟩

theorem inv_close {s : State} (h : Inv s) (addr : Nat) : Inv (close s addr).1 := by
  apply inv_sub h
  · rw [close_handles]; exact remove_sublist _ _
  · rw [(close_next s addr).1]; exact Nat.le_refl _
  · rw [(close_next s addr).2]; exact Nat.le_refl _

/-- Taking away the handle at an address takes it away from its name. -/
theorem getByName_remove (addr : Nat) (l : List Handle) (hn : (l.map (·.name)).Nodup)
    (ha : (l.map (·.addr)).Nodup) (n : Bytes) :
    getByNameLoop n (remove addr l) =
      if (getByNameLoop n l).map (·.addr) = some addr then none else getByNameLoop n l := by
  induction l with
  | nil => rfl
  | cons h hs ih =>
    simp only [List.map_cons, List.nodup_cons] at hn ha
    rw [remove]
    by_cases h1 : h.addr = addr
    · rw [if_pos h1]
      by_cases h2 : h.name = n
      · simp only [getByNameLoop, h2, if_true, Option.map_some, h1]
        rw [getByNameLoop_none]
        intro x hx e
        exact hn.1 (List.mem_map.mpr ⟨x, hx, e.trans h2.symm⟩)
      · simp only [getByNameLoop, h2, if_false]
        split
        · rename_i e
          obtain ⟨y, hy, hya⟩ := Option.map_eq_some_iff.mp e
          exact absurd (List.mem_map.mpr ⟨y, (getByNameLoop_some hy).1, hya.trans h1.symm⟩) ha.1
        · rfl
    · rw [if_neg h1]
      by_cases h2 : h.name = n
      · simp [getByNameLoop, h2, h1]
      · simp only [getByNameLoop, h2, if_false]
        exact ih hn.2 ha.2

theorem getByName_remove_name {n : Bytes} {l : List Handle} {h : Handle}
    (hn : (l.map (·.name)).Nodup) (ha : (l.map (·.addr)).Nodup) (e : getByNameLoop n l = some h)
    (m : Bytes) : getByNameLoop m (remove h.addr l) = if m = n then none else getByNameLoop m l := by
  rw [getByName_remove _ _ hn ha]
  obtain ⟨hm, hnm⟩ := getByNameLoop_some e
  by_cases hmn : m = n
  · subst hmn; simp [e]
  · rw [if_neg hmn]
    split
    · rename_i e'
      obtain ⟨y, hy, hya⟩ := Option.map_eq_some_iff.mp e'
      obtain ⟨hym, hyn⟩ := getByNameLoop_some hy
      have : y = h := inj_of_nodup_map ha hym hm hya
      subst this
      exact absurd (hyn.symm.trans hnm) hmn
    · rfl

theorem exitError1_ok {s s' : State} {p : Option Handle} {o : Option Handle}
    (h : exitError1 s p = .ok (s', o)) : s' = s ∧ o = none := by
  unfold exitError1 at h
  split at h
  · cases h; exact ⟨rfl, rfl⟩
  · cases h

theorem openNew_ok {s s' : State} {name : Bytes} {env : Env} {o : Option Handle}
    (hi : Inv s) (hf : s.handles.length < maxHandles) (hno : ∀ h ∈ s.handles, h.name ≠ name)
    (h : openNew s name env = .ok (s', o)) :
    Inv s' ∧ ((o = none ∧ s'.handles = s.handles) ∨
      ∃ x, o = some x ∧ x.name = name ∧ s'.handles = s.handles ++ [x]) := by
  unfold openNew at h
  dsimp only at h
  split at h
  · cases h
    refine ⟨inv_sub hi (List.Sublist.refl _) (Nat.le_succ _) (Nat.le_refl _), Or.inl ⟨rfl, rfl⟩⟩
  · split at h
    · cases h
    · cases h
      refine ⟨?_, Or.inr ⟨_, rfl, rfl, rfl⟩⟩
      have fresh : ∀ {β} [DecidableEq β] (f : Handle → β) (x : Handle),
          (s.handles.map f).Nodup → (∀ y ∈ s.handles, f y ≠ f x) →
          ((s.handles ++ [x]).map f).Nodup := by
        intro β _ f x h1 h2
        rw [List.map_append, List.nodup_append]
        refine ⟨h1, by simp, ?_⟩
        intro a ha b hb
        simp only [List.map_cons, List.map_nil, List.mem_singleton] at hb
        obtain ⟨y, hy, rfl⟩ := List.mem_map.mp ha
        rw [hb]; exact h2 y hy
      constructor
      · exact fresh (·.name) _ hi.names hno
      · apply fresh (·.addr) _ hi.addrs
        intro y hy
        have := hi.addrBound y hy
        simp only; omega
      · apply fresh (·.id) _ hi.ids
        intro y hy
        have := hi.idBound y hy
        simp only; omega
      · intro y hy
        rcases List.mem_append.mp hy with hy | hy
        · have := hi.addrBound y hy
          simp only; omega
        · simp only [List.mem_singleton] at hy
          subst hy
          have := hi.nextPos
          simp only; omega
      · intro y hy
        rcases List.mem_append.mp hy with hy | hy
        · have := hi.idBound y hy
          simp only; omega
        · simp only [List.mem_singleton] at hy
          subst hy
          simp
      · simp only [List.length_append, List.length_singleton]; omega
      · simp

theorem openRest_ok {s s' : State} {name : Bytes} {env : Env} {p o : Option Handle}
    (hi : Inv s) (hno : ∀ h ∈ s.handles, h.name ≠ name)
    (h : openRest s name env p = .ok (s', o)) :
    Inv s' ∧ ((o = none ∧ s'.handles = s.handles) ∨
      ∃ x, o = some x ∧ x.name = name ∧ s'.handles = s.handles ++ [x]) := by
  unfold openRest at h
  split at h
  · obtain ⟨rfl, rfl⟩ := exitError1_ok h
    exact ⟨hi, Or.inl ⟨rfl, rfl⟩⟩
  · rename_i hf
    have hf : s.handles.length < maxHandles := by
      simp only [isFull, ge_iff_le, decide_eq_true_eq] at hf; omega
    split at h
    · exact openNew_ok hi hf hno h
    · split at h
      · exact openNew_ok (s := { s with connected := true })
          ⟨hi.names, hi.addrs, hi.ids, hi.addrBound, hi.idBound, hi.size, hi.nextPos⟩ hf hno h
      · obtain ⟨rfl, rfl⟩ := exitError1_ok h
        exact ⟨hi, Or.inl ⟨rfl, rfl⟩⟩

/-- The state against the specification. -/
def Holds (s : State) (f : Open) : Prop := Inv s ∧ ∀ n, getByNameLoop n s.handles = f n

theorem openHandle_holds {s s' : State} {f : Open} {name : Bytes} {env : Env} {o : Option Handle}
    (hh : Holds s f) (h : openHandle s name env = .ok (s', o)) :
    Holds s' (fun n => if n = name then o else f n) ∧ ∀ x, o = some x → x.name = name := by
  obtain ⟨hi, hf⟩ := hh
  have main : ∀ (t : State) (p : Option Handle), Inv t →
      (∀ m, getByNameLoop m t.handles = if m = name then none else f m) →
      openRest t name env p = .ok (s', o) →
      Holds s' (fun n => if n = name then o else f n) ∧ ∀ x, o = some x → x.name = name := by
    intro t p ht hm ho
    have hno : ∀ h ∈ t.handles, h.name ≠ name := getByNameLoop_none.mp (by rw [hm, if_pos rfl])
    obtain ⟨i', hcase⟩ := openRest_ok ht hno ho
    rcases hcase with ⟨rfl, e⟩ | ⟨x, rfl, hx, e⟩
    · refine ⟨⟨i', ?_⟩, by simp⟩
      intro n
      rw [e, hm]
    · refine ⟨⟨i', ?_⟩, by rintro y hy; cases hy; exact hx⟩
      intro n
      rw [e, getByNameLoop_append, hm]
      by_cases hn : n = name
      · subst hn; simp [hx]
      · have : ¬ x.name = n := fun e => hn (e.symm.trans hx)
        simp [hn, this]
  unfold openHandle at h
  split at h
  · rename_i prev hp
    apply main _ _ (inv_close hi _) _ h
    intro m
    rw [close_handles, getByName_remove_name hi.names hi.addrs hp, hf]
  · rename_i hp
    apply main _ _ hi _ h
    intro m
    by_cases hm : m = name
    · subst hm; rw [if_pos rfl]; exact hp
    · rw [if_neg hm, hf]

theorem step_holds {s s' : State} {f : Open} {op : Op} {out : Out}
    (hh : Holds s f) (h : step s op = .ok (s', out)) : Holds s' (specStep f (op, out)) := by
  cases op with
  | open_ name env =>
    simp only [step] at h
    cases ho : openHandle s name env with
    | ub => rw [ho] at h; cases h
    | fail => rw [ho] at h; cases h
    | ok r =>
      obtain ⟨t, o⟩ := r
      rw [ho, Res.ok_bind] at h
      obtain ⟨hk, hx⟩ := openHandle_holds hh ho
      cases o with
      | none => cases h; exact hk
      | some x => cases h; exact hk
  | close addr =>
    simp only [step, Res.ok.injEq, Prod.mk.injEq] at h
    obtain ⟨rfl, rfl⟩ := h
    refine ⟨inv_close hh.1 addr, ?_⟩
    intro n
    rw [close_handles, getByName_remove _ _ hh.1.names hh.1.addrs]
    have hc : (close s addr).2 = isValid s addr := by unfold close; split <;> simp_all
    rw [hc]
    by_cases hv : isValid s addr
    · rw [hv]; simp only [specStep, hh.2]
    · have hv' : isValid s addr = false := by simpa using hv
      rw [hv']
      simp only [specStep]
      rw [if_neg, hh.2]
      intro e
      obtain ⟨y, hy, hya⟩ := Option.map_eq_some_iff.mp e
      apply hv
      simp only [isValid, List.any_eq_true]
      exact ⟨y, (getByNameLoop_some hy).1, by simpa using hya⟩

theorem run_holds {s s' : State} {f : Open} {ops : List Op} {outs : List Out}
    (hh : Holds s f) (h : run s ops = .ok (s', outs)) :
    Holds s' ((ops.zip outs).foldl specStep f) := by
  induction ops generalizing s f outs with
  | nil => cases h; exact hh
  | cons op ops ih =>
    simp only [run] at h
    cases hs : step s op with
    | ub => rw [hs] at h; cases h
    | fail => rw [hs] at h; cases h
    | ok r =>
      rw [hs, Res.ok_bind] at h
      cases hr : run r.1 ops with
      | ub => rw [hr] at h; cases h
      | fail => rw [hr] at h; cases h
      | ok q =>
        rw [hr, Res.ok_bind] at h
        cases h
        rw [List.zip_cons_cons, List.foldl_cons]
        exact ih (step_holds hh hs) hr

theorem holds_init : Holds init (fun _ => none) := ⟨inv_init, fun _ => rfl⟩

theorem getByIdLoop_eq (id : Nat) (d : Option Handle) (l : List Handle) :
    getByIdLoop id d l = (l.find? (fun h => h.id = id)).or (l.getLast?.or d) := by
  induction l generalizing d with
  | nil => simp [getByIdLoop]
  | cons h hs ih =>
    rw [getByIdLoop, List.find?_cons]
    by_cases he : h.id = id
    · simp [he]
    · rw [if_neg he, ih]
      simp only [he, decide_false]
      congr 1
      cases hs with
      | nil => simp
      | cons a as => simp [List.getLast?_cons]

end Verif.Handle
