import Verif.Spec.Core

/-! # The lists of the core library and the sheet -/

namespace Verif.Proof.Core

open Verif Verif.Core Verif.Spec.Core

section Keyed

variable {α : Type} {key : α → Bytes}

theorem find_append (l : List α) (x : α) (k : Bytes) :
    (l ++ [x]).find? (fun y => key y == k) =
      ((l.find? (fun y => key y == k)).or (if key x = k then some x else none)) := by
  rw [List.find?_append]
  congr 1
  by_cases h : key x = k <;> simp [h]

theorem find_none_iff (l : List α) (k : Bytes) :
    l.find? (fun y => key y == k) = none ↔ k ∉ l.map key := by
  simp [List.find?_eq_none]

theorem find_key {l : List α} {k : Bytes} {x : α} (h : l.find? (fun y => key y == k) = some x) :
    key x = k ∧ x ∈ l := by
  have h1 := List.find?_some (p := fun y => key y == k) h
  exact ⟨by simpa using h1, List.mem_of_find?_eq_some h⟩

theorem find_erase {l : List α} (hn : (l.map key).Nodup) (a k : Bytes) :
    (l.eraseP (fun y => key y == a)).find? (fun y => key y == k) =
      if k = a then none else l.find? (fun y => key y == k) := by
  induction l with
  | nil => simp
  | cons x l ih =>
    simp only [List.map_cons, List.nodup_cons] at hn
    by_cases hx : key x = a
    · rw [List.eraseP_cons_of_pos (by simpa using hx)]
      by_cases hk : k = a
      · rw [if_pos hk, find_none_iff, hk, ← hx]
        exact hn.1
      · rw [if_neg hk, List.find?_cons_of_neg (by simp [hx]; exact fun h => hk h.symm)]
    · rw [List.eraseP_cons_of_neg (by simpa using hx)]
      by_cases hxk : key x = k
      · rw [List.find?_cons_of_pos (by simpa using hxk), List.find?_cons_of_pos (by simpa using hxk),
          if_neg (by intro h; exact hx (hxk.trans h))]
      · rw [List.find?_cons_of_neg (by simpa using hxk), List.find?_cons_of_neg (by simpa using hxk), ih hn.2]

theorem nodup_erase {l : List α} (hn : (l.map key).Nodup) (a : Bytes) :
    ((l.eraseP (fun y => key y == a)).map key).Nodup :=
  hn.sublist ((List.eraseP_sublist).map key)

theorem length_erase {l : List α} {a : Bytes} {x : α} (h : l.find? (fun y => key y == a) = some x) :
    (l.eraseP (fun y => key y == a)).length = l.length - 1 := by
  have := find_key h
  exact List.length_eraseP_of_mem this.2 (by simp [this.1])

theorem find_update (l : List α) (a k : Bytes) (g : α → α) (hg : ∀ x ∈ l, key x = a → key (g x) = a) :
    (updateFirst (fun y => key y == a) g l).find? (fun y => key y == k) =
      if k = a then (l.find? (fun y => key y == a)).map g else l.find? (fun y => key y == k) := by
  induction l with
  | nil => simp [updateFirst]
  | cons x l ih =>
    by_cases hx : key x = a
    · have hgx := hg x (by simp) hx
      simp only [updateFirst, hx, beq_self_eq_true, if_true]
      by_cases hk : k = a
      · subst hk
        simp [hx, hgx]
      · rw [if_neg hk, List.find?_cons_of_neg (by simp [hgx]; exact fun h => hk h.symm),
          List.find?_cons_of_neg (by simp [hx]; exact fun h => hk h.symm)]
    · have hb : (key x == a) = false := by simpa using hx
      simp only [updateFirst, hb, Bool.false_eq_true, if_false]
      have ih := ih (fun y hy => hg y (List.mem_cons_of_mem _ hy))
      by_cases hxk : key x = k
      · have hka : ¬ k = a := fun h => hx (hxk.trans h)
        rw [if_neg hka]
        simp [hxk]
      · have hb' : (key x == k) = false := by simpa using hxk
        simp only [List.find?_cons, hb', hb, ih]

theorem map_update (l : List α) (a : Bytes) (g : α → α) (hg : ∀ x ∈ l, key x = a → key (g x) = a) :
    (updateFirst (fun y => key y == a) g l).map key = l.map key := by
  induction l with
  | nil => rfl
  | cons x l ih =>
    by_cases hx : key x = a
    · simp [updateFirst, hx, hg x (by simp) hx]
    · simp [updateFirst, hx, ih (fun y hy => hg y (List.mem_cons_of_mem _ hy))]

theorem mem_update {l : List α} {a : Bytes} {g : α → α} {y : α}
    (h : y ∈ updateFirst (fun y => key y == a) g l) : y ∈ l ∨ ∃ x ∈ l, key x = a ∧ y = g x := by
  induction l with
  | nil => simp [updateFirst] at h
  | cons x l ih =>
    by_cases hx : key x = a
    · simp only [updateFirst, hx, beq_self_eq_true, if_true, List.mem_cons] at h
      rcases h with h | h
      · exact .inr ⟨x, by simp, hx, h⟩
      · exact .inl (by simp [h])
    · have hb : (key x == a) = false := by simpa using hx
      simp only [updateFirst, hb, Bool.false_eq_true, if_false, List.mem_cons] at h
      rcases h with h | h
      · exact .inl (by simp [h])
      · rcases ih h with h | ⟨z, hz, h⟩
        · exact .inl (by simp [h])
        · exact .inr ⟨z, by simp [hz], h⟩

end Keyed

/-- The callback of the program a method has. -/
def userOf : Option Callback → Option Nat
  | some (.user k) => some k
  | _ => none

/-- An object in order. -/
structure Good (x : Obj) : Prop where
  methods : (x.methods.map (·.1)).Nodup
  events : (x.events.map (·.name)).Nodup
  listeners : ∀ v ∈ x.events, v.listeners.Nodup
  reserved : ∀ m, Reserved m → x.method m = if x.flag then some .subscription else none
  user : ∀ m, ¬ Reserved m → x.method m ≠ some .subscription

/-- What the sheet says of an object that is there. -/
structure Says (S : Sheet) (o : Bytes) (x : Obj) : Prop where
  handler : S.handler o = some x.handler
  method : ∀ m, S.method o m = userOf (x.method m)
  count : S.count o = x.methods.length
  enabled : S.enabled o = x.flag
  event : ∀ e, S.event o e = (x.event e).map (·.told)
  listeners : ∀ e, S.listeners o e = ((x.event e).map (·.listeners)).getD []
  decider : S.decider o = x.decider

/-- What it says of one that is not. -/
structure Silent (S : Sheet) (o : Bytes) : Prop where
  handler : S.handler o = none
  method : ∀ m, S.method o m = none
  count : S.count o = 0
  enabled : S.enabled o = false
  event : ∀ e, S.event o e = none
  listeners : ∀ e, S.listeners o e = []
  decider : S.decider o = none

/-- Two sheets say the same of an object. -/
def SameAt (S S' : Sheet) (o : Bytes) : Prop :=
  S'.handler o = S.handler o ∧ S'.method o = S.method o ∧ S'.count o = S.count o ∧ S'.enabled o = S.enabled o ∧
    S'.event o = S.event o ∧ S'.listeners o = S.listeners o ∧ S'.decider o = S.decider o

/-- The lists and the sheet. -/
structure Rel (s : List Obj) (S : Sheet) : Prop where
  names : (s.map (·.name)).Nodup
  short : ∀ x ∈ s, x.name.length < 256
  good : ∀ o x, getObj s o = some x → Good x
  says : ∀ o x, getObj s o = some x → Says S o x
  silent : ∀ o, getObj s o = none → Silent S o

theorem Says.same {S S' : Sheet} {o : Bytes} {x : Obj} (h : Says S o x) (e : SameAt S S' o) : Says S' o x := by
  obtain ⟨a, b, c, d, f, g, i⟩ := e
  exact ⟨a ▸ h.1, b ▸ h.2, c ▸ h.3, d ▸ h.4, f ▸ h.5, g ▸ h.6, i ▸ h.7⟩

theorem Silent.same {S S' : Sheet} {o : Bytes} (h : Silent S o) (e : SameAt S S' o) : Silent S' o := by
  obtain ⟨a, b, c, d, f, g, i⟩ := e
  exact ⟨a ▸ h.1, b ▸ h.2, c ▸ h.3, d ▸ h.4, f ▸ h.5, g ▸ h.6, i ▸ h.7⟩

theorem rel_init : Rel [] empty :=
  ⟨List.nodup_nil, by simp, by simp [getObj], by simp [getObj], fun _ _ => ⟨rfl, fun _ => rfl, rfl, rfl, fun _ => rfl, fun _ => rfl, rfl⟩⟩

theorem rel_set {s : List Obj} {S S' : Sheet} {o : Bytes} {x y : Obj} (h : Rel s S) (hx : getObj s o = some x)
    (hn : y.name = x.name) (hg : Good y) (hy : Says S' o y) (hs : ∀ o', o' ≠ o → SameAt S S' o') :
    Rel (setObj s o (fun _ => y)) S' := by
  have hxo : x.name = o := (find_key (key := Obj.name) hx).1
  have hk : ∀ z ∈ s, z.name = o → y.name = o := fun _ _ _ => hn.trans hxo
  have hget : ∀ o', getObj (setObj s o (fun _ => y)) o' = if o' = o then some y else getObj s o' := by
    intro o'
    refine (find_update (key := Obj.name) s o o' (fun _ => y) hk).trans ?_
    have hx' : s.find? (fun z => z.name == o) = some x := hx
    rw [hx']
    rfl
  refine ⟨?_, ?_, ?_, ?_, ?_⟩
  · exact (map_update (key := Obj.name) s o (fun _ => y) hk) ▸ h.names
  · intro z hz
    rcases mem_update (key := Obj.name) hz with hz | ⟨w, hw, hwo, rfl⟩
    · exact h.short z hz
    · rw [hn]
      exact h.short x (find_key (key := Obj.name) hx).2
  · intro o' z hz
    rw [hget] at hz
    split at hz
    · obtain rfl : y = z := by simpa using hz
      exact hg
    · exact h.good o' z hz
  · intro o' z hz
    rw [hget] at hz
    split at hz
    · rename_i ho
      obtain rfl : y = z := by simpa using hz
      exact ho ▸ hy
    · rename_i ho
      exact (h.says o' z hz).same (hs o' ho)
  · intro o' hz
    rw [hget] at hz
    split at hz
    · simp at hz
    · rename_i ho
      exact (h.silent o' hz).same (hs o' ho)

theorem set_self {s : List Obj} {o : Bytes} {x : Obj} (hx : getObj s o = some x) : setObj s o (fun _ => x) = s := by
  unfold getObj at hx
  unfold setObj
  induction s with
  | nil => rfl
  | cons y s ih =>
    by_cases hy : y.name = o
    · rw [List.find?_cons_of_pos (by simpa using hy)] at hx
      obtain rfl : y = x := by simpa using hx
      simp [updateFirst, hy]
    · rw [List.find?_cons_of_neg (by simpa using hy)] at hx
      simp [updateFirst, hy, ih hx]

/-! ## Methods -/

theorem isSome_userOf {x : Obj} (hg : Good x) {m : Bytes} (hm : ¬ Reserved m) :
    (userOf (x.method m)).isSome = (x.method m).isSome := by
  have := hg.user m hm
  rcases h : x.method m with _ | (k | _)
  · rfl
  · rfl
  · exact absurd h this

theorem method_append (x : Obj) (m : Bytes) (c : Callback) (h : x.method m = none) (m' : Bytes) :
    ({ x with methods := x.methods ++ [(m, c)] } : Obj).method m' = if m' = m then some c else x.method m' := by
  have hf := find_append (key := fun y : Bytes × Callback => y.1) x.methods (m, c) m'
  simp only [Obj.method] at h ⊢
  rw [hf]
  by_cases he : m' = m
  · subst he
    have : x.methods.find? (fun y => y.1 == m') = none := by simpa using h
    simp [this]
  · have he' : ¬ m = m' := fun h => he h.symm
    simp [he, he']

theorem nodup_append (x : Obj) (m : Bytes) (c : Callback) (h : x.method m = none)
    (hn : (x.methods.map (·.1)).Nodup) : ((x.methods ++ [(m, c)]).map (·.1)).Nodup := by
  have h1 : x.methods.find? (fun y => y.1 == m) = none := by simpa [Obj.method] using h
  have h2 := (find_none_iff (key := fun y : Bytes × Callback => y.1) x.methods m).1 h1
  rw [List.map_append, List.nodup_append]
  refine ⟨hn, by simp, ?_⟩
  intro a ha b hb
  simp only [List.map_cons, List.map_nil, List.mem_singleton] at hb
  rintro rfl
  exact h2 (hb ▸ ha)

theorem registerMethod_step {s : List Obj} {S : Sheet} (h : Rel s S) (o m : Bytes) (k : Nat) (hm : ¬ Reserved m) :
    (registerMethod s o m k).2 = S.canAdd o m ∧
      Rel (registerMethod s o m k).1 (if S.canAdd o m = .success then S.add o m k else S) := by
  unfold registerMethod Sheet.canAdd maxMethod
  by_cases hl : 64 ≤ m.length
  · simp [hl, h]
  simp only [hl, if_false]
  rcases hx : getObj s o with _ | x
  · simp [(h.silent o hx).handler, h]
  have hs := h.says o x hx
  have hg := h.good o x hx
  simp only [hs.handler, reduceCtorEq, if_false, hs.count, hs.method, addMethod, maxMethods, isSome_userOf hg hm]
  by_cases hc : 32 ≤ x.methods.length
  · simp [hc, set_self hx, h]
  simp only [hc, if_false]
  rcases hxm : x.method m with _ | c
  · simp only [Option.isSome_none, Bool.false_eq_true, if_false, if_true, true_and]
    have ha := method_append x m (.user k) hxm
    refine rel_set h hx rfl ⟨nodup_append x m _ hxm hg.methods, hg.events, hg.listeners, ?_, ?_⟩ ?_ ?_
    · intro m' hm'
      rw [ha m', if_neg (fun e : m' = m => hm (e ▸ hm'))]
      exact hg.reserved m' hm'
    · intro m' hm'
      rw [ha m']
      split
      · simp
      · exact hg.user m' hm'
    · refine ⟨hs.handler, ?_, ?_, hs.enabled, hs.event, hs.listeners, hs.decider⟩
      · intro m'
        rw [ha m']
        simp only [Sheet.add, put, if_true]
        split
        · rfl
        · exact hs.method m'
      · simp [Sheet.add, put, hs.count]
    · intro o' ho'
      simp [SameAt, Sheet.add, put, ho']
  · simp [set_self hx, h]

theorem unregisterMethod_step {s : List Obj} {S : Sheet} (h : Rel s S) (o m : Bytes) (hm : ¬ Reserved m) :
    (unregisterMethod s o m).2 = S.canDrop o m ∧
      Rel (unregisterMethod s o m).1 (if S.canDrop o m = .success then S.drop o m else S) := by
  unfold unregisterMethod Sheet.canDrop
  rcases hx : getObj s o with _ | x
  · simp [(h.silent o hx).handler, h]
  have hs := h.says o x hx
  have hg := h.good o x hx
  simp only [hs.handler, reduceCtorEq, if_false, hs.method, isSome_userOf hg hm]
  rcases hxm : x.method m with _ | c
  · simp [h]
  simp only [Option.isSome_some, if_true, true_and]
  obtain ⟨p, hp⟩ : ∃ p, x.methods.find? (fun y => y.1 == m) = some p := by
    cases hf : x.methods.find? (fun y => y.1 == m) with
    | none => simp [Obj.method, hf] at hxm
    | some p => exact ⟨p, rfl⟩
  have ha : ∀ m', ({ x with methods := x.methods.eraseP (fun y => y.1 == m) } : Obj).method m' =
      if m' = m then none else x.method m' := by
    intro m'
    have := find_erase (key := fun y : Bytes × Callback => y.1) hg.methods m m'
    simp only [Obj.method]
    rw [this]
    split <;> rfl
  refine rel_set h hx rfl ⟨nodup_erase (key := fun y : Bytes × Callback => y.1) hg.methods m, hg.events, hg.listeners, ?_, ?_⟩ ?_ ?_
  · intro m' hm'
    rw [ha m', if_neg (fun e : m' = m => hm (e ▸ hm'))]
    exact hg.reserved m' hm'
  · intro m' hm'
    rw [ha m']
    split
    · simp
    · exact hg.user m' hm'
  · refine ⟨hs.handler, ?_, ?_, hs.enabled, hs.event, hs.listeners, hs.decider⟩
    · intro m'
      rw [ha m']
      simp only [Sheet.drop, put, if_true]
      split
      · rfl
      · exact hs.method m'
    · simp only [Sheet.drop, put, if_true, hs.count]
      exact (length_erase (key := fun y : Bytes × Callback => y.1) hp).symm
  · intro o' ho'
    simp [SameAt, Sheet.drop, put, ho']

theorem registerTable_step (o : Bytes) (t : List (Bytes × Nat)) : ∀ {s : List Obj} {S : Sheet}, Rel s S →
    (∀ x ∈ t, ¬ Reserved x.1) →
    (registerTable s o t).2 = (S.addAll o t).2 ∧ Rel (registerTable s o t).1 (S.addAll o t).1 := by
  induction t with
  | nil => intro s S h _; exact ⟨rfl, h⟩
  | cons x t ih =>
    obtain ⟨m, k⟩ := x
    intro s S h hm
    have h1 := registerMethod_step h o m k (hm (m, k) (by simp))
    simp only [registerTable, Sheet.addAll]
    by_cases hc : S.canAdd o m = .success
    · rw [if_pos hc] at h1
      rw [if_pos (h1.1.trans hc), hc]
      exact ih h1.2 (fun y hy => hm y (List.mem_cons_of_mem _ hy))
    · rw [if_neg hc] at h1
      rw [if_neg (by rw [h1.1]; exact hc)]
      rcases hcc : S.canAdd o m with _ | _ | _ | _ | _ | _ | n
      · exact absurd hcc hc
      all_goals exact ⟨h1.1.trans hcc, h1.2⟩

theorem unregisterTable_step (o : Bytes) (t : List Bytes) : ∀ {s : List Obj} {S : Sheet}, Rel s S →
    (∀ m ∈ t, ¬ Reserved m) →
    (unregisterTable s o t).2 = (S.dropAll o t).2 ∧ Rel (unregisterTable s o t).1 (S.dropAll o t).1 := by
  induction t with
  | nil => intro s S h _; exact ⟨rfl, h⟩
  | cons m t ih =>
    intro s S h hm
    have h1 := unregisterMethod_step h o m (hm m (by simp))
    simp only [unregisterTable, Sheet.dropAll]
    by_cases hc : S.canDrop o m = .success
    · rw [if_pos hc] at h1
      rw [if_pos (h1.1.trans hc), hc]
      exact ih h1.2 (fun y hy => hm y (List.mem_cons_of_mem _ hy))
    · rw [if_neg hc] at h1
      rw [if_neg (by rw [h1.1]; exact hc)]
      rcases hcc : S.canDrop o m with _ | _ | _ | _ | _ | _ | n
      · exact absurd hcc hc
      all_goals exact ⟨h1.1.trans hcc, h1.2⟩

/-! ## Taking subscriptions -/

theorem names_differ : unsubscribeName ≠ subscribeName := by decide

theorem enable_done {x : Obj} (h : x.flag = true) : enable x = (x, .success) := by simp [enable, h]

theorem enable_ok {x : Obj} (hf : x.flag = false) (hg : Good x) (hl : x.methods.length ≤ 30) :
    enable x = ({ x with
      flag := true
      methods := x.methods ++ [(subscribeName, .subscription)] ++ [(unsubscribeName, .subscription)] }, .success) := by
  have h1 : x.method subscribeName = none := by simpa [hf] using hg.reserved _ (.inl rfl)
  have h2 : x.method unsubscribeName = none := by simpa [hf] using hg.reserved _ (.inr rfl)
  have ha := method_append x subscribeName .subscription h1 unsubscribeName
  rw [if_neg names_differ, h2] at ha
  have c1 : ¬ 32 ≤ x.methods.length := by omega
  have c2 : ¬ 32 ≤ (x.methods ++ [(subscribeName, Callback.subscription)]).length := by simp; omega
  have e1 : addMethod x subscribeName .subscription =
      ({ x with methods := x.methods ++ [(subscribeName, .subscription)] }, .success) := by
    simp only [addMethod, maxMethods, h1, c1, if_false]
  have e2 : addMethod { x with methods := x.methods ++ [(subscribeName, .subscription)] } unsubscribeName .subscription =
      ({ x with methods := x.methods ++ [(subscribeName, .subscription)] ++ [(unsubscribeName, .subscription)] },
        .success) := by
    simp only [addMethod, maxMethods, ha, c2, if_false]
  have hi : enable x = install x := by simp [enable, hf]
  rw [hi]
  simp only [install, h1, e1, e2, ne_eq, not_true_eq_false, if_false]

theorem enable_crowded {x : Obj} (hf : x.flag = false) (hg : Good x) (hl : ¬ x.methods.length ≤ 30) :
    (enable x).2 = .outOfResources := by
  have h1 : x.method subscribeName = none := by simpa [hf] using hg.reserved _ (.inl rfl)
  simp only [enable, hf, Bool.false_eq_true, if_false, install, h1]
  by_cases hc : 32 ≤ x.methods.length
  · simp [addMethod, maxMethods, hc]
  · have e1 : addMethod x subscribeName .subscription =
        ({ x with methods := x.methods ++ [(subscribeName, .subscription)] }, .success) := by
      simp only [addMethod, maxMethods, h1, hc, if_false]
    have c2 : 32 ≤ (x.methods ++ [(subscribeName, Callback.subscription)]).length := by simp; omega
    have e2 : addMethod { x with methods := x.methods ++ [(subscribeName, .subscription)] } unsubscribeName .subscription =
        ({ x with methods := x.methods ++ [(subscribeName, .subscription)] }, .outOfResources) := by
      simp only [addMethod, maxMethods, c2, if_true]
    simp only [e1, e2, ne_eq, not_true_eq_false, if_false, reduceCtorEq, not_false_eq_true, if_true]

/-- An object in order takes subscriptions. -/
theorem enable_says {S : Sheet} {o : Bytes} {x : Obj} (hg : Good x) (hs : Says S o x) :
    (enable x).2 = S.canEnable o ∧ (enable x).1.name = x.name ∧
      (S.canEnable o = .success → Good (enable x).1 ∧ Says (S.enable o) o (enable x).1) := by
  rcases hf : x.flag with _ | _
  · have he : S.enabled o = false := hs.enabled.trans hf
    by_cases hl : x.methods.length ≤ 30
    · have hc : S.canEnable o = .success := by simp [Sheet.canEnable, hs.count, hl]
      rw [enable_ok hf hg hl]
      refine ⟨hc.symm, rfl, fun _ => ?_⟩
      have h1 : x.method subscribeName = none := by simpa [hf] using hg.reserved _ (.inl rfl)
      have h2 : x.method unsubscribeName = none := by simpa [hf] using hg.reserved _ (.inr rfl)
      have ha := method_append x subscribeName .subscription h1
      have ha2 : ({ x with methods := x.methods ++ [(subscribeName, .subscription)] } : Obj).method unsubscribeName = none := by
        rw [ha, if_neg names_differ, h2]
      have hb := method_append { x with methods := x.methods ++ [(subscribeName, .subscription)] } unsubscribeName
        .subscription ha2
      have hm : ∀ m, ({ x with
          flag := true
          methods := x.methods ++ [(subscribeName, .subscription)] ++ [(unsubscribeName, .subscription)] } : Obj).method m
          = if m = unsubscribeName then some .subscription else if m = subscribeName then some .subscription
            else x.method m := by
        intro m
        refine (hb m).trans ?_
        rw [ha m]
      refine ⟨⟨?_, hg.events, hg.listeners, ?_, ?_⟩, ?_⟩
      · exact nodup_append { x with methods := x.methods ++ [(subscribeName, .subscription)] } _ _ ha2
          (nodup_append x _ _ h1 hg.methods)
      · rintro m (rfl | rfl)
        · rw [hm, if_neg names_differ.symm, if_pos rfl]; rfl
        · rw [hm, if_pos rfl]; rfl
      · intro m hr
        rw [hm, if_neg (fun e => hr (.inr e)), if_neg (fun e => hr (.inl e))]
        exact hg.user m hr
      · have hmm : ∀ m, userOf (if m = unsubscribeName then some .subscription else if m = subscribeName then
            some .subscription else x.method m) = userOf (x.method m) := by
          intro m
          split
          · rename_i e; rw [e, h2]; rfl
          · split
            · rename_i e; rw [e, h1]; rfl
            · rfl
        simp only [Sheet.enable, he, Bool.false_eq_true, if_false]
        refine ⟨hs.handler, fun m => ?_, ?_, ?_, hs.event, hs.listeners, hs.decider⟩
        · rw [hm, hmm]
          exact hs.method m
        · simp [put, hs.count]
        · simp [put]
    · refine ⟨?_, ?_, ?_⟩
      · rw [enable_crowded hf hg hl]
        simp [Sheet.canEnable, hs.count, he, hl]
      · simp only [enable, install, addMethod]
        repeat' split
        all_goals rfl
      · intro h
        simp [Sheet.canEnable, hs.count, he, hl] at h
  · have he : S.enabled o = true := hs.enabled.trans hf
    rw [enable_done hf]
    refine ⟨by simp [Sheet.canEnable, he], rfl, fun _ => ⟨hg, ?_⟩⟩
    simpa [Sheet.enable, he] using hs

theorem enable_same (S : Sheet) {o o' : Bytes} (h : o' ≠ o) : SameAt S (S.enable o) o' := by
  unfold Sheet.enable SameAt
  split
  · simp
  · simp [put, h]

theorem sameAt_trans {S S' S'' : Sheet} {o : Bytes} (h : SameAt S S' o) (h' : SameAt S' S'' o) : SameAt S S'' o :=
  ⟨h'.1.trans h.1, h'.2.1.trans h.2.1, h'.2.2.1.trans h.2.2.1, h'.2.2.2.1.trans h.2.2.2.1,
    h'.2.2.2.2.1.trans h.2.2.2.2.1, h'.2.2.2.2.2.1.trans h.2.2.2.2.2.1, h'.2.2.2.2.2.2.trans h.2.2.2.2.2.2⟩

/-! ## Events -/

theorem event_append (x : Obj) (v : Ev) (h : x.event v.name = none) (e : Bytes) :
    ({ x with events := x.events ++ [v] } : Obj).event e = if e = v.name then some v else x.event e := by
  have hf := find_append (key := Ev.name) x.events v e
  simp only [Obj.event] at h ⊢
  rw [hf]
  by_cases he : e = v.name
  · subst he
    simp [h]
  · have he' : ¬ v.name = e := fun h => he h.symm
    simp [he, he']

theorem withEvent_says {S : Sheet} {o : Bytes} {x : Obj} (hg : Good x) (hs : Says S o x) (e : Bytes)
    (told : Option Nat) :
    Good (withEvent x e told) ∧ (withEvent x e told).name = x.name ∧
      Says { S with event := put S.event o (put (S.event o) e (some ((S.event o e).getD told))) } o
        (withEvent x e told) := by
  unfold withEvent
  rcases hv : x.event e with _ | v
  · have ha := event_append x ⟨e, [], told⟩ hv
    have hs1 := hs.event e
    rw [hv] at hs1
    refine ⟨⟨hg.methods, ?_, ?_, hg.reserved, hg.user⟩, rfl, hs.handler, hs.method, hs.count, hs.enabled, ?_, ?_, hs.decider⟩
    · have h2 := (find_none_iff (key := Ev.name) x.events e).1 hv
      simp only [List.map_append, List.map_cons, List.map_nil]
      rw [List.nodup_append]
      refine ⟨hg.events, by simp, ?_⟩
      intro a ha' b hb
      simp only [List.mem_singleton] at hb
      rintro rfl
      exact h2 (hb ▸ ha')
    · intro w hw
      simp only [List.mem_append, List.mem_singleton] at hw
      rcases hw with hw | rfl
      · exact hg.listeners w hw
      · simp
    · intro e'
      rw [ha e']
      simp only [put, if_true, hs1]
      by_cases he : e' = e
      · simp [he]
      · simp [he, hs.event]
    · intro e'
      rw [ha e']
      by_cases he : e' = e
      · have := hs.listeners e
        rw [hv] at this
        simp [he, this]
      · simp [he, hs.listeners]
  · have hs1 := hs.event e
    rw [hv] at hs1
    refine ⟨hg, rfl, hs.handler, hs.method, hs.count, hs.enabled, ?_, hs.listeners, hs.decider⟩
    intro e'
    simp only [put, if_true, hs1]
    by_cases he : e' = e
    · simp [he, hv]
    · simp [he, hs.event]

theorem registerEvent_step {s : List Obj} {S : Sheet} (h : Rel s S) (o : Bytes) (e : Option Bytes)
    (told : Option Nat) :
    (step s (.registerEvent o e told)).2 = (S.next (.registerEvent o e told)).2 ∧
      (¬ Crowded (.registerEvent o e told, (step s (.registerEvent o e told)).2) →
        Rel (step s (.registerEvent o e told)).1 (S.next (.registerEvent o e told)).1) := by
  simp only [step, Sheet.next, registerEvent, maxName]
  generalize e.getD [] = e'
  by_cases hl : 256 ≤ e'.length
  · simp [hl, h]
  simp only [hl, if_false, false_or]
  rcases hx : getObj s o with _ | x
  · simp [(h.silent o hx).handler, h]
  have hs := h.says o x hx
  have hg := h.good o x hx
  obtain ⟨hg1, hn1, hs1⟩ := withEvent_says hg hs e' told
  obtain ⟨c, hn, hr⟩ := enable_says hg1 hs1
  have hcan : ∀ f, ({ S with event := f } : Sheet).canEnable o = S.canEnable o := fun _ => rfl
  have c' : (enable (withEvent x e' told)).2 = S.canEnable o := c
  simp only [hs.handler, reduceCtorEq, if_false, c']
  by_cases hc : S.canEnable o = .success
  · simp only [hc, if_true]
    refine ⟨trivial, fun _ => ?_⟩
    have hr := hr ((hcan _).trans hc)
    refine rel_set h hx (hn.trans hn1) hr.1 hr.2 ?_
    intro o' ho'
    refine sameAt_trans ?_ (enable_same _ ho')
    simp [SameAt, put, ho']
  · have hc2 : S.canEnable o = .outOfResources := by
      unfold Sheet.canEnable at hc ⊢
      split
      · rename_i hh; simp [hh] at hc
      · rfl
    simp [hc2, Crowded]

theorem registerSubscribeHandler_step {s : List Obj} {S : Sheet} (h : Rel s S) (o : Bytes) (k : Nat) :
    (step s (.registerSubscribeHandler o k)).2 = (S.next (.registerSubscribeHandler o k)).2 ∧
      (¬ Crowded (.registerSubscribeHandler o k, (step s (.registerSubscribeHandler o k)).2) →
        Rel (step s (.registerSubscribeHandler o k)).1 (S.next (.registerSubscribeHandler o k)).1) := by
  simp only [step, Sheet.next, registerSubscribeHandler]
  rcases hx : getObj s o with _ | x
  · simp [(h.silent o hx).handler, h]
  have hs := h.says o x hx
  have hg := h.good o x hx
  have hg1 : Good { x with decider := some k } := ⟨hg.methods, hg.events, hg.listeners, hg.reserved, hg.user⟩
  have hs1 : Says { S with decider := put S.decider o (some k) } o { x with decider := some k } :=
    ⟨hs.handler, hs.method, hs.count, hs.enabled, hs.event, hs.listeners, by simp [put]⟩
  obtain ⟨c, hn, hr⟩ := enable_says hg1 hs1
  simp only [hs.handler, reduceCtorEq, if_false, c]
  have hcan : ∀ f, ({ S with decider := f } : Sheet).canEnable o = S.canEnable o := fun _ => rfl
  rw [hcan]
  by_cases hc : S.canEnable o = .success
  · simp only [hc, if_true, true_and]
    intro _
    have hr := hr ((hcan _).trans hc)
    refine rel_set h hx hn hr.1 hr.2 ?_
    intro o' ho'
    refine sameAt_trans ?_ (enable_same _ ho')
    simp [SameAt, put, ho']
  · have hc2 : S.canEnable o = .outOfResources := by
      unfold Sheet.canEnable at hc ⊢
      split
      · rename_i hh; simp [hh] at hc
      · rfl
    simp [hc2, Crowded]

theorem unregisterEvent_step {s : List Obj} {S : Sheet} (h : Rel s S) (o : Bytes) (e : Option Bytes) :
    (step s (.unregisterEvent o e)).2 = (S.next (.unregisterEvent o e)).2 ∧
      Rel (step s (.unregisterEvent o e)).1 (S.next (.unregisterEvent o e)).1 := by
  simp only [step, Sheet.next, unregisterEvent]
  generalize e.getD [] = e'
  rcases hx : getObj s o with _ | x
  · simp [(h.silent o hx).event, h]
  have hs := h.says o x hx
  have hg := h.good o x hx
  simp only [hs.event]
  rcases hv : x.event e' with _ | v
  · simp [h]
  simp only [Option.map_some, Option.isSome_some, if_true, true_and]
  have ha : ∀ e'', ({ x with events := x.events.eraseP (fun y => y.name == e') } : Obj).event e'' =
      if e'' = e' then none else x.event e'' := fun e'' => find_erase (key := Ev.name) hg.events e' e''
  refine rel_set h hx rfl ⟨hg.methods, nodup_erase (key := Ev.name) hg.events e', ?_, hg.reserved, hg.user⟩ ?_ ?_
  · exact fun w hw => hg.listeners w (List.mem_of_mem_eraseP hw)
  · refine ⟨hs.handler, hs.method, hs.count, hs.enabled, ?_, ?_, hs.decider⟩
    · intro e''
      rw [ha e'']
      by_cases he : e'' = e' <;> simp [put, he, hs.event]
    · intro e''
      rw [ha e'']
      by_cases he : e'' = e' <;> simp [put, he, hs.listeners]
  · intro o' ho'
    simp [SameAt, put, ho']

/-! ## Requests -/

/-- The listeners after one came or went. -/
theorem listener_step (v : Ev) (hn : v.listeners.Nodup) (l : Bytes) (added : Bool) :
    (if added then addListener v l else removeListener v l) =
      ({ v with listeners := if added then (if l ∈ v.listeners then v.listeners else v.listeners ++ [l])
                             else v.listeners.filter (· ≠ l) },
        if (l ∈ v.listeners) = (added = true) then none else v.told.map (·, added)) := by
  have herase : v.listeners.erase l = v.listeners.filter (· ≠ l) := by
    rw [hn.erase_eq_filter]
    congr 1
    funext a
    by_cases h : a = l <;> simp [h, bne]
  by_cases hm : l ∈ v.listeners
  · cases added
    · simp [removeListener, hm, herase]
    · simp [addListener, hm]
  · cases added
    · have : v.listeners.filter (· ≠ l) = v.listeners := by
        rw [List.filter_eq_self]
        intro a ha
        simp only [ne_eq, decide_not, Bool.not_eq_true', decide_eq_false_iff_not]
        rintro rfl
        exact hm ha
      simp only [Bool.false_eq_true, if_false, this]
      simp [removeListener, hm]
    · simp [addListener, hm]

theorem request_step {s : List Obj} {S : Sheet} (h : Rel s S) (o m : Bytes) (texts : Option (Bytes × Bytes))
    (answer : Code) :
    (step s (.request o m texts answer)).2 = (S.next (.request o m texts answer)).2 ∧
      Rel (step s (.request o m texts answer)).1 (S.next (.request o m texts answer)).1 := by
  simp only [step, Sheet.next, request]
  rcases hx : getObj s o with _ | x
  · simp [(h.silent o hx).handler, h]
  have hs := h.says o x hx
  have hg := h.good o x hx
  simp only [hs.handler, hs.enabled, hs.method, hs.decider, hs.event, hs.listeners]
  by_cases hm : Reserved m
  · have hr := hg.reserved m hm
    rcases hf : x.flag with _ | _
    · rw [hf] at hr
      simp [hr, userOf, h]
    · rw [hf] at hr
      have hm' : m = subscribeName ∨ m = unsubscribeName := hm
      simp only [hr, if_true, true_and, hm', subscription, maxName]
      rcases texts with _ | ⟨e, l⟩
      · simp [set_self hx, h]
      simp only []
      by_cases hl : 256 ≤ l.length ∨ 256 ≤ e.length
      · simp [hl, set_self hx, h]
      simp only [hl, if_false]
      by_cases hd : x.decider.isSome = true ∧ answer ≠ .notHandled
      · simp [hd, set_self hx, h]
      simp only [hd, if_false, subscribeEvent]
      rcases hv : x.event e with _ | v
      · simp [set_self hx, h]
      simp only [Option.map_some, Option.getD_some]
      have hvm := find_key (key := Ev.name) hv
      have hbeq : (m == subscribeName) = decide (m = subscribeName) := by
        by_cases hb : m = subscribeName <;> simp [hb]
      have hls := listener_step v (hg.listeners v hvm.2) l (decide (m = subscribeName))
      rw [hbeq, hls]
      have hk : ∀ w ∈ x.events, w.name = e → v.name = e := fun _ _ _ => hvm.1
      refine ⟨?_, ?_⟩
      · simp only [decide_eq_true_eq]
      · generalize hL : (if decide (m = subscribeName) = true then
            (if l ∈ v.listeners then v.listeners else v.listeners ++ [l])
            else v.listeners.filter (· ≠ l)) = L
        have hLn : L.Nodup := by
          have hn := hg.listeners v hvm.2
          rw [← hL]
          split
          · split
            · exact hn
            · rename_i hnot
              rw [List.nodup_append]
              refine ⟨hn, by simp, ?_⟩
              intro a ha b hb
              simp only [List.mem_singleton] at hb
              rintro rfl
              exact hnot (hb ▸ ha)
          · exact hn.filter _
        have hfu : ∀ e', Obj.event ⟨x.name, x.handler, x.flag, x.methods,
            updateFirst (fun y => y.name == e) (fun _ => { v with listeners := L }) x.events, x.decider⟩ e' =
            if e' = e then some { v with listeners := L } else x.event e' := by
          intro e'
          refine (find_update (key := Ev.name) x.events e e' (fun _ => { v with listeners := L }) hk).trans ?_
          have hv' : x.events.find? (fun y => y.name == e) = some v := hv
          rw [hv']
          rfl
        refine rel_set h hx rfl ⟨hg.methods, ?_, ?_, hg.reserved, hg.user⟩ ?_ ?_
        · exact (map_update (key := Ev.name) x.events e (fun _ => { v with listeners := L }) hk) ▸ hg.events
        · intro w hw
          rcases mem_update (key := Ev.name) hw with hw | ⟨_, _, _, rfl⟩
          · exact hg.listeners w hw
          · exact hLn
        · refine ⟨hs.handler, hs.method, hs.count, hs.enabled, ?_, ?_, hs.decider⟩
          · intro e'
            rw [hfu e']
            by_cases he : e' = e
            · simp [Sheet.subscribe, he, hs.event, hv]
            · simp [Sheet.subscribe, he, hs.event]
          · intro e'
            rw [hfu e']
            have hle := hs.listeners e
            rw [hv] at hle
            simp only [Option.map_some, Option.getD_some] at hle
            by_cases he : e' = e
            · subst he
              simp only [Sheet.subscribe, put, if_true, hle, Option.map_some, Option.getD_some]
              exact hL
            · simp [Sheet.subscribe, put, he, hs.listeners]
        · intro o' ho'
          simp [SameAt, Sheet.subscribe, put, ho']
  · have hm' : ¬ (m = subscribeName ∨ m = unsubscribeName) := hm
    have hu := hg.user m hm
    simp only [hm', and_false, if_false]
    rcases hxm : x.method m with _ | (k | _)
    · simp [userOf, h]
    · simp [userOf, h]
    · exact absurd hxm hu

/-! ## Objects -/

theorem registerObj_step {s : List Obj} {S : Sheet} (h : Rel s S) (o : Bytes) (k : Nat) (ok : Bool) :
    (step s (.registerObj o k ok)).2 = (S.next (.registerObj o k ok)).2 ∧
      Rel (step s (.registerObj o k ok)).1 (S.next (.registerObj o k ok)).1 := by
  simp only [step, Sheet.next, registerObj, maxName]
  by_cases hl : 256 ≤ o.length
  · simp [hl, h]
  by_cases he : o = []
  · simp [he, h]
  have he' : ¬ o.length = 0 := by simpa using he
  simp only [hl, he, he', or_self, if_false, false_or]
  rcases hx : getObj s o with _ | x
  · have hq := h.silent o hx
    simp only [hq.handler, Option.isSome_none, Bool.false_eq_true, if_false]
    cases ok
    · simp [h]
    simp only [if_true, true_and]
    have hget : ∀ o', getObj (s ++ [⟨o, k, false, [], [], none⟩]) o' =
        if o' = o then some ⟨o, k, false, [], [], none⟩ else getObj s o' := by
      intro o'
      refine (find_append (key := Obj.name) s ⟨o, k, false, [], [], none⟩ o').trans ?_
      by_cases ho : o' = o
      · subst ho
        have hx' : s.find? (fun y => y.name == o') = none := hx
        simp [hx']
      · have ho' : ¬ o = o' := fun e => ho e.symm
        simp [ho, ho', getObj]
    have hsame : ∀ o', o' ≠ o → SameAt S (S.fresh o (some k)) o' := by
      intro o' ho'
      simp [SameAt, Sheet.fresh, put, ho']
    refine ⟨?_, ?_, ?_, ?_, ?_⟩
    · have h2 := (find_none_iff (key := Obj.name) s o).1 hx
      simp only [List.map_append, List.map_cons, List.map_nil]
      rw [List.nodup_append]
      refine ⟨h.names, by simp, ?_⟩
      intro a ha b hb
      simp only [List.mem_singleton] at hb
      rintro rfl
      exact h2 (hb ▸ ha)
    · intro y hy
      simp only [List.mem_append, List.mem_singleton] at hy
      rcases hy with hy | rfl
      · exact h.short y hy
      · simp only []
        omega
    · intro o' y hy
      rw [hget] at hy
      split at hy
      · obtain rfl := Option.some.inj hy
        exact ⟨by simp, by simp, by simp, by simp [Obj.method], by simp [Obj.method]⟩
      · exact h.good o' y hy
    · intro o' y hy
      rw [hget] at hy
      split at hy
      · rename_i ho
        obtain rfl := Option.some.inj hy
        subst ho
        constructor <;> simp [Sheet.fresh, put, Obj.method, Obj.event, userOf]
      · rename_i ho
        exact (h.says o' y hy).same (hsame o' ho)
    · intro o' hy
      rw [hget] at hy
      split at hy
      · simp at hy
      · rename_i ho
        exact (h.silent o' hy).same (hsame o' ho)
  · have hs := h.says o x hx
    simp [hs.handler, h]

theorem unregisterObj_step {s : List Obj} {S : Sheet} (h : Rel s S) (o : Bytes) (ok : Bool) :
    (step s (.unregisterObj o ok)).2 = (S.next (.unregisterObj o ok)).2 ∧
      Rel (step s (.unregisterObj o ok)).1 (S.next (.unregisterObj o ok)).1 := by
  simp only [step, Sheet.next, unregisterObj, maxName]
  by_cases hl : 256 ≤ o.length
  · simp [hl, h]
  by_cases he : o = []
  · simp [he, h]
  simp only [hl, he, or_self, if_false]
  cases ok
  · simp [h]
  simp only [Bool.not_true, Bool.false_eq_true, if_false, true_and]
  rcases hx : getObj s o with _ | x
  · simp [(h.silent o hx).handler, h]
  have hs := h.says o x hx
  simp only [hs.handler, Option.isSome_some, if_true, true_and]
  have hget : ∀ o', getObj (s.eraseP (fun x => x.name == o)) o' = if o' = o then none else getObj s o' :=
    fun o' => find_erase (key := Obj.name) h.names o o'
  have hsame : ∀ o', o' ≠ o → SameAt S (S.fresh o none) o' := by
    intro o' ho'
    simp [SameAt, Sheet.fresh, put, ho']
  refine ⟨nodup_erase (key := Obj.name) h.names o, fun y hy => h.short y (List.mem_of_mem_eraseP hy), ?_, ?_, ?_⟩
  · intro o' y hy
    rw [hget] at hy
    split at hy
    · simp at hy
    · exact h.good o' y hy
  · intro o' y hy
    rw [hget] at hy
    split at hy
    · simp at hy
    · rename_i ho
      exact (h.says o' y hy).same (hsame o' ho)
  · intro o' hy
    rw [hget] at hy
    split at hy
    · rename_i ho
      subst ho
      constructor <;> simp [Sheet.fresh, put]
    · rename_i ho
      exact (h.silent o' hy).same (hsame o' ho)

theorem publish_step {s : List Obj} {S : Sheet} (h : Rel s S) (o : Bytes) (e : Option Bytes) :
    (step s (.publish o e)).2 = (S.next (.publish o e)).2 ∧ (S.next (.publish o e)).1 = S := by
  simp only [step, Sheet.next, publish, maxName]
  generalize e.getD [] = e'
  rcases hx : getObj s o with _ | x
  · by_cases hl : 256 ≤ o.length <;> simp [hl, (h.silent o hx).event]
  have hs := h.says o x hx
  have hk := find_key (key := Obj.name) hx
  have hsh := h.short x hk.2
  have hl : ¬ 256 ≤ o.length := by rw [← hk.1]; omega
  simp only [hl, if_false, hs.event, hs.listeners]
  rcases hv : x.event e' with _ | v <;> simp

/-! ## Histories -/

theorem step_rel {s : List Obj} {S : Sheet} (h : Rel s S) (e : Event) (hp : Polite e) :
    (step s e).2 = (S.next e).2 ∧ (¬ Crowded (e, (step s e).2) → Rel (step s e).1 (S.next e).1) := by
  cases e with
  | registerObj o k ok => exact ⟨(registerObj_step h o k ok).1, fun _ => (registerObj_step h o k ok).2⟩
  | unregisterObj o ok => exact ⟨(unregisterObj_step h o ok).1, fun _ => (unregisterObj_step h o ok).2⟩
  | registerMethod o m k =>
    have := registerMethod_step h o m k hp
    exact ⟨congrArg Out.code this.1, fun _ => this.2⟩
  | unregisterMethod o m =>
    have := unregisterMethod_step h o m hp
    exact ⟨congrArg Out.code this.1, fun _ => this.2⟩
  | registerMethodTable o t =>
    have := registerTable_step o t h hp
    exact ⟨congrArg Out.code this.1, fun _ => this.2⟩
  | unregisterMethodTable o t =>
    have := unregisterTable_step o t h hp
    exact ⟨congrArg Out.code this.1, fun _ => this.2⟩
  | registerEvent o e told => exact registerEvent_step h o e told
  | unregisterEvent o e => exact ⟨(unregisterEvent_step h o e).1, fun _ => (unregisterEvent_step h o e).2⟩
  | registerSubscribeHandler o k => exact registerSubscribeHandler_step h o k
  | request o m t a => exact ⟨(request_step h o m t a).1, fun _ => (request_step h o m t a).2⟩
  | publish o e =>
    have := publish_step h o e
    exact ⟨this.1, fun _ => by rw [this.2]; exact h⟩

theorem run_rel (es : List Event) : ∀ {s : List Obj} {S : Sheet}, Rel s S → (∀ e ∈ es, Polite e) →
    (∀ x ∈ es.zip (run s es).2, ¬ Crowded x) →
    (run s es).2 = (S.answers es).2 ∧ Rel (run s es).1 (S.answers es).1 := by
  induction es with
  | nil => intro s S h _ _; exact ⟨rfl, h⟩
  | cons e es ih =>
    intro s S h hp hc
    have h1 := step_rel h e (hp e (by simp))
    have hc1 : ¬ Crowded (e, (step s e).2) := hc _ (by simp [run])
    have h2 := ih (h1.2 hc1) (fun y hy => hp y (List.mem_cons_of_mem _ hy))
      (fun x hx => hc x (by simp only [run, List.zip_cons_cons, List.mem_cons]; exact .inr hx))
    exact ⟨by simp only [run, Sheet.answers, h1.1, h2.1], h2.2⟩

end Verif.Proof.Core

namespace Verif.Proof.Core

open Verif Verif.Core

/-- While nobody leaves, the loop goes on with the listeners of the beginning. -/
theorem loop_quiet (ls : List Bytes) (ts : List Turn) : ∀ (extra : List Bytes) (pos : Nat), (∀ l, Turn.leave l ∉ ts) →
    ∃ s, Loop.run ⟨ls ++ extra, pos, ls.length⟩ ts = .ok (s, (ls.drop pos).take (ts.count .next)) := by
  induction ts with
  | nil => intro extra pos _; exact ⟨_, by simp only [Loop.run, List.count_nil, List.take_zero]; rfl⟩
  | cons t ts ih =>
    intro extra pos hl
    have hl' : ∀ l, Turn.leave l ∉ ts := fun l h => hl l (List.mem_cons_of_mem _ h)
    cases t with
    | leave l => exact absurd (List.mem_cons_self) (hl l)
    | join l =>
      have hj : ∃ extra', (if (ls ++ extra).contains l then ls ++ extra else ls ++ extra ++ [l]) = ls ++ extra' := by
        split
        · exact ⟨extra, rfl⟩
        · exact ⟨extra ++ [l], List.append_assoc _ _ _⟩
      obtain ⟨extra', he⟩ := hj
      obtain ⟨s, hs⟩ := ih extra' pos hl'
      refine ⟨s, ?_⟩
      have hc : List.count Turn.next (Turn.join l :: ts) = List.count Turn.next ts :=
        List.count_cons_of_ne (by simp)
      simp only [Loop.run, Loop.turn, Res.ok_bind, he, hs, hc, Res.pure_eq]
      rfl
    | next =>
      have hc : List.count Turn.next (Turn.next :: ts) = List.count Turn.next ts + 1 := List.count_cons_self
      by_cases hp : pos < ls.length
      · obtain ⟨s, hs⟩ := ih extra (pos + 1) hl'
        refine ⟨s, ?_⟩
        have hg : (ls ++ extra)[pos]? = some ls[pos] := by
          rw [List.getElem?_append_left hp, List.getElem?_eq_getElem hp]
        simp only [Loop.run, Loop.turn, hp, if_true, hg, Res.ok_bind, hs, hc, Res.pure_eq]
        rw [List.drop_eq_getElem_cons hp, List.take_succ_cons]
        rfl
      · obtain ⟨s, hs⟩ := ih extra pos hl'
        refine ⟨s, ?_⟩
        have hd : ls.drop pos = [] := List.drop_eq_nil_of_le (by omega)
        simp only [Loop.run, Loop.turn, hp, if_false, Res.ok_bind, hs, hc, Res.pure_eq, hd, List.take_nil]
        rfl

/-- With fewer listeners than were counted the loop reads beyond the end. -/
theorem loop_ends (ls : List Bytes) (n : Nat) : ∀ k pos, pos ≤ ls.length → ls.length < n → ls.length - pos < k →
    Loop.run ⟨ls, pos, n⟩ (List.replicate k .next) = .ub := by
  intro k
  induction k with
  | zero => intro pos _ _ h; omega
  | succ k ih =>
    intro pos h1 h2 h3
    by_cases hp : pos < ls.length
    · have hg : ls[pos]? = some ls[pos] := List.getElem?_eq_getElem hp
      have hpn : pos < n := by omega
      simp only [List.replicate_succ, Loop.run, Loop.turn, hpn, if_true, hg, Res.ok_bind,
        ih (pos + 1) (by omega) h2 (by omega), Res.ub_bind]
    · have hg : ls[pos]? = none := List.getElem?_eq_none (by omega)
      have hpn : pos < n := by omega
      simp only [List.replicate_succ, Loop.run, Loop.turn, hpn, if_true, hg, Res.ub_bind]

/-- What can come next. -/
def follow (s : Two) : List Two :=
  [true, false].filterMap fun w => match s.turn w with | .ok q => some q | _ => none

/-- All that can be reached in so many rounds. -/
def reach : Nat → List Two → List Two
  | 0, l => l
  | n + 1, l => reach n ((l ++ l.flatMap follow).eraseDups)

/-- A set of states that is closed and free of undefined behaviour. -/
theorem two_closed (l : List Two) (hl : ∀ s ∈ l, ∀ w, ∃ q ∈ l, s.turn w = .ok q) (ws : List Bool) :
    ∀ s ∈ l, ∃ q ∈ l, s.run ws = .ok q := by
  induction ws with
  | nil => exact fun s hs => ⟨s, hs, rfl⟩
  | cons w ws ih =>
    intro s hs
    obtain ⟨q, hq, ht⟩ := hl s hs w
    obtain ⟨r, hr, he⟩ := ih q hq
    exact ⟨r, hr, by simp only [Two.run, ht, Res.ok_bind, he]⟩

end Verif.Proof.Core
