import Verif.Proof.ParamsBus

namespace Verif.Params

open Verif Verif.Spec.Params

theorem writes_filter (s : Name → Value) (l : List Prop') (P : Prop' → Bool) (n : Name)
    (h : ∀ y ∈ l, y.1 = n → P y = true) : writes s (l.filter P) n = writes s l n := by
  induction l generalizing s with
  | nil => rfl
  | cons x l ih =>
    have ih' := fun s => ih s fun y hy => h y (by simp [hy])
    rw [List.filter_cons]
    by_cases hp : P x = true
    · rw [if_pos hp, writes_cons, writes_cons, ih']
    · rw [if_neg hp, writes_cons, ih']
      have hx : n ≠ x.1 := fun e => hp (h x (by simp) e.symm)
      exact writes_congr _ _ _ _ (.inr (by simp [write, hx]))

/-- The entries of one component, when the components are the owners. -/
theorem zip_owners (routes : Name → List Comp) (props : List Prop') (cs : List Comp)
    (h : (props.map (·.1)).map routes = cs.map ([·])) (c : Comp) :
    ((cs.zip props).filter (·.1 = c)).map (·.2) = props.filter (fun y => routes y.1 = [c]) := by
  induction props generalizing cs with
  | nil => cases cs <;> simp
  | cons y ys ih =>
    cases cs with
    | nil => simp at h
    | cons d ds =>
      simp only [List.map_cons, List.cons.injEq] at h
      rw [List.zip_cons_cons, List.filter_cons, List.filter_cons]
      by_cases hd : d = c
      · rw [if_pos (by simpa using hd), if_pos (by simpa [h.1] using hd), List.map_cons, ih ds h.2]
      · rw [if_neg (by simpa using hd), if_neg (by simpa [h.1] using hd), ih ds h.2]

theorem zip_comps (routes : Name → List Comp) (props : List Prop') (cs : List Comp)
    (h : (props.map (·.1)).map routes = cs.map ([·])) (c : Comp) :
    c ∈ (cs.zip props).map (·.1) ↔ ∃ y ∈ props, routes y.1 = [c] := by
  induction props generalizing cs with
  | nil => cases cs <;> simp
  | cons y ys ih =>
    cases cs with
    | nil => simp at h
    | cons d ds =>
      simp only [List.map_cons, List.cons.injEq] at h
      rw [List.zip_cons_cons, List.map_cons, List.mem_cons, ih ds h.2]
      simp only [List.mem_cons, exists_eq_or_imp, h.1, List.cons.injEq, and_true]
      constructor
      · rintro (rfl | h)
        · exact .inl rfl
        · exact .inr h
      · rintro (h | h)
        · exact .inl h.symm
        · exact .inr h

theorem mem_owner_batches (routes : Name → List Comp) (props : List Prop') (cs : List Comp)
    (h : (props.map (·.1)).map routes = cs.map ([·])) (c : Comp) (m : List Prop') :
    (c, m) ∈ batches (cs.zip props) ↔
      (∃ y ∈ props, routes y.1 = [c]) ∧ m = props.filter (fun y => routes y.1 = [c]) := by
  rw [mem_batches, zip_comps routes props cs h, zip_owners routes props cs h]

theorem routed_le {w : World} {names : List Name} (h : Routed w names) : ∀ n ∈ names, (w.routes n).length ≤ 1 := by
  intro n hn
  obtain ⟨c, hc⟩ := h n hn
  simp [hc]

/-- The owners of routed names. -/
theorem routed_owners {w : World} {names : List Name} (h : Routed w names) :
    ∃ cs : List Comp, names.map w.routes = cs.map ([·]) := by
  induction names with
  | nil => exact ⟨[], rfl⟩
  | cons n ns ih =>
    obtain ⟨c, hc⟩ := h n (by simp)
    obtain ⟨cs, hcs⟩ := ih fun m hm => h m (by simp [hm])
    exact ⟨c :: cs, by simp [hc, hcs]⟩

/-- What discovery does to the world. -/
def asked1 (w : World) : World := { w with fates := w.fates.tail }

theorem asked1_answered {w : World} (h : Answered w) : Answered (asked1 w) :=
  fun f hf => h f (List.mem_of_mem_tail hf)

theorem discover_routed {w : World} {names : List Name} (ha : Answered w) (h : Routed w names) :
    ∃ cs, discover w names = (asked1 w, some cs) ∧ names.map w.routes = cs.map ([·]) := by
  obtain ⟨cs, hcs⟩ := routed_owners h
  have := (discover_iff w names (answered_fate ha) (routed_le h) cs).2 hcs
  exact ⟨cs, Prod.ext (discover_world w names) this, hcs⟩

/-! ## One parameter -/

theorem setOne_eq {w : World} (comp : Comp) {n : Name} {v : Value} (cm : Bool) {c : Comp} (ha : Answered w)
    (hr : w.routes n = [c]) (hw : isWildcard n = false) (hv : v ≠ none) :
    setOne w comp n v cm =
      (heard w c (handleSet (w.at' c) ⟨comp, false, toItems [(n, v)], cm⟩) (·.code),
        ⟨readCode (handleSet (w.at' c) ⟨comp, false, toItems [(n, v)], cm⟩).2.code, none⟩) := by
  unfold setOne
  simp only [hw, hv, hr, if_false, Bool.false_eq_true]
  rw [invoke_answered ha]
  rfl

/-! ## Success -/

theorem setProps_success (comp : Comp) (rb cm tell : Bool) (revert : World → List Prop' → World) (w : World)
    (props : List Prop') (ha : Answered w) (hrt : Routed w (props.map (·.1)))
    (h100 : ∀ y ∈ props, ∀ c, w.routes y.1 = [c] → legacySuccess ∉ (w.at' c).codes)
    (h : (setProps comp rb cm tell revert w props.length props).2.code = 0) (c : Comp) (n : Name) :
    ((setProps comp rb cm tell revert w props.length props).1.at' c).store n =
      if w.routes n = [c] then writes (w.at' c).store props n else (w.at' c).store n := by
  cases props with
  | nil => simp [setProps, eInvalidInput] at h
  | cons x xs =>
    unfold setProps at h ⊢
    simp only [List.length_cons, Nat.add_eq_zero_iff, Nat.one_ne_zero, and_false, if_false] at h ⊢
    by_cases hxs : xs = []
    · subst hxs
      simp only [if_true] at h ⊢
      have hw : isWildcard x.1 = false := by
        cases hw : isWildcard x.1 with
        | false => rfl
        | true => simp [setOne, hw, eInvalidInput] at h
      have hv : x.2 ≠ none := by
        intro hv
        simp [setOne, hv, hw, eInvalidInput] at h
      obtain ⟨d, hd⟩ := hrt x.1 (by simp)
      rw [setOne_eq comp cm ha hd hw hv] at h ⊢
      simp only at h ⊢
      have h0 := handleSet_success (h100 x (by simp) d hd) ((readCode_zero _).1 h)
      by_cases hc : c = d
      · subst hc
        rw [heard_self, handleSet_store h0, asked_toItems]
        by_cases hn : w.routes n = [c]
        · rw [if_pos hn]
        · rw [if_neg hn, writes_absent]
          intro hm
          simp only [List.map_cons, List.map_nil, List.mem_singleton] at hm
          exact hn (by rw [hm]; exact hd)
      · rw [heard_other _ _ _ _ _ hc]
        by_cases hn : w.routes n = [c]
        · rw [if_pos hn, writes_absent]
          intro hm
          simp only [List.map_cons, List.map_nil, List.mem_singleton] at hm
          rw [hm, hd] at hn
          exact hc (by simpa using hn.symm)
        · rw [if_neg hn]
    · rw [if_neg hxs] at h ⊢
      have htake : (x :: xs).take (xs.length + 1) = x :: xs := by simp
      rw [htake] at h ⊢
      by_cases hbad : ((x :: xs).any fun y => isWildcard y.1 || y.2.isNone) = true
      · rw [if_pos hbad] at h
        simp [eInvalidInput] at h
      · rw [if_neg hbad] at h ⊢
        have hlen : ¬ (x :: xs).length ≠ xs.length + 1 := by simp
        rw [if_neg hlen] at h ⊢
        obtain ⟨cs, hdis, hcs⟩ := discover_routed ha hrt
        rw [hdis] at h ⊢
        simp only at h ⊢
        generalize hps : x :: xs = props at *
        have hmem := mem_owner_batches w.routes props cs hcs
        have hnone : ∀ d, d ∉ (batches (cs.zip props)).map (·.1) → ∀ y ∈ props, w.routes y.1 ≠ [d] := by
          intro d hd y hy hyd
          exact hd (List.mem_map.2 ⟨(d, _), (hmem d _).2 ⟨⟨y, hy, hyd⟩, rfl⟩, rfl⟩)
        obtain ⟨h1, h2⟩ := setBatches_success comp rb cm revert (batches (cs.zip props)) eSuccess [] tell
          (asked1 w) (asked1_answered ha) (batches_nodup _) (by
            rintro ⟨d, m⟩ hb
            obtain ⟨⟨y, hy, hyd⟩, _⟩ := (hmem d m).1 hb
            exact h100 y hy d hyd) h
        by_cases hc : c ∈ (batches (cs.zip props)).map (·.1)
        · obtain ⟨⟨d, m⟩, hb, rfl⟩ := List.mem_map.1 hc
          obtain ⟨_, hm⟩ := (hmem d m).1 hb
          rw [h1 _ hb]
          simp only
          rw [hm]
          change writes (w.at' d).store _ n = _
          by_cases hn : w.routes n = [d]
          · rw [if_pos hn, writes_filter]
            rintro y _ rfl
            simpa using hn
          · rw [if_neg hn, writes_absent]
            intro hmem'
            obtain ⟨y, hy, rfl⟩ := List.mem_map.1 hmem'
            simp only [List.mem_filter, decide_eq_true_eq] at hy
            exact hn hy.2
        · rw [h2 c hc]
          change (w.at' c).store n = _
          by_cases hn : w.routes n = [c]
          · rw [if_pos hn, writes_absent]
            intro hm
            obtain ⟨y, hy, rfl⟩ := List.mem_map.1 hm
            exact hnone c hc y hy hn
          · rw [if_neg hn]

/-! ## Handlers that work -/

theorem handleSet_works {p : Provider} {comp : Comp} {rb cm : Bool} {m : List Prop'} (hm : m ≠ [])
    (hk : ∀ y ∈ m, Known p y.1) (hz : ∀ c ∈ p.codes, c = 0) :
    (handleSet p ⟨comp, rb, toItems m, cm⟩).2.code = 0 ∧
      ∀ c ∈ (handleSet p ⟨comp, rb, toItems m, cm⟩).1.codes, c = 0 := by
  rw [handleSet_items _ _ _ _ _ hm]
  apply setLoop_works _ _ _ _ _ _ hz
  intro i hi
  obtain ⟨y, hy, rfl⟩ := List.mem_map.1 hi
  exact ⟨_, hk y hy, rfl⟩

theorem setBatches_works (comp : Comp) (rb cm : Bool) (revert : World → List Prop' → World)
    (bs : List (Comp × List Prop')) (kept : List Prop') (tell : Bool) (w : World)
    (ha : Answered w) (hnd : (bs.map (·.1)).Nodup)
    (hk : ∀ b ∈ bs, b.2 ≠ [] ∧ (∀ y ∈ b.2, Known (w.at' b.1) y.1) ∧ ∀ c ∈ (w.at' b.1).codes, c = 0) :
    (setBatches comp rb cm revert bs eSuccess kept tell w).2.code = 0 := by
  induction bs generalizing kept tell w with
  | nil => rfl
  | cons b bs ih =>
    obtain ⟨c, mine⟩ := b
    simp only [List.map_cons, List.nodup_cons] at hnd
    rw [setBatches_cons _ _ _ _ _ _ _ _ _ _ _ ha _ rfl]
    obtain ⟨h1, h2, h3⟩ := hk (c, mine) (by simp)
    have h0 := (handleSet_works (comp := comp) (rb := rb) (cm := cm) h1 h2 h3).1
    simp only at h0
    rw [h0, if_pos (by decide)]
    have hne : ∀ b ∈ bs, b.1 ≠ c := fun b hb hbc => hnd.1 (hbc ▸ List.mem_map_of_mem hb)
    apply ih _ _ _ (heard_answered ha _ _ _) hnd.2
    intro b hb
    rw [heard_other _ _ _ _ _ (hne b hb)]
    exact hk b (by simp [hb])

theorem setProps_works (comp : Comp) (rb cm tell : Bool) (revert : World → List Prop' → World) (w : World)
    (props : List Prop') (hne : props ≠ []) (ha : Answered w) (hrt : Routed w (props.map (·.1)))
    (hok : ∀ y ∈ props, isWildcard y.1 = false ∧ y.2 ≠ none)
    (hk : ∀ y ∈ props, ∀ c, w.routes y.1 = [c] → Known (w.at' c) y.1 ∧ ∀ k ∈ (w.at' c).codes, k = 0) :
    (setProps comp rb cm tell revert w props.length props).2.code = 0 := by
  cases props with
  | nil => exact absurd rfl hne
  | cons x xs =>
    unfold setProps
    simp only [List.length_cons, Nat.add_eq_zero_iff, Nat.one_ne_zero, and_false, if_false]
    by_cases hxs : xs = []
    · subst hxs
      simp only [if_true]
      obtain ⟨d, hd⟩ := hrt x.1 (by simp)
      obtain ⟨h1, h2⟩ := hk x (by simp) d hd
      rw [setOne_eq comp cm ha hd (hok x (by simp)).1 (hok x (by simp)).2]
      simp only
      rw [(handleSet_works (by simp) (by simpa using h1) h2).1]
      rfl
    · rw [if_neg hxs]
      have htake : (x :: xs).take (xs.length + 1) = x :: xs := by simp
      have hlen : ¬ (x :: xs).length ≠ xs.length + 1 := by simp
      have hbad : ¬ ((x :: xs).any fun y => isWildcard y.1 || y.2.isNone) = true := by
        rw [List.any_eq_true]
        rintro ⟨y, hy, hb⟩
        obtain ⟨h1, h2⟩ := hok y hy
        simp [h1, h2] at hb
      rw [htake, if_neg hbad, if_neg hlen]
      obtain ⟨cs, hdis, hcs⟩ := discover_routed ha hrt
      rw [hdis]
      simp only
      generalize hps : x :: xs = props at *
      apply setBatches_works _ _ _ _ _ _ _ _ (asked1_answered ha) (batches_nodup _)
      rintro ⟨d, m⟩ hb
      refine ⟨batch_nonempty _ _ _ hb, ?_⟩
      obtain ⟨⟨y, hy, hyd⟩, rfl⟩ := (mem_owner_batches w.routes props cs hcs d m).1 hb
      refine ⟨?_, (hk y hy d hyd).2⟩
      intro z hz
      simp only [List.mem_filter, decide_eq_true_eq] at hz
      exact (hk z hz.1 d hz.2).1

/-! ## Failure -/

theorem nodup_filter_names (props : List Prop') (P : Prop' → Bool) (h : (props.map (·.1)).Nodup) :
    ((props.filter P).map (·.1)).Nodup :=
  List.Nodup.sublist (List.Sublist.map _ List.filter_sublist) h

theorem toItems_names (m : List Prop') : (toItems m).map (·.name) = m.map (·.1) := by
  simp [toItems, Function.comp_def]

theorem handleSet_restores {p : Provider} {comp : Comp} {cm : Bool} {m : List Prop'} (hm : m ≠ [])
    (hk : ∀ y ∈ m, Known p y.1) (hnd : (m.map (·.1)).Nodup) (hone : failures p ≤ 1)
    (hf : (handleSet p ⟨comp, true, toItems m, cm⟩).2.code ≠ 0) :
    (handleSet p ⟨comp, true, toItems m, cm⟩).1.store = p.store := by
  rw [handleSet_items _ _ _ _ _ hm] at hf ⊢
  refine setLoop_restores cm p.store (toItems m) [] p ?_ (by rw [toItems_names]; exact hnd) (by simp) hone rfl hf
  intro i hi
  obtain ⟨y, hy, rfl⟩ := List.mem_map.1 hi
  exact hk y hy

theorem failures_zero {p : Provider} (h : failures p ≤ 0) : ∀ c ∈ p.codes, c = 0 := by
  have : p.codes.countP (· ≠ 0) = 0 := Nat.le_zero.1 h
  rw [List.countP_eq_zero] at this
  intro c hc
  simpa using this c hc

theorem single_fails {p : Provider} {comp : Comp} {n : Name} {v : Value} {cm : Bool}
    (hf : (handleSet p ⟨comp, false, toItems [(n, v)], cm⟩).2.code ≠ 0) :
    (handleSet p ⟨comp, false, toItems [(n, v)], cm⟩).1.store = p.store := by
  rw [handleSet_items _ _ _ _ _ (by simp)] at hf ⊢
  simp only [toItems, List.map_cons, List.map_nil] at hf ⊢
  rw [setLoop] at hf ⊢
  cases he : p.elem n with
  | none => rfl
  | some e =>
    simp only [he] at hf ⊢
    by_cases hs : e.set = true
    · rw [if_pos hs] at hf ⊢
      by_cases hc : (callSet (backup p false e n).1 n v (cm && List.isEmpty ([] : List Item))).2 ≠ 0
      · rw [if_pos hc]
        have : (backup p false e n).1.code ≠ 0 := hc
        simp only [callSet, this, if_false, Bool.false_eq_true]
        exact backup_store ..
      · rw [if_neg hc] at hf
        exact absurd rfl hf
    · rw [if_neg hs]

theorem revert_nothing (comp : Comp) (w : World) : revertProps comp w [] = w := rfl

theorem elem_kept (rb cm : Bool) (items : List Item) (kept : List Prop') (p : Provider) :
    (setLoop rb cm items kept p).1.elem = p.elem := by
  induction items generalizing kept p with
  | nil => rfl
  | cons it rest ih =>
    rw [setLoop]
    cases he : p.elem it.name with
    | none => rfl
    | some e =>
      simp only
      split
      · split
        · split
          · rw [restore_elem, callSet_elem, backup_elem]
          · rw [callSet_elem, backup_elem]
        · rw [ih, callSet_elem, backup_elem]
      · rfl

theorem setMulti_fails (w : World) (comp : Comp) (props : List Prop') (cm tell : Bool) (c1 c2 bad : Comp)
    (ha : Answered w) (hnd : (props.map (·.1)).Nodup)
    (hrt : ∀ y ∈ props, w.routes y.1 = [c1] ∨ w.routes y.1 = [c2])
    (hk : ∀ y ∈ props, ∀ c, w.routes y.1 = [c] → Known (w.at' c) y.1 ∧ (w.at' c).store y.1 ≠ none)
    (hone : ∀ c, failures (w.at' c) ≤ if c = bad then 1 else 0)
    (h : (setMulti w comp props.length props cm tell).2.code ≠ 0) (c : Comp) :
    ((setMulti w comp props.length props cm tell).1.at' c).store = (w.at' c).store := by
  have hrt' : Routed w (props.map (·.1)) := by
    intro n hn
    obtain ⟨y, hy, rfl⟩ := List.mem_map.1 hn
    rcases hrt y hy with h | h
    · exact ⟨_, h⟩
    · exact ⟨_, h⟩
  unfold setMulti at h ⊢
  cases props with
  | nil => rfl
  | cons x xs =>
    unfold setProps at h ⊢
    simp only [List.length_cons, Nat.add_eq_zero_iff, Nat.one_ne_zero, and_false, if_false] at h ⊢
    by_cases hxs : xs = []
    · subst hxs
      simp only [if_true] at h ⊢
      cases hw : isWildcard x.1 with
      | true => simp [setOne, hw]
      | false =>
        by_cases hv : x.2 = none
        · simp [setOne, hw, hv]
        · obtain ⟨d, hd⟩ := hrt' x.1 (by simp)
          rw [setOne_eq comp cm ha hd hw hv] at h ⊢
          simp only at h ⊢
          have h0 : (handleSet (w.at' d) ⟨comp, false, toItems [(x.1, x.2)], cm⟩).2.code ≠ 0 := by
            intro h0; apply h; rw [h0]; rfl
          by_cases hc : c = d
          · subst hc
            rw [heard_self]; exact single_fails h0
          · rw [heard_other _ _ _ _ _ hc]
    · rw [if_neg hxs] at h ⊢
      have htake : (x :: xs).take (xs.length + 1) = x :: xs := by simp
      rw [htake] at h ⊢
      by_cases hbad : ((x :: xs).any fun y => isWildcard y.1 || y.2.isNone) = true
      · rw [if_pos hbad]
      · rw [if_neg hbad] at h ⊢
        have hlen : ¬ (x :: xs).length ≠ xs.length + 1 := by simp
        rw [if_neg hlen] at h ⊢
        obtain ⟨cs, hdis, hcs⟩ := discover_routed ha hrt'
        rw [hdis] at h ⊢
        simp only at h ⊢
        have hwild : ∀ y ∈ x :: xs, isWildcard y.1 = false := by
          intro y hy
          cases hyw : isWildcard y.1 with
          | false => rfl
          | true => exact absurd (List.any_eq_true.2 ⟨y, hy, by simp [hyw]⟩) hbad
        generalize hps : x :: xs = props at *
        have hmem := mem_owner_batches w.routes props cs hcs
        have hbn := batches_nodup (cs.zip props)
        have hne := batch_nonempty (cs.zip props)
        generalize batches (cs.zip props) = bs at *
        have ha1 := asked1_answered ha
        have hfact : ∀ d m, (d, m) ∈ bs → (∀ y ∈ m, Known (w.at' d) y.1 ∧ (w.at' d).store y.1 ≠ none ∧
            w.routes y.1 = [d] ∧ isWildcard y.1 = false) ∧ (m.map (·.1)).Nodup ∧ m ≠ [] ∧ (d = c1 ∨ d = c2) := by
          intro d m hb
          have hm0 := hne d m hb
          obtain ⟨⟨y, hy, hyd⟩, rfl⟩ := (hmem d m).1 hb
          refine ⟨?_, nodup_filter_names _ _ hnd, hm0, ?_⟩
          · intro z hz
            simp only [List.mem_filter, decide_eq_true_eq] at hz
            obtain ⟨k1, k2⟩ := hk z hz.1 d hz.2
            exact ⟨k1, k2, hz.2, hwild z hz.1⟩
          · rcases hrt y hy with h' | h'
            · left; rw [hyd] at h'; simpa using h'
            · right; rw [hyd] at h'; simpa using h'
        cases bs with
        | nil => exact absurd rfl h
        | cons b bs =>
          obtain ⟨d, m⟩ := b
          obtain ⟨f1, f2, f3, f4⟩ := hfact d m (by simp)
          generalize hr : handleSet ((asked1 w).at' d) ⟨comp, true, toItems m, cm⟩ = r
          rw [setBatches_cons _ _ _ _ _ _ _ _ _ _ _ ha1 r hr] at h ⊢
          have hr' : handleSet (w.at' d) ⟨comp, true, toItems m, cm⟩ = r := hr
          have honed : failures (w.at' d) ≤ 1 := by
            refine Nat.le_trans (hone d) ?_
            split <;> omega
          by_cases hs : isSuccess r.2.code = true
          · rw [if_pos hs] at h ⊢
            cases bs with
            | nil => exact absurd rfl h
            | cons b bs =>
              obtain ⟨e, m'⟩ := b
              obtain ⟨g1, g2, g3, g4⟩ := hfact e m' (by simp)
              have hde : e ≠ d := by
                simp only [List.map_cons, List.nodup_cons, List.mem_cons, not_or] at hbn
                exact fun h => hbn.1.1 h.symm
              have hbs : bs = [] := by
                cases bs with
                | nil => rfl
                | cons b bs =>
                  exfalso
                  obtain ⟨k, m''⟩ := b
                  obtain ⟨_, _, _, k4⟩ := hfact k m'' (by simp)
                  simp only [List.map_cons, List.nodup_cons, List.mem_cons, not_or] at hbn
                  have n1 : ¬ d = e := hbn.1.1
                  have n2 : ¬ d = k := hbn.1.2.1
                  have n3 : ¬ e = k := hbn.2.1.1
                  rcases f4 with f | f <;> rcases g4 with g | g <;> rcases k4 with k' | k' <;>
                    first
                      | exact n1 (f.trans g.symm)
                      | exact n2 (f.trans k'.symm)
                      | exact n3 (g.trans k'.symm)
              subst hbs
              have hae := heard_answered ha1 d r (·.code)
              have hat : (heard (asked1 w) d r (·.code)).at' e = w.at' e := heard_other _ _ _ _ _ hde
              generalize hq : handleSet ((heard (asked1 w) d r (·.code)).at' e) ⟨comp, true, toItems m', cm⟩ = q
              rw [setBatches_cons _ _ _ _ _ _ _ _ _ _ _ hae q hq] at h ⊢
              rw [hat] at hq
              by_cases hqs : isSuccess q.2.code = true
              · rw [if_pos hqs] at h
                exact absurd rfl h
              · rw [if_neg hqs] at h ⊢
                simp only [if_true] at h ⊢
                have hq0 : q.2.code ≠ 0 := by
                  intro h0; rw [h0] at hqs; exact hqs (by decide)
                have hqst : q.1.store = (w.at' e).store := by
                  rw [← hq] at hq0 ⊢
                  refine handleSet_restores g3 (fun y hy => (g1 y hy).1) g2 ?_ hq0
                  refine Nat.le_trans (hone e) ?_
                  split <;> omega
                have hbe : e = bad := by
                  rcases Decidable.em (e = bad) with hbe | hbe
                  · exact hbe
                  · have hz := failures_zero (by simpa [hbe] using hone e)
                    have := (handleSet_works (comp := comp) (rb := true) (cm := cm) g3
                      (fun y hy => (g1 y hy).1) hz).1
                    rw [hq] at this
                    exact absurd this hq0
                have hdz : ∀ k ∈ (w.at' d).codes, k = 0 :=
                  failures_zero (by simpa [show d ≠ bad from fun h => hde (hbe.trans h.symm)] using hone d)
                have hw1 := handleSet_works (comp := comp) (rb := true) (cm := cm) f3 (fun y hy => (f1 y hy).1) hdz
                rw [hr'] at hw1
                have hst : r.1.store = writes (w.at' d).store m := by
                  have := handleSet_store (p := w.at' d) (r := ⟨comp, true, toItems m, cm⟩) (by rw [hr']; exact hw1.1)
                  rw [hr', asked_toItems] at this
                  exact this
                have hold : r.2.old = m.map fun y => (y.1, (w.at' d).store y.1) := by
                  rw [← hr', handleSet_items _ _ _ _ _ f3, setLoop_old]
                  · simp [toItems, Function.comp_def]
                  · intro i hi
                    obtain ⟨y, hy, rfl⟩ := List.mem_map.1 hi
                    exact (f1 y hy).1
                  · rw [toItems_names]; exact f2
                  · exact hdz
                have helem : r.1.elem = (w.at' d).elem := by
                  rw [← hr', handleSet_items _ _ _ _ _ f3, elem_kept]
                generalize hw2 : heard (heard (asked1 w) d r (·.code)) e q (·.code) = w2
                have ha2 : Answered w2 := by rw [← hw2]; exact heard_answered hae _ _ _
                have hroutes : w2.routes = w.routes := by rw [← hw2]; rfl
                have hatd : w2.at' d = r.1 := by
                  rw [← hw2, heard_other _ _ _ _ _ (Ne.symm hde), heard_self]
                have hate : w2.at' e = q.1 := by rw [← hw2, heard_self]
                have hato : ∀ k, k ≠ d → k ≠ e → w2.at' k = w.at' k := by
                  intro k hkd hke
                  rw [← hw2, heard_other _ _ _ _ _ hke, heard_other _ _ _ _ _ hkd]
                  rfl
                have hkept : ∀ z ∈ r.2.old, ∃ y ∈ m, z = (y.1, (w.at' d).store y.1) := by
                  intro z hz
                  rw [hold] at hz
                  obtain ⟨y, hy, rfl⟩ := List.mem_map.1 hz
                  exact ⟨y, hy, rfl⟩
                have hkept1 : r.2.old.map (·.1) = m.map (·.1) := by rw [hold]; simp [Function.comp_def]
                have hroute2 : Routed w2 (r.2.old.map (·.1)) := by
                  rw [hkept1]
                  intro n hn
                  obtain ⟨y, hy, rfl⟩ := List.mem_map.1 hn
                  exact ⟨d, by rw [hroutes]; exact (f1 y hy).2.2.1⟩
                have hown : ∀ z ∈ r.2.old, ∀ k, w2.routes z.1 = [k] → k = d := by
                  intro z hz k hzk
                  obtain ⟨y, hy, rfl⟩ := hkept z hz
                  rw [hroutes, (f1 y hy).2.2.1] at hzk
                  simpa using hzk.symm
                have hworks := setProps_works comp false true true (fun w _ => w) w2 r.2.old
                  (by rw [hold]; simpa using f3) ha2 hroute2
                  (by
                    intro z hz
                    obtain ⟨y, hy, rfl⟩ := hkept z hz
                    exact ⟨(f1 y hy).2.2.2, (f1 y hy).2.1⟩)
                  (by
                    intro z hz k hzk
                    have := hown z hz k hzk
                    subst this
                    obtain ⟨y, hy, rfl⟩ := hkept z hz
                    rw [hatd]
                    refine ⟨?_, hw1.2⟩
                    unfold Known
                    rw [helem]
                    exact (f1 y hy).1)
                have hfin := setProps_success comp false true true (fun w _ => w) w2 r.2.old ha2 hroute2
                  (by
                    intro z hz k hzk hmem'
                    have := hown z hz k hzk
                    subst this
                    rw [hatd] at hmem'
                    have := hw1.2 _ hmem'
                    revert this; decide) hworks
                unfold revertProps
                funext n
                rw [hfin c n, hroutes]
                rcases Decidable.em (c = d) with rfl | hcd
                · rw [hatd, hst]
                  by_cases hn : w.routes n = [c]
                  · rw [if_pos hn]
                    by_cases hnm : n ∈ m.map (·.1)
                    · have e1 : writes (writes (w.at' c).store m) r.2.old n = writes (w.at' c).store r.2.old n :=
                        writes_congr _ _ _ _ (.inl (by rw [hkept1]; exact hnm))
                      rw [e1, hold]
                      have e2 : ∀ (l : List Prop') (s t : Name → Value), (∀ k, s k = t k) →
                          ∀ k, writes s (l.map fun y => (y.1, t y.1)) k = t k := by
                        intro l
                        induction l with
                        | nil => intro s t hst k; exact hst k
                        | cons y l ih =>
                          intro s t hst k
                          rw [List.map_cons, writes_cons]
                          apply ih
                          intro k
                          simp only [write]
                          split
                          · rename_i hky; rw [hky]
                          · exact hst k
                      exact e2 m _ _ (fun _ => rfl) n
                    · rw [writes_absent _ _ _ (by rw [hkept1]; exact hnm), writes_absent _ _ _ hnm]
                  · rw [if_neg hn, writes_absent]
                    intro hnm
                    obtain ⟨y, hy, rfl⟩ := List.mem_map.1 hnm
                    exact hn (f1 y hy).2.2.1
                · have hst2 : (w2.at' c).store = (w.at' c).store := by
                    rcases Decidable.em (c = e) with rfl | hce
                    · rw [hate]; exact hqst
                    · rw [hato c hcd hce]
                  rw [hst2]
                  by_cases hn : w.routes n = [c]
                  · rw [if_pos hn, writes_absent]
                    rw [hkept1]
                    intro hnm
                    obtain ⟨y, hy, rfl⟩ := List.mem_map.1 hnm
                    rw [(f1 y hy).2.2.1] at hn
                    exact hcd (by simpa using hn.symm)
                  · rw [if_neg hn]
          · rw [if_neg hs] at h ⊢
            simp only [if_true, revert_nothing] at h ⊢
            have hr0 : r.2.code ≠ 0 := by
              intro h0; rw [h0] at hs; exact hs (by decide)
            rcases Decidable.em (c = d) with rfl | hcd
            · rw [heard_self]
              rw [← hr'] at hr0 ⊢
              exact handleSet_restores f3 (fun y hy => (f1 y hy).1) f2 honed hr0
            · rw [heard_other _ _ _ _ _ hcd]
              rfl

end Verif.Params
