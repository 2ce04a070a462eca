import Verif.Proof.ParamsMulti

namespace Verif.Params

open Verif Verif.Spec.Params

/-! ## Getting -/

theorem getLoop_success (names : List Name) (got : List Prop') (p : Provider)
    (hw : ∀ n ∈ names, isWildcard n = false) (h : (getLoop names got p).2.code = 0) :
    (getLoop names got p).2.props = got ++ names.map (fun n => (n, p.store n)) := by
  induction names generalizing got p with
  | nil => simp [getLoop]
  | cons n ns ih =>
    rw [getLoop] at h ⊢
    rw [if_neg (by simp [hw n (by simp)])] at h ⊢
    cases he : p.elem n with
    | none => simp [he, eElementMissing] at h
    | some e =>
      simp only [he] at h ⊢
      by_cases hg : e.get = true
      · rw [if_pos hg] at h ⊢
        by_cases hc : (callGet p n).2.2 = 0
        · rw [if_neg (by simpa using hc)] at h ⊢
          rw [ih _ _ (fun m hm => hw m (by simp [hm])) h]
          have hs : (callGet p n).1.store = p.store := rfl
          have hv : (callGet p n).2.1 = p.store n := by
            have : p.code = 0 := hc
            simp [callGet, this]
          rw [hs, hv]
          simp
        · rw [if_pos hc] at h
          exact absurd h hc
      · rw [if_neg hg] at h
        simp [eInvalidOperation] at h

theorem getLoop_store (names : List Name) (got : List Prop') (p : Provider) :
    (getLoop names got p).1.store = p.store ∧ (getLoop names got p).1.elem = p.elem := by
  induction names generalizing got p with
  | nil => simp [getLoop]
  | cons n ns ih =>
    rw [getLoop]
    split
    · exact ⟨rfl, rfl⟩
    · split
      · exact ⟨rfl, rfl⟩
      · split
        · simp only
          split
          · exact ⟨rfl, rfl⟩
          · exact ih _ _
        · exact ⟨rfl, rfl⟩

theorem getLoop_code (names : List Name) (got : List Prop') (p : Provider)
    (hw : ∀ n ∈ names, isWildcard n = false) :
    (getLoop names got p).2.code ∈ [0, eElementMissing, eInvalidOperation] ∨
      (getLoop names got p).2.code ∈ p.codes := by
  induction names generalizing got p with
  | nil => left; simp [getLoop, eSuccess]
  | cons n ns ih =>
    rw [getLoop, if_neg (by simp [hw n (by simp)])]
    cases he : p.elem n with
    | none => left; simp
    | some e =>
      simp only
      split
      · split
        · right
          rename_i hc
          rcases code_mem p with h | h
          · exact absurd h hc
          · exact h
        · rcases ih (got ++ [(n, (callGet p n).2.1)]) (callGet p n).1 (fun m hm => hw m (by simp [hm])) with h | h
          · exact .inl h
          · exact .inr (List.mem_of_mem_tail h)
      · left; simp

theorem getBatches_answers (bs : List (Comp × List Name)) (acc : GetResult) (w : World) :
    ∃ l, (getBatches bs acc w).1.answers = w.answers ++ l := by
  induction bs generalizing acc w with
  | nil => exact ⟨[], by simp [getBatches]⟩
  | cons b bs ih =>
    obtain ⟨c, mine⟩ := b
    rw [getBatches]
    unfold invoke
    cases w.fate with
    | lost e => exact ⟨[], by simp⟩
    | unanswered e => exact ⟨[], by simp [World.put]⟩
    | answered =>
      simp only
      split
      · obtain ⟨l, hl⟩ := ih ⟨eSuccess, acc.num + (handleGet (w.at' c) mine).2.props.length,
          acc.props ++ (handleGet (w.at' c) mine).2.props⟩ (heard w c (handleGet (w.at' c) mine) (·.code))
        exact ⟨_, (show _ = _ from hl).trans (by simp only [heard]; exact List.append_assoc _ _ _)⟩
      · obtain ⟨l, hl⟩ := ih { acc with code := readCode (handleGet (w.at' c) mine).2.code }
          (heard w c (handleGet (w.at' c) mine) (·.code))
        exact ⟨_, (show _ = _ from hl).trans (by simp only [heard]; exact List.append_assoc _ _ _)⟩

theorem getBatches_complete (bs : List (Comp × List Name)) (acc : GetResult) (w : World) (l : List Nat)
    (hnd : (bs.map (·.1)).Nodup) (hne : ∀ b ∈ bs, b.2 ≠ [])
    (hw : ∀ b ∈ bs, ∀ n ∈ b.2, isWildcard n = false)
    (hl : (getBatches bs acc w).1.answers = w.answers ++ l) (hz : ∀ k ∈ l, k = 0)
    (h : (getBatches bs acc w).2.code = 0) :
    (getBatches bs acc w).2.props =
        acc.props ++ bs.flatMap (fun b => b.2.map fun n => (n, (w.at' b.1).store n)) ∧
      (getBatches bs acc w).2.num = acc.num + (bs.flatMap (·.2)).length := by
  induction bs generalizing acc w l with
  | nil => simp [getBatches]
  | cons b bs ih =>
    obtain ⟨c, mine⟩ := b
    simp only [List.map_cons, List.nodup_cons] at hnd
    rw [getBatches] at hl h ⊢
    cases hf : w.fate with
    | lost e =>
      simp only [invoke, hf] at h
      exact absurd h (coreToRbus_ne e)
    | unanswered e =>
      simp only [invoke, hf] at h
      exact absurd h (coreToRbus_ne e)
    | answered =>
      have hi : invoke w c (fun p => handleGet p mine) (·.code) =
          (heard w c (handleGet (w.at' c) mine) (·.code), .inr (handleGet (w.at' c) mine).2) := by
        unfold invoke; simp only [hf]; rfl
      rw [hi] at hl h ⊢
      simp only at hl h ⊢
      generalize hr : handleGet (w.at' c) mine = r at hl h ⊢
      have hr0 : ∀ acc', (getBatches bs acc' (heard w c r (·.code))).1.answers = w.answers ++ l →
          ∃ l', l = r.2.code :: l' ∧
            (getBatches bs acc' (heard w c r (·.code))).1.answers = (heard w c r (·.code)).answers ++ l' := by
        intro acc' ha
        obtain ⟨l', hl'⟩ := getBatches_answers bs acc' (heard w c r (·.code))
        refine ⟨l', ?_, hl'⟩
        rw [hl'] at ha
        simp only [heard, List.append_assoc] at ha
        exact (List.append_cancel_left ha).symm
      by_cases hs : isSuccess r.2.code = true
      · rw [if_pos hs] at hl h ⊢
        obtain ⟨l', rfl, hl'⟩ := hr0 _ hl
        have hc : r.2.code = 0 := hz _ (by simp)
        have hmine : mine ≠ [] := hne (c, mine) (by simp)
        have hp : r.2.props = mine.map fun n => (n, (w.at' c).store n) := by
          rw [← hr] at hc ⊢
          unfold handleGet at hc ⊢
          rw [if_neg hmine] at hc ⊢
          simpa using getLoop_success mine [] _ (fun n hn => hw (c, mine) (by simp) n hn) hc
        obtain ⟨h1, h2⟩ := ih _ _ l' hnd.2 (fun b hb => hne b (by simp [hb]))
          (fun b hb => hw b (by simp [hb])) hl' (fun k hk => hz k (by simp [hk])) h
        constructor
        · rw [h1, hp]
          simp only [List.flatMap_cons, List.append_assoc]
          congr 2
          simp only [List.flatMap_def]
          congr 1
          apply List.map_congr_left
          intro b hb
          have hbc : b.1 ≠ c := fun he => hnd.1 (he ▸ List.mem_map_of_mem hb)
          rw [heard_other _ _ _ _ _ hbc]
        · rw [h2, hp]
          simp only [List.flatMap_cons, List.length_append, List.length_map]
          omega
      · rw [if_neg hs] at hl
        obtain ⟨l', rfl, hl'⟩ := hr0 _ hl
        have hc : r.2.code = 0 := hz _ (by simp)
        exact absurd (by simp [isSuccess, hc, eSuccess]) hs

/-- Pairing routed names with their owners. -/
theorem zip_routes (routes : Name → List Comp) (names : List Name) (cs : List Comp)
    (h : names.map routes = cs.map ([·])) : ∀ x ∈ cs.zip names, routes x.2 = [x.1] := by
  induction names generalizing cs with
  | nil => cases cs <;> simp
  | cons n ns ih =>
    cases cs with
    | nil => simp
    | cons c cs =>
      simp only [List.map_cons, List.cons.injEq] at h
      intro x hx
      rcases List.mem_cons.1 (by simpa using hx) with rfl | hx
      · exact h.1
      · exact ih cs h.2 x hx

theorem batch_routes (routes : Name → List Comp) (names : List Name) (cs : List Comp)
    (h : names.map routes = cs.map ([·])) {c : Comp} {m : List Name} (hb : (c, m) ∈ batches (cs.zip names)) :
    ∀ n ∈ m, routes n = [c] := by
  obtain ⟨_, rfl⟩ := (mem_batches _ c m).1 hb
  intro n hn
  obtain ⟨x, hx, rfl⟩ := List.mem_map.1 hn
  rw [List.mem_filter] at hx
  have := zip_routes routes names cs h x hx.1
  rw [this]
  simp at hx
  simp [hx.2]

theorem zip_snd {α : Type} (names : List α) (cs : List Comp) (h : names.length = cs.length) :
    (cs.zip names).map (·.2) = names := by
  rw [show ((cs.zip names).map (·.2)) = (cs.zip names).map Prod.snd from rfl,
    List.map_snd_zip (by omega)]

theorem getMany_complete (w : World) (names : List Name) (l : List Nat)
    (hrt : ∀ n ∈ names, (w.routes n).length ≤ 1) (hw : ∀ n ∈ names, isWildcard n = false)
    (hl : (getMany w names).1.answers = w.answers ++ l) (hz : ∀ k ∈ l, k = 0)
    (h : (getMany w names).2.code = 0) :
    ((getMany w names).2.props.map (·.1)).Perm names ∧ (getMany w names).2.num = names.length ∧
      ∀ y ∈ (getMany w names).2.props, ∃ c, w.routes y.1 = [c] ∧ y.2 = (w.at' c).store y.1 := by
  unfold getMany at hl h ⊢
  have hdw := discover_world w names
  cases hd : discover w names with
  | mk w' o =>
    rw [hd] at hl h hdw
    cases o with
    | none => simp [eDestinationNotFound] at h
    | some cs =>
      simp only at hl h ⊢ hdw
      have hans : w.fate = .answered := by
        unfold discover at hd
        cases hf : w.fate with
        | answered => rfl
        | lost e => simp [hf] at hd
        | unanswered e => simp [hf] at hd
      have hown := (discover_iff w names hans hrt cs).1 (by rw [hd])
      have hlen : names.length = cs.length := by
        have := congrArg List.length hown
        simpa using this
      have hmem : ∀ b ∈ batches (cs.zip names), ∀ n ∈ b.2, n ∈ names ∧ w.routes n = [b.1] := by
        intro b hb n hn
        refine ⟨?_, batch_routes w.routes names cs hown hb n hn⟩
        have := (batches_perm (cs.zip names)).mem_iff.1 (List.mem_flatMap.2 ⟨b, hb, hn⟩)
        rwa [zip_snd names cs hlen] at this
      subst hdw
      obtain ⟨h1, h2⟩ := getBatches_complete _ _ _ l (batches_nodup _)
        (fun b hb => batch_nonempty _ b.1 b.2 hb) (fun b hb n hn => hw n (hmem b hb n hn).1) hl hz h
      have hp := batches_perm (cs.zip names)
      rw [zip_snd names cs hlen] at hp
      refine ⟨?_, ?_, ?_⟩
      · rw [h1]
        simp only [List.nil_append, List.map_flatMap, List.map_map, Function.comp_def, List.map_id']
        exact hp
      · rw [h2, hp.length_eq]; simp
      · rw [h1]
        simp only [List.nil_append, List.mem_flatMap, List.mem_map]
        rintro y ⟨b, hb, n, hn, rfl⟩
        exact ⟨b.1, (hmem b hb n hn).2, rfl⟩

theorem getMany_one (w : World) (names : List Name) (c : Comp) (hne : names ≠ [])
    (hrt : ∀ n ∈ names, w.routes n = [c]) (hw : ∀ n ∈ names, isWildcard n = false)
    (h100 : legacySuccess ∉ (w.at' c).codes) (h : (getMany w names).2.code = 0) :
    ∃ l, (getMany w names).1.answers = w.answers ++ l ∧ ∀ k ∈ l, k = 0 := by
  have hle : ∀ n ∈ names, (w.routes n).length ≤ 1 := fun n hn => by simp [hrt n hn]
  unfold getMany at h ⊢
  have hdw := discover_world w names
  cases hd : discover w names with
  | mk w' o =>
    rw [hd] at h hdw
    cases o with
    | none => simp [eDestinationNotFound] at h
    | some cs =>
      simp only at h ⊢ hdw
      have hans : w.fate = .answered := by
        unfold discover at hd
        cases hf : w.fate with
        | answered => rfl
        | lost e => simp [hf] at hd
        | unanswered e => simp [hf] at hd
      have hown := (discover_iff w names hans hle cs).1 (by rw [hd])
      have hlen : names.length = cs.length := by
        have := congrArg List.length hown
        simpa using this
      have hp := batches_perm (cs.zip names)
      rw [zip_snd names cs hlen] at hp
      have hall : ∀ b ∈ batches (cs.zip names), b.1 = c := by
        intro b hb
        have hb' := batch_nonempty _ b.1 b.2 hb
        obtain ⟨n, hn⟩ := List.exists_mem_of_ne_nil _ hb'
        have h1 := batch_routes w.routes names cs hown hb n hn
        have h2 := hrt n (hp.mem_iff.1 (List.mem_flatMap.2 ⟨b, hb, hn⟩))
        rw [h1] at h2
        simpa using h2
      have hnd := batches_nodup (cs.zip names)
      have hm : ∀ b ∈ batches (cs.zip names), ∀ n ∈ b.2, n ∈ names := fun b hb n hn =>
        hp.mem_iff.1 (List.mem_flatMap.2 ⟨b, hb, hn⟩)
      subst hdw
      generalize batches (cs.zip names) = bs at h hall hnd hp hm ⊢
      cases bs with
      | nil => exact ⟨[], by simp [getBatches]⟩
      | cons b bs =>
        have hbs : bs = [] := by
          cases bs with
          | nil => rfl
          | cons b' bs =>
            have e1 := hall b (by simp)
            have e2 := hall b' (by simp)
            simp [e1, e2] at hnd
        subst hbs
        obtain ⟨d, mine⟩ := b
        have hd' : d = c := hall (d, mine) (by simp)
        subst hd'
        simp only [List.flatMap_cons, List.flatMap_nil, List.append_nil] at hp
        have hmine : mine ≠ [] := fun he => hne (by rw [he] at hp; exact List.nil_perm.1 hp)
        rw [getBatches] at h ⊢
        unfold invoke at h ⊢
        cases hf : ({ w with fates := w.fates.tail } : World).fate with
        | lost e => simp only [hf] at h; exact absurd h (coreToRbus_ne e)
        | unanswered e => simp only [hf] at h; exact absurd h (coreToRbus_ne e)
        | answered =>
          simp only [hf] at h ⊢
          by_cases hs : isSuccess (handleGet (w.at' d) mine).2.code = true
          · have hc : (handleGet (w.at' d) mine).2.code = 0 := by
              have hcode := getLoop_code mine [] (w.at' d) (fun n hn => hw n (hm (d, mine) (by simp) n hn))
              unfold handleGet at hs ⊢
              rw [if_neg hmine] at hs ⊢
              simp only [isSuccess, Bool.or_eq_true, decide_eq_true_eq] at hs
              rcases hs with hs | hs
              · exact hs
              · rw [hs] at hcode
                rcases hcode with h1 | h1
                · exact absurd h1 (by decide)
                · exact absurd h1 h100
            rw [if_pos hs]
            exact ⟨[0], by simp [getBatches, hc], by simp⟩
          · rw [if_neg hs] at h
            simp only [getBatches] at h
            exact absurd ((readCode_zero _).1 h) hs

/-! ## Who is asked -/

theorem restore_calls (p : Provider) (b : Bool) (l : List Prop') :
    ∃ k, (restore p b l).calls = p.calls ++ k ∧ ∀ x ∈ k, about x ∈ l.map (·.1) := by
  induction l generalizing p with
  | nil => exact ⟨[], by simp [restore]⟩
  | cons x l ih =>
    obtain ⟨n, v⟩ := x
    rw [restore]
    obtain ⟨k, hk, hn⟩ := ih (callSet p n v b).1
    refine ⟨.set n v b p.code :: k, by rw [hk]; simp [callSet], ?_⟩
    intro y hy
    rcases List.mem_cons.1 hy with rfl | hy
    · simp [about]
    · exact List.mem_cons_of_mem _ (hn y hy)

theorem backup_calls (p : Provider) (rb : Bool) (e : Elem) (n : Name) :
    (∃ k, (backup p rb e n).1.calls = p.calls ++ k ∧ ∀ x ∈ k, about x = n) ∧
      ∀ y ∈ (backup p rb e n).2, y.1 = n := by
  unfold backup
  split
  · refine ⟨⟨[.get n p.code], rfl, ?_⟩, by simp⟩
    intro x hx
    rw [List.mem_singleton.1 hx]; rfl
  · exact ⟨⟨[], by simp⟩, by simp⟩

theorem setLoop_calls (rb cm : Bool) (items : List Item) (kept : List Prop') (p : Provider) :
    (∃ k, (setLoop rb cm items kept p).1.calls = p.calls ++ k ∧
        ∀ x ∈ k, about x ∈ items.map (·.name) ++ kept.map (·.1)) ∧
      ∀ y ∈ (setLoop rb cm items kept p).2.old, y.1 ∈ items.map (·.name) ++ kept.map (·.1) := by
  induction items generalizing kept p with
  | nil => exact ⟨⟨[], by simp [setLoop]⟩, fun y hy => by
      simp only [setLoop] at hy
      simpa using ⟨y.2, hy⟩⟩
  | cons it rest ih =>
    rw [setLoop]
    cases he : p.elem it.name with
    | none => exact ⟨⟨[], by simp⟩, by simp⟩
    | some e =>
      simp only
      obtain ⟨⟨kb, hkb, hnb⟩, hb2⟩ := backup_calls p rb e it.name
      generalize hc : callSet (backup p rb e it.name).1 it.name it.value (cm && rest.isEmpty) = r
      have hr : ∃ k, r.1.calls = p.calls ++ k ∧ ∀ x ∈ k, about x = it.name := by
        refine ⟨kb ++ [.set it.name it.value (cm && rest.isEmpty) (backup p rb e it.name).1.code], ?_, ?_⟩
        · rw [← hc]; simp [callSet, hkb]
        · intro x hx
          rcases List.mem_append.1 hx with h | h
          · exact hnb x h
          · rw [List.mem_singleton.1 h]; rfl
      obtain ⟨k1, hk1, hn1⟩ := hr
      split
      · split
        · refine ⟨?_, by simp⟩
          split
          · obtain ⟨k2, hk2, hn2⟩ := restore_calls r.1 (cm && rest.isEmpty) kept
            refine ⟨k1 ++ k2, by rw [hk2, hk1, List.append_assoc], ?_⟩
            intro x hx
            rcases List.mem_append.1 hx with h | h
            · simp [hn1 x h]
            · exact List.mem_append_right _ (hn2 x h)
          · exact ⟨k1, hk1, fun x hx => by simp [hn1 x hx]⟩
        · obtain ⟨⟨k2, hk2, hn2⟩, ho⟩ := ih (kept ++ (backup p rb e it.name).2) r.1
          have hsub : ∀ m, m ∈ rest.map (·.name) ++ (kept ++ (backup p rb e it.name).2).map (·.1) →
              m ∈ (it :: rest).map (·.name) ++ kept.map (·.1) := by
            intro m hm
            simp only [List.map_cons, List.map_append, List.cons_append, List.mem_cons, List.mem_append] at hm ⊢
            rcases hm with h | h | h
            · exact .inr (.inl h)
            · exact .inr (.inr h)
            · obtain ⟨y, hy, rfl⟩ := List.mem_map.1 h
              exact .inl (hb2 y hy)
          refine ⟨⟨k1 ++ k2, by rw [hk2, hk1, List.append_assoc], ?_⟩, fun y hy => hsub _ (ho y hy)⟩
          intro x hx
          rcases List.mem_append.1 hx with h | h
          · simp [hn1 x h]
          · exact hsub _ (hn2 x h)
      · exact ⟨⟨[], by simp⟩, by simp⟩

theorem handleSet_calls (p : Provider) (r : SetRequest) :
    (∃ k, (handleSet p r).1.calls = p.calls ++ k ∧ ∀ x ∈ k, about x ∈ r.items.map (·.name)) ∧
      ∀ y ∈ (handleSet p r).2.old, y.1 ∈ r.items.map (·.name) := by
  unfold handleSet
  split
  · exact ⟨⟨[], by simp⟩, by simp⟩
  · split
    · exact ⟨⟨[], by simp⟩, by simp⟩
    · simpa using setLoop_calls r.rollBack r.commit r.items [] p

theorem getLoop_calls (names : List Name) (got : List Prop') (p : Provider) :
    ∃ k, (getLoop names got p).1.calls = p.calls ++ k ∧ ∀ x ∈ k, about x ∈ names := by
  induction names generalizing got p with
  | nil => exact ⟨[], by simp [getLoop]⟩
  | cons n ns ih =>
    rw [getLoop]
    split
    · exact ⟨[], by simp⟩
    · split
      · exact ⟨[], by simp⟩
      · split
        · simp only
          split
          · exact ⟨[.get n p.code], rfl, fun x hx => by rw [List.mem_singleton.1 hx]; simp [about]⟩
          · obtain ⟨k, hk, hn⟩ := ih (got ++ [(n, (callGet p n).2.1)]) (callGet p n).1
            refine ⟨.get n p.code :: k, by rw [hk]; simp [callGet], ?_⟩
            intro x hx
            rcases List.mem_cons.1 hx with rfl | hx
            · simp [about]
            · exact List.mem_cons_of_mem _ (hn x hx)
        · exact ⟨[], by simp⟩

/-- From one world to another only the owners of parameters were asked about them. -/
def Honest (w w' : World) : Prop :=
  w'.routes = w.routes ∧
    ∀ c, ∃ k, (w'.at' c).calls = (w.at' c).calls ++ k ∧ ∀ x ∈ k, w.routes (about x) = [c]

theorem Honest.refl (w : World) : Honest w w := ⟨rfl, fun c => ⟨[], by simp⟩⟩

theorem Honest.trans {a b c : World} (h1 : Honest a b) (h2 : Honest b c) : Honest a c := by
  refine ⟨h2.1.trans h1.1, fun d => ?_⟩
  obtain ⟨k1, e1, n1⟩ := h1.2 d
  obtain ⟨k2, e2, n2⟩ := h2.2 d
  refine ⟨k1 ++ k2, by rw [e2, e1, List.append_assoc], fun x hx => ?_⟩
  rcases List.mem_append.1 hx with h | h
  · exact n1 x h
  · rw [← h1.1]; exact n2 x h

theorem Honest.fates (w : World) (f : List Fate) : Honest w { w with fates := f } :=
  ⟨rfl, fun c => ⟨[], by simp⟩⟩

theorem invoke_honest {α : Type} (w : World) (c : Comp) (act : Provider → Provider × α) (code : α → Nat)
    (names : List Name) (hr : ∀ n ∈ names, w.routes n = [c])
    (h : ∃ k, (act (w.at' c)).1.calls = (w.at' c).calls ++ k ∧ ∀ x ∈ k, about x ∈ names) :
    Honest w (invoke w c act code).1 := by
  obtain ⟨k, hk, hn⟩ := h
  have hput : ∀ d, ∃ k, (if d = c then (act (w.at' c)).1 else w.at' d).calls = (w.at' d).calls ++ k ∧
      ∀ x ∈ k, w.routes (about x) = [d] := by
    intro d
    by_cases hd : d = c
    · subst hd
      exact ⟨k, by simp [hk], fun x hx => hr _ (hn x hx)⟩
    · exact ⟨[], by simp [hd]⟩
  unfold invoke
  cases w.fate with
  | answered => exact ⟨rfl, hput⟩
  | lost e => exact Honest.fates _ _
  | unanswered e => exact ⟨rfl, hput⟩

theorem discover_owners (w : World) (names : List Name) (hrt : ∀ n ∈ names, (w.routes n).length ≤ 1)
    {w' : World} {cs : List Comp} (hd : discover w names = (w', some cs)) :
    names.map w.routes = cs.map ([·]) ∧ w' = { w with fates := w.fates.tail } := by
  have hans : w.fate = .answered := by
    unfold discover at hd
    cases hf : w.fate with
    | answered => rfl
    | lost e => simp [hf] at hd
    | unanswered e => simp [hf] at hd
  refine ⟨(discover_iff w names hans hrt cs).1 (by rw [hd]), ?_⟩
  have := discover_world w names
  rw [hd] at this
  exact this

theorem getBatches_honest (bs : List (Comp × List Name)) (acc : GetResult) (w : World)
    (hr : ∀ b ∈ bs, ∀ n ∈ b.2, w.routes n = [b.1]) : Honest w (getBatches bs acc w).1 := by
  induction bs generalizing acc w with
  | nil => exact Honest.refl w
  | cons b bs ih =>
    obtain ⟨c, mine⟩ := b
    have hi := invoke_honest w c (fun p => handleGet p mine) (·.code) mine (hr (c, mine) (by simp)) (by
      simp only [handleGet]
      split
      · exact ⟨[], by simp⟩
      · exact getLoop_calls _ _ _)
    rw [getBatches]
    generalize invoke w c (fun p => handleGet p mine) (·.code) = x at hi ⊢
    obtain ⟨w', o⟩ := x
    have hr' : ∀ b ∈ bs, ∀ n ∈ b.2, w'.routes n = [b.1] := fun b hb n hn => by
      rw [hi.1]; exact hr b (by simp [hb]) n hn
    cases o with
    | inl e => exact hi
    | inr r =>
      simp only
      split
      · exact hi.trans (ih _ _ hr')
      · exact hi.trans (ih _ _ hr')

theorem getMany_honest (w : World) (names : List Name) (hrt : ∀ n ∈ names, (w.routes n).length ≤ 1) :
    Honest w (getMany w names).1 := by
  unfold getMany
  cases hd : discover w names with
  | mk w' o =>
    cases o with
    | none =>
      have := discover_world w names
      rw [hd] at this
      simp only at this ⊢
      rw [this]
      exact Honest.fates _ _
    | some cs =>
      obtain ⟨hown, rfl⟩ := discover_owners w names hrt hd
      exact (Honest.fates _ _).trans (getBatches_honest _ _ _ fun b hb n hn =>
        batch_routes w.routes names cs hown hb n hn)

theorem setBatches_honest (comp : Comp) (rb cm : Bool) (revert : World → List Prop' → World)
    (names : List Name) (bs : List (Comp × List Prop')) (err : Nat) (kept : List Prop') (tell : Bool) (w : World)
    (hr : ∀ b ∈ bs, ∀ y ∈ b.2, w.routes y.1 = [b.1]) (hn : ∀ b ∈ bs, ∀ y ∈ b.2, y.1 ∈ names)
    (hk : ∀ y ∈ kept, y.1 ∈ names)
    (hrev : ∀ w' kept', w'.routes = w.routes → (∀ y ∈ kept', y.1 ∈ names) → Honest w' (revert w' kept')) :
    Honest w (setBatches comp rb cm revert bs err kept tell w).1 := by
  induction bs generalizing err kept tell w with
  | nil => exact Honest.refl w
  | cons b bs ih =>
    obtain ⟨c, mine⟩ := b
    have hc := handleSet_calls (w.at' c) ⟨comp, rb, toItems mine, cm⟩
    simp only [toItems_names] at hc
    have hi := invoke_honest w c (fun p => handleSet p ⟨comp, rb, toItems mine, cm⟩) (·.code) (mine.map (·.1))
      (fun n h => by obtain ⟨y, hy, rfl⟩ := List.mem_map.1 h; exact hr (c, mine) (by simp) y hy) hc.1
    have hold : ∀ r, (invoke w c (fun p => handleSet p ⟨comp, rb, toItems mine, cm⟩) (·.code)).2 = .inr r →
        ∀ y ∈ r.old, y.1 ∈ names := by
      intro r he y hy
      have : r = (handleSet (w.at' c) ⟨comp, rb, toItems mine, cm⟩).2 := by
        unfold invoke at he
        cases hf : w.fate with
        | answered => simp only [hf] at he; exact (Sum.inr.inj he).symm
        | lost e => simp [hf] at he
        | unanswered e => simp [hf] at he
      subst this
      obtain ⟨z, hz, he⟩ := List.mem_map.1 (hc.2 y hy)
      rw [← he]
      exact hn (c, mine) (by simp) z hz
    rw [setBatches]
    change Honest w (match invoke w c (fun p => handleSet p ⟨comp, rb, toItems mine, cm⟩) (·.code) with
      | (w', .inl e) => setBatches comp rb cm revert bs (coreToRbus e) kept tell w'
      | (w', .inr r) =>
        if isSuccess r.code then setBatches comp rb cm revert bs eSuccess r.old false w'
        else (if rb then revert w' kept else w', ⟨readCode r.code, if tell then r.failed else none⟩)).1
    generalize invoke w c (fun p => handleSet p ⟨comp, rb, toItems mine, cm⟩) (·.code) = x at hi hold ⊢
    obtain ⟨w', o⟩ := x
    have hroutes : w'.routes = w.routes := hi.1
    have hr' : ∀ b ∈ bs, ∀ y ∈ b.2, w'.routes y.1 = [b.1] := fun b hb n hn => by
      rw [hroutes]; exact hr b (by simp [hb]) n hn
    have hn' : ∀ b ∈ bs, ∀ y ∈ b.2, y.1 ∈ names := fun b hb => hn b (by simp [hb])
    have hrev' : ∀ w2 kept', w2.routes = w'.routes → (∀ y ∈ kept', y.1 ∈ names) → Honest w2 (revert w2 kept') :=
      fun w2 k2 h1 h2 => hrev w2 k2 (h1.trans hroutes) h2
    cases o with
    | inl e => exact hi.trans (ih _ _ _ _ hr' hn' hk hrev')
    | inr r =>
      simp only
      split
      · exact hi.trans (ih _ _ _ _ hr' hn' (hold r rfl) hrev')
      · split
        · exact hi.trans (hrev w' kept hroutes hk)
        · exact hi

theorem setOne_honest (w : World) (comp : Comp) (n : Name) (v : Value) (cm : Bool)
    (hrt : (w.routes n).length ≤ 1) : Honest w (setOne w comp n v cm).1 := by
  unfold setOne
  split
  · exact Honest.refl w
  · split
    · exact Honest.refl w
    · split
      · exact Honest.refl w
      · rename_i c cs hroute
        have hcs : cs = [] := by
          rw [hroute] at hrt
          simp at hrt
          exact hrt
        subst hcs
        have hc := handleSet_calls (w.at' c) ⟨comp, false, [{ name := n, value := v }], cm⟩
        have hi := invoke_honest w c (fun p => handleSet p ⟨comp, false, [{ name := n, value := v }], cm⟩) (·.code)
          [n] (fun m h => by rw [List.mem_singleton.1 h]; exact hroute) hc.1
        split
        · rename_i w' e hx; rw [hx] at hi; exact hi
        · rename_i w' r hx; rw [hx] at hi; exact hi

theorem setProps_honest (comp : Comp) (rb cm tell : Bool) (revert : World → List Prop' → World) (w : World)
    (numProps : Nat) (props : List Prop') (hrt : ∀ y ∈ props, (w.routes y.1).length ≤ 1)
    (hrev : ∀ w' kept', w'.routes = w.routes → (∀ y ∈ kept', y.1 ∈ props.map (·.1)) →
      Honest w' (revert w' kept')) :
    Honest w (setProps comp rb cm tell revert w numProps props).1 := by
  unfold setProps
  cases props with
  | nil => exact Honest.refl w
  | cons x xs =>
    simp only
    split
    · exact Honest.refl w
    · split
      · exact setOne_honest w comp x.1 x.2 cm (hrt x (by simp))
      · split
        · exact Honest.refl w
        · split
          · exact Honest.refl w
          · generalize hu : (x :: xs).take numProps = used
            have husub : ∀ y ∈ used, y ∈ x :: xs := fun y hy => by
              rw [← hu] at hy; exact List.mem_of_mem_take hy
            have hle : ∀ n ∈ used.map (·.1), (w.routes n).length ≤ 1 := by
              intro n hn
              obtain ⟨y, hy, rfl⟩ := List.mem_map.1 hn
              exact hrt y (husub y hy)
            cases hd : discover w (used.map (·.1)) with
            | mk w' o =>
              cases o with
              | none =>
                have := discover_world w (used.map (·.1))
                rw [hd] at this
                simp only at this ⊢
                rw [this]
                exact Honest.fates _ _
              | some cs =>
                obtain ⟨hown, rfl⟩ := discover_owners w _ hle hd
                refine (Honest.fates _ _).trans (setBatches_honest comp rb cm revert ((x :: xs).map (·.1)) _ _ _ _ _
                  ?_ ?_ (by simp) hrev)
                · intro b hb y hy
                  have := (mem_owner_batches w.routes used cs hown b.1 b.2).1 hb
                  rw [this.2, List.mem_filter] at hy
                  simpa using hy.2
                · intro b hb y hy
                  have := (mem_owner_batches w.routes used cs hown b.1 b.2).1 hb
                  rw [this.2, List.mem_filter] at hy
                  exact List.mem_map.2 ⟨y, husub y hy.1, rfl⟩

theorem setMulti_honest (w : World) (comp : Comp) (numProps : Nat) (props : List Prop') (cm tell : Bool)
    (hrt : ∀ y ∈ props, (w.routes y.1).length ≤ 1) :
    Honest w (setMulti w comp numProps props cm tell).1 := by
  refine setProps_honest comp true cm tell _ w numProps props hrt fun w' kept hw hk => ?_
  refine setProps_honest comp false true true _ w' kept.length kept ?_ fun w'' _ _ _ => Honest.refl w''
  intro y hy
  obtain ⟨z, hz, he⟩ := List.mem_map.1 (hk y hy)
  rw [hw, ← he]
  exact hrt z hz

/-! ## The failed parameter -/

/-- What a provider says about a request it could not carry out. -/
theorem setLoop_failed (rb cm : Bool) (items : List Item) (kept : List Prop') (p : Provider)
    (h : (setLoop rb cm items kept p).2.code ≠ 0) :
    ∃ x ∈ items, (setLoop rb cm items kept p).2.failed = some x.name ∧
      ((p.elem x.name = none ∧ (setLoop rb cm items kept p).2.code = eElementMissing) ∨
        (∃ e, p.elem x.name = some e ∧ e.set = false ∧ (setLoop rb cm items kept p).2.code = eNotWritable) ∨
        ∃ k b, (setLoop rb cm items kept p).1.calls = p.calls ++ k ∧
          .set x.name x.value b (setLoop rb cm items kept p).2.code ∈ k) := by
  induction items generalizing kept p with
  | nil => exact absurd rfl h
  | cons it rest ih =>
    rw [setLoop] at h ⊢
    cases he : p.elem it.name with
    | none => exact ⟨it, by simp, rfl, .inl ⟨he, rfl⟩⟩
    | some e =>
      simp only [he] at h ⊢
      obtain ⟨⟨kb, hkb, -⟩, -⟩ := backup_calls p rb e it.name
      have hbe := backup_elem p rb e it.name
      generalize hc : callSet (backup p rb e it.name).1 it.name it.value (cm && rest.isEmpty) = r at h ⊢
      have hr : r.1.calls = p.calls ++ (kb ++ [.set it.name it.value (cm && rest.isEmpty) r.2]) := by
        rw [← hc]; simp [callSet, hkb]
      have hre : r.1.elem = p.elem := by rw [← hc, callSet_elem, hbe]
      by_cases hs : e.set = true
      · rw [if_pos hs] at h ⊢
        by_cases hz : r.2 = 0
        · rw [if_neg (by simpa using hz)] at h ⊢
          obtain ⟨x, hx, hf, hcase⟩ := ih _ _ h
          refine ⟨x, by simp [hx], hf, ?_⟩
          rcases hcase with hA | ⟨e', hA, hB, hC⟩ | ⟨k, b, hA, hB⟩
          · exact .inl ⟨hre ▸ hA.1, hA.2⟩
          · exact .inr (.inl ⟨e', hre ▸ hA, hB, hC⟩)
          · exact .inr (.inr ⟨(kb ++ [.set it.name it.value (cm && rest.isEmpty) r.2]) ++ k, b,
              by rw [hA, hr, List.append_assoc p.calls], List.mem_append_right _ hB⟩)
        · rw [if_pos hz]
          refine ⟨it, by simp, rfl, .inr (.inr ?_)⟩
          cases rb with
          | false => exact ⟨kb ++ [.set it.name it.value (cm && rest.isEmpty) r.2], cm && rest.isEmpty,
              by simpa using hr, by simp⟩
          | true =>
            obtain ⟨k2, hk2, -⟩ := restore_calls r.1 (cm && rest.isEmpty) kept
            exact ⟨(kb ++ [.set it.name it.value (cm && rest.isEmpty) r.2]) ++ k2, cm && rest.isEmpty,
              by simp only [if_true]; rw [hk2, hr, List.append_assoc p.calls], by simp⟩
      · rw [if_neg hs]
        exact ⟨it, by simp, rfl, .inr (.inl ⟨e, he, by simpa using hs, rfl⟩)⟩

/-- One provider gets one request. -/
theorem batches_one (routes : Name → List Comp) (props : List Prop') (cs : List Comp) (c : Comp)
    (h : (props.map (·.1)).map routes = cs.map ([·])) (hne : props ≠ []) (hc : ∀ y ∈ props, routes y.1 = [c]) :
    batches (cs.zip props) = [(c, props)] := by
  have hall : ∀ b ∈ batches (cs.zip props), b = (c, props) := by
    intro b hb
    obtain ⟨⟨y, hy, h1⟩, h2⟩ := (mem_owner_batches routes props cs h b.1 b.2).1 hb
    have hb1 : b.1 = c := by
      rw [hc y hy] at h1
      simpa using h1.symm
    refine Prod.ext hb1 ?_
    rw [h2, hb1]
    exact List.filter_eq_self.2 fun z hz => by simp [hc z hz]
  have hmem : (c, props) ∈ batches (cs.zip props) := by
    rw [mem_owner_batches routes props cs h]
    obtain ⟨y, hy⟩ := List.exists_mem_of_ne_nil _ hne
    refine ⟨⟨y, hy, hc y hy⟩, (List.filter_eq_self.2 fun z hz => by simp [hc z hz]).symm⟩
  have hnd := batches_nodup (cs.zip props)
  generalize batches (cs.zip props) = bs at hall hmem hnd
  cases bs with
  | nil => simp at hmem
  | cons b bs =>
    rw [hall b (by simp)]
    cases bs with
    | nil => rfl
    | cons b' bs =>
      have e1 := hall b (by simp)
      have e2 := hall b' (by simp)
      simp [e1, e2] at hnd

theorem setMulti_one (w : World) (comp : Comp) (props : List Prop') (cm tell : Bool) (c : Comp)
    (ha : Answered w) (h2 : 2 ≤ props.length) (hc : ∀ y ∈ props, w.routes y.1 = [c])
    (hok : ∀ y ∈ props, isWildcard y.1 = false ∧ y.2 ≠ none) (r : Provider × SetReply)
    (hr : setLoop true cm (toItems props) [] (w.at' c) = r) :
    (setMulti w comp props.length props cm tell).1.at' c = r.1 ∧
      (setMulti w comp props.length props cm tell).2.code = readCode r.2.code ∧
      (isSuccess r.2.code = false →
        (setMulti w comp props.length props cm tell).2.failed = if tell then r.2.failed else none) := by
  cases props with
  | nil => simp at h2
  | cons x xs =>
    have hxs : xs ≠ [] := fun h => by simp [h] at h2
    have hrt : Routed w ((x :: xs).map (·.1)) := by
      intro n hn
      obtain ⟨y, hy, rfl⟩ := List.mem_map.1 hn
      exact ⟨c, hc y hy⟩
    obtain ⟨cs, hd, hown⟩ := discover_routed ha hrt
    have hany : (x :: xs).any (fun y => isWildcard y.1 || y.2.isNone) = false := by
      rw [List.any_eq_false]
      intro y hy
      obtain ⟨h1, h2⟩ := hok y hy
      cases h3 : y.2 with
      | none => exact absurd h3 h2
      | some v => simp [h1]
    have hset : setMulti w comp (x :: xs).length (x :: xs) cm tell =
        setBatches comp true cm (revertProps comp) [(c, x :: xs)] eSuccess [] tell (asked1 w) := by
      unfold setMulti setProps
      simp only [List.length_cons, Nat.add_eq_zero_iff, Nat.one_ne_zero, and_false, if_false, hxs]
      rw [show List.take (xs.length + 1) (x :: xs) = x :: xs by simp]
      simp only [hany, Bool.false_eq_true, if_false, List.length_cons, ne_eq, not_true]
      rw [hd]
      simp only
      rw [batches_one w.routes (x :: xs) cs c hown (by simp) hc]
    rw [hset]
    have hh : handleSet ((asked1 w).at' c) ⟨comp, true, toItems (x :: xs), cm⟩ = r := by
      rw [handleSet_items _ _ _ _ _ (by simp)]; exact hr
    rw [setBatches_cons _ _ _ _ _ _ _ _ _ _ _ (asked1_answered ha) r hh]
    by_cases hs : isSuccess r.2.code = true
    · rw [if_pos hs]
      simp only [setBatches, heard_self, readCode, hs, if_true]
      exact ⟨trivial, trivial, by simp⟩
    · rw [if_neg hs]
      simp only [if_true, revert_nothing, heard_self]
      exact ⟨trivial, trivial, fun _ => trivial⟩

theorem handleSet_good (p : Provider) (r : SetRequest) (hne : r.items ≠ []) (hb : ∀ i ∈ r.items, i.bad = false) :
    handleSet p r = setLoop r.rollBack r.commit r.items [] p := by
  unfold handleSet
  cases h : r.items.getLast? with
  | none => exact absurd (List.getLast?_eq_none_iff.1 h) hne
  | some it => simp [hb it (List.mem_of_getLast? h)]

end Verif.Params
