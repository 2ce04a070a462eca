import Verif.Proof.Params

namespace Verif.Params

open Verif Verif.Spec.Params

/-! ## Discovery -/

theorem discoverLoop_one (items : List Comp) (k : Nat) (got : List Comp) (m : Nat) (hm : m ≤ items.length)
    (hg : got = items.take m) :
    discoverLoop 1 items k got = if m + k ≤ items.length then some (items.take (m + k)) else none := by
  induction k generalizing got m with
  | zero => simp [discoverLoop, hm, hg]
  | succ k ih =>
    have hl : got.length = m := by rw [hg, List.length_take]; omega
    rw [discoverLoop]
    simp only [hl]
    rcases Nat.lt_or_ge m items.length with h | h
    · have hn : (items.drop m).take 1 = [items[m]] := by
        rw [List.drop_eq_getElem_cons h]; rfl
      rw [hn, if_neg (by simp), ih (got ++ [items[m]]) (m + 1) h]
      · rw [show m + 1 + k = m + (k + 1) by omega]
      · rw [hg, List.take_add_one]; simp [h]
    · have hn : (items.drop m).take 1 = [] := by
        rw [List.drop_of_length_le h]; rfl
      rw [hn, if_pos (by simp), if_neg (by omega)]

theorem discoverLoop_zero (items : List Comp) (k : Nat) (got : List Comp) :
    discoverLoop 0 items k got = some got := by
  induction k generalizing got with
  | zero => rfl
  | succ k ih => rw [discoverLoop]; simp [ih]

theorem flatMap_singletons (f : Name → List Comp) (names : List Name) (cs : List Comp) :
    names.map f = cs.map ([·]) → names.flatMap f = cs := by
  induction names generalizing cs with
  | nil => cases cs <;> simp
  | cons n ns ih =>
    cases cs with
    | nil => simp
    | cons c cs =>
      simp only [List.map_cons, List.cons.injEq, List.flatMap_cons]
      rintro ⟨h1, h2⟩
      rw [h1, ih cs h2]; rfl

theorem flatMap_short (f : Name → List Comp) (names : List Name) (h : ∀ n ∈ names, (f n).length ≤ 1) :
    (names.flatMap f).length ≤ names.length ∧
      ((names.flatMap f).length = names.length → names.map f = (names.flatMap f).map ([·])) := by
  induction names with
  | nil => simp
  | cons n ns ih =>
    have hn := h n (by simp)
    obtain ⟨h1, h2⟩ := ih fun m hm => h m (by simp [hm])
    simp only [List.flatMap_cons, List.length_append, List.length_cons, List.map_cons, List.map_append]
    refine ⟨by omega, fun he => ?_⟩
    have h3 : (f n).length = 1 := by omega
    obtain ⟨c, hc⟩ := List.length_eq_one_iff.1 h3
    rw [← h2 (by omega), hc]; rfl

/-- With no more than one route for each name, the discovery is right. -/
theorem discover_iff (w : World) (names : List Name) (ha : w.fate = .answered)
    (h : ∀ n ∈ names, (w.routes n).length ≤ 1) (cs : List Comp) :
    (discover w names).2 = some cs ↔ names.map w.routes = cs.map ([·]) := by
  unfold discover
  simp only [ha]
  cases names with
  | nil => cases cs <;> simp [discoverLoop]
  | cons n ns =>
    obtain ⟨hle, heq⟩ := flatMap_short w.routes (n :: ns) h
    simp only [List.head?_cons, Option.map_some, Option.getD_some]
    generalize hitems : (n :: ns).flatMap w.routes = items at *
    have hcs : (n :: ns).map w.routes = cs.map ([·]) → items = cs := by
      intro hr; rw [← hitems]; exact flatMap_singletons _ _ _ hr
    have hn := h n (by simp)
    rcases (show (w.routes n).length = 0 ∨ (w.routes n).length = 1 by omega) with h0 | h1
    · rw [h0, discoverLoop_zero]
      have h0' := List.length_eq_zero_iff.1 h0
      cases cs <;> simp [h0']
    · rw [h1, discoverLoop_one items _ [] 0 (by simp) (by simp)]
      rw [Nat.zero_add]
      by_cases hlen : (n :: ns).length ≤ items.length
      · rw [if_pos hlen]
        have he : items.length = (n :: ns).length := Nat.le_antisymm hle hlen
        rw [← he, List.take_length]
        simp only [if_true, Option.some.injEq]
        constructor
        · rintro rfl; exact heq he
        · exact hcs
      · rw [if_neg hlen]
        simp only [reduceCtorEq, false_iff]
        intro hr
        have hl := congrArg List.length hr
        rw [List.length_map, List.length_map] at hl
        rw [hcs hr, hl] at hlen
        exact hlen (Nat.le_refl _)

theorem discover_world (w : World) (names : List Name) :
    (discover w names).1 = { w with fates := w.fates.tail } := by
  unfold discover
  split
  · split <;> rfl
  · rfl

/-! ## Batches -/

theorem mem_firsts (l : List Comp) (c : Comp) : c ∈ firsts l ↔ c ∈ l := by
  induction l with
  | nil => simp [firsts]
  | cons d ds ih =>
    simp only [firsts, List.mem_cons, List.mem_filter, ih, decide_eq_true_eq]
    constructor
    · rintro (h | h)
      · exact .inl h
      · exact .inr h.1
    · rintro (h | h)
      · exact .inl h
      · by_cases hd : c = d
        · exact .inl hd
        · exact .inr ⟨h, hd⟩

theorem nodup_firsts (l : List Comp) : (firsts l).Nodup := by
  induction l with
  | nil => simp [firsts]
  | cons d ds ih =>
    rw [firsts, List.nodup_cons]
    refine ⟨by simp, ih.filter _⟩

theorem batches_comps {α : Type} (l : List (Comp × α)) : (batches l).map (·.1) = firsts (l.map (·.1)) := by
  simp [batches, Function.comp_def]

theorem batches_nodup {α : Type} (l : List (Comp × α)) : ((batches l).map (·.1)).Nodup := by
  rw [batches_comps]; exact nodup_firsts _

theorem mem_batches {α : Type} (l : List (Comp × α)) (c : Comp) (m : List α) :
    (c, m) ∈ batches l ↔ c ∈ l.map (·.1) ∧ m = (l.filter (·.1 = c)).map (·.2) := by
  simp only [batches, List.mem_map, Prod.mk.injEq, mem_firsts]
  constructor
  · rintro ⟨d, hd, rfl, rfl⟩; exact ⟨hd, rfl⟩
  · rintro ⟨hc, rfl⟩; exact ⟨c, hc, rfl, rfl⟩

theorem split_perm {α : Type} (cs : List Comp) (l : List (Comp × α)) (hnd : cs.Nodup)
    (h : ∀ x ∈ l, x.1 ∈ cs) : (cs.flatMap fun c => (l.filter (·.1 = c)).map (·.2)).Perm (l.map (·.2)) := by
  induction cs generalizing l with
  | nil =>
    cases l with
    | nil => simp
    | cons x l => exact absurd (h x (by simp)) (by simp)
  | cons c cs ih =>
    rw [List.flatMap_cons]
    obtain ⟨hc, hnd'⟩ := List.nodup_cons.1 hnd
    have h1 := ih (l.filter fun x => !decide (x.1 = c)) hnd' (by
      intro x hx
      rw [List.mem_filter] at hx
      rcases List.mem_cons.1 (h x hx.1) with h2 | h2
      · simp [h2] at hx
      · exact h2)
    have h2 : (cs.flatMap fun d => ((l.filter fun x => !decide (x.1 = c)).filter (·.1 = d)).map (·.2)) =
        cs.flatMap fun d => (l.filter (·.1 = d)).map (·.2) := by
      simp only [List.flatMap_def]
      congr 1
      apply List.map_congr_left
      intro d hd
      rw [List.filter_filter]
      congr 1
      apply List.filter_congr
      intro x _
      by_cases hx : x.1 = d
      · have : d ≠ c := fun hdc => hc (hdc ▸ hd)
        simp [hx, this]
      · simp [hx]
    rw [h2] at h1
    refine (h1.append_left _).trans ?_
    rw [← List.map_append]
    exact (List.filter_append_perm (fun x : Comp × α => decide (x.1 = c)) l).map _

theorem batches_perm {α : Type} (l : List (Comp × α)) : ((batches l).flatMap (·.2)).Perm (l.map (·.2)) := by
  have : (batches l).flatMap (·.2) = (firsts (l.map (·.1))).flatMap fun c => (l.filter (·.1 = c)).map (·.2) := by
    simp [batches, List.flatMap_map]
  rw [this]
  exact split_perm _ _ (nodup_firsts _) fun x hx => (mem_firsts _ _).2 (List.mem_map_of_mem hx)

theorem batch_nonempty {α : Type} (l : List (Comp × α)) (c : Comp) (m : List α) (h : (c, m) ∈ batches l) :
    m ≠ [] := by
  obtain ⟨h1, rfl⟩ := (mem_batches l c m).1 h
  obtain ⟨x, hx, rfl⟩ := List.mem_map.1 h1
  intro he
  rw [List.map_eq_nil_iff, List.filter_eq_nil_iff] at he
  exact he x hx (by simp)

/-! ## Codes -/

theorem readCode_zero (r : Nat) : readCode r = 0 ↔ isSuccess r = true := by
  unfold readCode
  by_cases h : isSuccess r = true
  · simp [h, eSuccess]
  · rw [if_neg h]
    simp only [h, iff_false, Bool.false_eq_true]
    split
    · rename_i hl
      have : r ≠ 100 := by
        intro h2; apply h; simp [isSuccess, h2, legacySuccess]
      unfold ccspToRbus
      rw [if_neg this]
      repeat' split
      all_goals decide
    · intro h0; apply h; simp [isSuccess, h0, eSuccess]

theorem coreToRbus_ne (e : CoreErr) : coreToRbus e ≠ 0 := by cases e <;> decide

theorem mem_backup_codes {p : Provider} {rb : Bool} {e : Elem} {n : Name} {c : Nat}
    (h : c ∈ (backup p rb e n).1.codes) : c ∈ p.codes := by
  unfold backup at h
  split at h
  · exact List.mem_of_mem_tail h
  · exact h

theorem code_mem (p : Provider) : p.code = 0 ∨ p.code ∈ p.codes := by
  unfold Provider.code
  cases p.codes with
  | nil => exact .inl rfl
  | cons c cs => exact .inr (by simp)

theorem setLoop_code (rb cm : Bool) (items : List Item) (kept : List Prop') (p : Provider) :
    (setLoop rb cm items kept p).2.code ∈ [0, eElementMissing, eNotWritable] ∨
      (setLoop rb cm items kept p).2.code ∈ p.codes := by
  induction items generalizing kept p with
  | nil => left; simp [setLoop, eSuccess]
  | cons it rest ih =>
    rw [setLoop]
    cases he : p.elem it.name with
    | none => left; simp
    | some e =>
      simp only
      split
      · split
        · right
          rename_i hc
          rcases code_mem (backup p rb e it.name).1 with h | h
          · exact absurd h hc
          · exact mem_backup_codes h
        · rcases ih (kept ++ (backup p rb e it.name).2)
            (callSet (backup p rb e it.name).1 it.name it.value (cm && rest.isEmpty)).1 with h | h
          · exact .inl h
          · exact .inr (mem_backup_codes (List.mem_of_mem_tail h))
      · left; simp

theorem handleSet_code (p : Provider) (r : SetRequest) :
    (handleSet p r).2.code ∈ [0, eInvalidInput, eElementMissing, eNotWritable] ∨ (handleSet p r).2.code ∈ p.codes := by
  unfold handleSet
  split
  · left; simp
  · split
    · left; simp
    · rcases setLoop_code r.rollBack r.commit r.items [] p with h | h
      · left
        simp only [List.mem_cons, List.not_mem_nil, or_false] at h ⊢
        omega
      · exact .inr h

/-- Without handlers that answer 100, a provider's answer says success only if it is one. -/
theorem handleSet_success {p : Provider} {r : SetRequest} (h100 : legacySuccess ∉ p.codes)
    (h : isSuccess (handleSet p r).2.code = true) : (handleSet p r).2.code = 0 := by
  simp only [isSuccess, Bool.or_eq_true, decide_eq_true_eq] at h
  rcases h with h | h
  · exact h
  · rcases handleSet_code p r with h1 | h1
    · rw [h] at h1
      exact absurd h1 (by decide)
    · rw [h] at h1; exact absurd h1 h100

theorem handleSet_store {p : Provider} {r : SetRequest} (h : (handleSet p r).2.code = 0) :
    (handleSet p r).1.store = writes p.store (asked r.items) := by
  unfold handleSet at h ⊢
  split at h
  · simp [eInvalidInput] at h
  · rename_i lastItem hl
    split at h
    · simp [eInvalidInput] at h
    · rename_i hb
      rw [if_neg hb]
      exact (setLoop_success _ _ _ _ _ h).1

/-- The items of a batch. -/
def toItems (m : List Prop') : List Item := m.map fun y => { name := y.1, value := y.2 }

theorem asked_toItems (m : List Prop') : asked (toItems m) = m := by
  simp [asked, toItems, Function.comp_def]

theorem handleSet_items (p : Provider) (comp : Comp) (rb cm : Bool) (m : List Prop') (hm : m ≠ []) :
    handleSet p ⟨comp, rb, toItems m, cm⟩ = setLoop rb cm (toItems m) [] p := by
  unfold handleSet
  cases h : (toItems m).getLast? with
  | none =>
    rw [List.getLast?_eq_none_iff] at h
    simp [toItems] at h
    exact absurd h hm
  | some it =>
    have : it.bad = false := by
      have := List.mem_of_getLast? h
      simp only [toItems, List.mem_map] at this
      obtain ⟨y, _, rfl⟩ := this
      rfl
    simp [this]

/-! ## Setting -/

theorem answered_fate {w : World} (h : Answered w) : w.fate = .answered := by
  unfold World.fate
  cases hf : w.fates with
  | nil => rfl
  | cons f fs => exact h f (by simp [hf])

theorem invoke_answered {α : Type} {w : World} (h : Answered w) (c : Comp) (act : Provider → Provider × α)
    (code : α → Nat) :
    invoke w c act code =
      ({ ({ w with fates := w.fates.tail } : World).put c (act (w.at' c)).1 with
          answers := w.answers ++ [code (act (w.at' c)).2] }, .inr (act (w.at' c)).2) := by
  unfold invoke
  simp only [answered_fate h]

/-- The world after an answered call. -/
def heard {α : Type} (w : World) (c : Comp) (r : Provider × α) (code : α → Nat) : World :=
  { ({ w with fates := w.fates.tail } : World).put c r.1 with answers := w.answers ++ [code r.2] }

theorem heard_answered {α : Type} {w : World} (h : Answered w) (c : Comp) (r : Provider × α) (code : α → Nat) :
    Answered (heard w c r code) := fun f hf => h f (List.mem_of_mem_tail hf)

theorem heard_self {α : Type} (w : World) (c : Comp) (r : Provider × α) (code : α → Nat) :
    (heard w c r code).at' c = r.1 := by simp [heard, World.put]

theorem heard_other {α : Type} (w : World) (c d : Comp) (r : Provider × α) (code : α → Nat) (h : d ≠ c) :
    (heard w c r code).at' d = w.at' d := by simp [heard, World.put, h]

theorem setBatches_cons (comp : Comp) (rb cm : Bool) (revert : World → List Prop' → World) (c : Comp)
    (mine : List Prop') (bs : List (Comp × List Prop')) (err : Nat) (kept : List Prop') (tell : Bool) (w : World)
    (ha : Answered w) (r : Provider × SetReply) (hr : handleSet (w.at' c) ⟨comp, rb, toItems mine, cm⟩ = r) :
    setBatches comp rb cm revert ((c, mine) :: bs) err kept tell w =
      if isSuccess r.2.code = true then
        setBatches comp rb cm revert bs eSuccess r.2.old false (heard w c r (·.code))
      else (if rb = true then revert (heard w c r (·.code)) kept else heard w c r (·.code),
          ⟨readCode r.2.code, if tell = true then r.2.failed else none⟩) := by
  rw [setBatches, invoke_answered ha, ← hr]
  rfl

theorem setBatches_success (comp : Comp) (rb cm : Bool) (revert : World → List Prop' → World)
    (bs : List (Comp × List Prop')) (err : Nat) (kept : List Prop') (tell : Bool) (w : World)
    (ha : Answered w) (hnd : (bs.map (·.1)).Nodup)
    (h100 : ∀ b ∈ bs, legacySuccess ∉ (w.at' b.1).codes)
    (h : (setBatches comp rb cm revert bs err kept tell w).2.code = 0) :
    (∀ b ∈ bs, ((setBatches comp rb cm revert bs err kept tell w).1.at' b.1).store =
        writes (w.at' b.1).store b.2) ∧
      (∀ c, c ∉ bs.map (·.1) → (setBatches comp rb cm revert bs err kept tell w).1.at' c = w.at' c) := by
  induction bs generalizing err kept tell w with
  | nil => exact ⟨by simp, fun c _ => rfl⟩
  | cons b bs ih =>
    obtain ⟨c, mine⟩ := b
    simp only [List.map_cons, List.nodup_cons] at hnd
    generalize hr : handleSet (w.at' c) ⟨comp, rb, toItems mine, cm⟩ = r
    rw [setBatches_cons _ _ _ _ _ _ _ _ _ _ _ ha r hr] at h ⊢
    by_cases hs : isSuccess r.2.code = true
    · rw [if_pos hs] at h ⊢
      have hc0 : r.2.code = 0 := by
        rw [← hr] at hs ⊢
        exact handleSet_success (h100 (c, mine) (by simp)) hs
      have hst : r.1.store = writes (w.at' c).store mine := by
        rw [← hr] at hc0 ⊢
        rw [handleSet_store hc0]
        simp only [asked_toItems]
      have hne : ∀ b ∈ bs, b.1 ≠ c := fun b hb hbc => hnd.1 (hbc ▸ List.mem_map_of_mem hb)
      obtain ⟨h1, h2⟩ := ih eSuccess r.2.old false (heard w c r (·.code)) (heard_answered ha _ _ _) hnd.2
        (fun b hb => by rw [heard_other _ _ _ _ _ (hne b hb)]; exact h100 b (by simp [hb])) h
      refine ⟨?_, ?_⟩
      · intro b hb
        rcases List.mem_cons.1 hb with rfl | hb
        · simp only
          rw [h2 _ hnd.1, heard_self, hst]
        · rw [h1 b hb, heard_other _ _ _ _ _ (hne b hb)]
      · intro d hd
        simp only [List.map_cons, List.mem_cons, not_or] at hd
        rw [h2 d hd.2, heard_other _ _ _ _ _ hd.1]
    · rw [if_neg hs] at h
      exact absurd ((readCode_zero _).1 h) hs

end Verif.Params
