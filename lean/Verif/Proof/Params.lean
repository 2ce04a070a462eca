import Verif.Spec.Params

namespace Verif.Params

open Verif Verif.Spec.Params

def writes (s : Name → Value) (l : List Prop') : Name → Value := l.foldl (fun s x => write s x.1 x.2) s

theorem writes_nil (s : Name → Value) : writes s [] = s := rfl
theorem writes_cons (s : Name → Value) (x : Prop') (l : List Prop') :
    writes s (x :: l) = writes (write s x.1 x.2) l := rfl
theorem writes_append (s : Name → Value) (a b : List Prop') : writes s (a ++ b) = writes (writes s a) b :=
  List.foldl_append

theorem after_writes (s : Name → Value) (l : List Prop') : after s l = writes s l := by
  induction l generalizing s with
  | nil => rfl
  | cons x l ih =>
    rw [writes_cons, ← ih]
    funext n
    simp only [after, List.reverse_cons, List.find?_append, write]
    cases h : l.reverse.find? (fun x => x.1 = n) with
    | some y => simp
    | none =>
      by_cases hx : x.1 = n
      · simp [hx]
      · simp [hx, Ne.symm hx]

theorem writes_absent (s : Name → Value) (l : List Prop') (n : Name) (h : n ∉ l.map (·.1)) :
    writes s l n = s n := by
  induction l generalizing s with
  | nil => rfl
  | cons x l ih =>
    simp only [List.map_cons, List.mem_cons, not_or] at h
    rw [writes_cons, ih _ h.2]
    simp [write, h.1]

/-- Names that are written anyway do not matter before. -/
theorem writes_congr (s t : Name → Value) (l : List Prop') (n : Name)
    (h : n ∈ l.map (·.1) ∨ s n = t n) : writes s l n = writes t l n := by
  induction l generalizing s t with
  | nil => simpa [writes_nil] using h
  | cons x l ih =>
    rw [writes_cons, writes_cons]
    apply ih
    by_cases hx : n = x.1
    · right; simp [write, hx]
    · rcases h with h | h
      · left
        simpa [hx] using h
      · right; simp [write, hx, h]

/-! ## The provider -/

theorem callSet_elem (p : Provider) (n : Name) (v : Value) (b : Bool) : (callSet p n v b).1.elem = p.elem := rfl
theorem callGet_elem (p : Provider) (n : Name) : (callGet p n).1.elem = p.elem := rfl

theorem backup_elem (p : Provider) (rb : Bool) (e : Elem) (n : Name) : (backup p rb e n).1.elem = p.elem := by
  unfold backup; split <;> rfl
theorem backup_store (p : Provider) (rb : Bool) (e : Elem) (n : Name) : (backup p rb e n).1.store = p.store := by
  unfold backup; split <;> rfl

theorem restore_elem (p : Provider) (b : Bool) (l : List Prop') : (restore p b l).elem = p.elem := by
  induction l generalizing p with
  | nil => rfl
  | cons x l ih => obtain ⟨n, v⟩ := x; rw [restore, ih]; rfl

theorem restore_codes (p : Provider) (b : Bool) (l : List Prop') :
    (restore p b l).codes = p.codes.drop l.length := by
  induction l generalizing p with
  | nil => rfl
  | cons x l ih =>
    obtain ⟨n, v⟩ := x
    rw [restore, ih]
    simp [callSet, List.drop_tail]

theorem restore_untouched (p : Provider) (b : Bool) (l : List Prop') (n : Name) (h : n ∉ l.map (·.1)) :
    (restore p b l).store n = p.store n := by
  induction l generalizing p with
  | nil => rfl
  | cons x l ih =>
    obtain ⟨m, v⟩ := x
    simp only [List.map_cons, List.mem_cons, not_or] at h
    rw [restore, ih _ h.2]
    simp only [callSet]
    split
    · simp [write, h.1]
    · rfl

theorem code_zero {p : Provider} (h : ∀ c ∈ p.codes, c = 0) : p.code = 0 := by
  unfold Provider.code
  cases hc : p.codes with
  | nil => rfl
  | cons c cs => exact h c (by simp [hc])

theorem tail_zero {l : List Nat} (h : ∀ c ∈ l, c = 0) : ∀ c ∈ l.tail, c = 0 :=
  fun c hc => h c (List.mem_of_mem_tail hc)

theorem restore_zero (p : Provider) (b : Bool) (l : List Prop') (h : ∀ c ∈ p.codes, c = 0) :
    (restore p b l).store = writes p.store l := by
  induction l generalizing p with
  | nil => rfl
  | cons x l ih =>
    obtain ⟨n, v⟩ := x
    rw [restore, ih]
    · simp [callSet, code_zero h, writes_cons]
    · exact tail_zero h

/-- Everything about a set request that succeeds. -/
theorem setLoop_success (rb cm : Bool) (items : List Item) (kept : List Prop') (p : Provider)
    (h : (setLoop rb cm items kept p).2.code = 0) :
    (setLoop rb cm items kept p).1.store = writes p.store (asked items) ∧
      (setLoop rb cm items kept p).1.elem = p.elem ∧
      setCalls (setLoop rb cm items kept p).1.calls = setCalls p.calls ++
        (items.mapIdx fun i it => (it.name, it.value, cm && decide (i + 1 = items.length))) := by
  induction items generalizing kept p with
  | nil => simp [setLoop, asked, writes_nil]
  | cons it rest ih =>
    rw [setLoop] at h ⊢
    cases he : p.elem it.name with
    | none => simp [he, eElementMissing] at h
    | some e =>
      simp only [he] at h ⊢
      by_cases hs : e.set = true
      · rw [if_pos hs] at h ⊢
        by_cases hc : (callSet (backup p rb e it.name).1 it.name it.value (cm && rest.isEmpty)).2 ≠ 0
        · rw [if_pos hc] at h
          exact absurd h hc
        · rw [if_neg hc] at h ⊢
          obtain ⟨h1, h2, h3⟩ := ih _ _ h
          have hc0 : (backup p rb e it.name).1.code = 0 := by
            simpa [callSet] using hc
          refine ⟨?_, ?_, ?_⟩
          · rw [h1]
            simp [asked, writes_cons, callSet, hc0, backup_store]
          · rw [h2, callSet_elem, backup_elem]
          · rw [h3]
            have hb : setCalls (backup p rb e it.name).1.calls = setCalls p.calls := by
              unfold backup
              split
              · simp [callGet, setCalls]
              · rfl
            have : setCalls (callSet (backup p rb e it.name).1 it.name it.value (cm && rest.isEmpty)).1.calls =
                setCalls p.calls ++ [(it.name, it.value, cm && rest.isEmpty)] := by
              rw [← hb]
              simp [callSet, setCalls]
            rw [this, List.append_assoc]
            congr 1
            rw [List.mapIdx_cons]
            simp only [List.singleton_append, List.cons.injEq, Prod.mk.injEq, true_and]
            constructor
            · cases rest <;> simp
            · congr 1
              funext i it
              simp
      · rw [if_neg hs] at h
        simp [eNotWritable] at h

/-- Parameters that are not in the request keep their values. -/
theorem setLoop_untouched (rb cm : Bool) (items : List Item) (kept : List Prop') (p : Provider) (n : Name)
    (hn : n ∉ items.map (·.name)) (hk : n ∉ kept.map (·.1)) :
    (setLoop rb cm items kept p).1.store n = p.store n := by
  induction items generalizing kept p with
  | nil => rfl
  | cons it rest ih =>
    simp only [List.map_cons, List.mem_cons, not_or] at hn
    rw [setLoop]
    have hset : ∀ q : Provider, q.store = p.store → ∀ b,
        (callSet q it.name it.value b).1.store n = p.store n := by
      intro q hq b
      simp only [callSet, hq]
      split
      · simp [write, hn.1]
      · rfl
    cases he : p.elem it.name with
    | none => rfl
    | some e =>
      simp only
      split
      · split
        · split
          · rw [restore_untouched _ _ _ _ hk]
            exact hset _ (backup_store ..) _
          · exact hset _ (backup_store ..) _
        · rw [ih _ _ hn.2]
          · exact hset _ (backup_store ..) _
          · rw [List.map_append, List.mem_append, not_or]
            refine ⟨hk, ?_⟩
            unfold backup
            split
            · simpa using hn.1
            · simp
      · rfl

theorem countP_tail {l : List Nat} (h : l.countP (· ≠ 0) ≤ 1) (hn : l.headD 0 ≠ 0) : ∀ c ∈ l.tail, c = 0 := by
  cases l with
  | nil => simp at hn
  | cons a l =>
    intro c hc
    have ha : a ≠ 0 := hn
    rw [List.countP_cons_of_pos (by simpa using ha)] at h
    have : l.countP (· ≠ 0) = 0 := by omega
    rw [List.countP_eq_zero] at this
    simpa using this c hc

theorem countP_tail_le (l : List Nat) : l.tail.countP (· ≠ 0) ≤ l.countP (· ≠ 0) :=
  List.Sublist.countP_le (List.tail_sublist l)

/-- With handlers that work, a request for known parameters succeeds. -/
theorem setLoop_works (rb cm : Bool) (items : List Item) (kept : List Prop') (p : Provider)
    (hk : ∀ i ∈ items, ∃ e, p.elem i.name = some e ∧ e.set = true) (hz : ∀ c ∈ p.codes, c = 0) :
    (setLoop rb cm items kept p).2.code = 0 ∧ (∀ c ∈ (setLoop rb cm items kept p).1.codes, c = 0) := by
  induction items generalizing kept p with
  | nil => exact ⟨rfl, hz⟩
  | cons it rest ih =>
    obtain ⟨e, he, hs⟩ := hk it (by simp)
    have hbz : ∀ c ∈ (backup p rb e it.name).1.codes, c = 0 := by
      unfold backup
      split
      · exact tail_zero hz
      · exact hz
    have hc : (callSet (backup p rb e it.name).1 it.name it.value (cm && rest.isEmpty)).2 = 0 := code_zero hbz
    rw [setLoop]
    simp only [he]
    rw [if_pos hs, if_neg (by simpa using hc)]
    apply ih
    · intro i hi
      rw [callSet_elem, backup_elem]
      exact hk i (by simp [hi])
    · exact tail_zero hbz

/-- What is kept puts the store back; at most one handler call fails. -/
theorem setLoop_restores (cm : Bool) (s0 : Name → Value) (items : List Item) (kept : List Prop') (p : Provider)
    (hk : ∀ i ∈ items, Known p i.name) (hnd : (items.map (·.name)).Nodup)
    (hfresh : ∀ i ∈ items, i.name ∉ kept.map (·.1))
    (hone : p.codes.countP (· ≠ 0) ≤ 1) (hs0 : writes p.store kept = s0)
    (hfail : (setLoop true cm items kept p).2.code ≠ 0) :
    (setLoop true cm items kept p).1.store = s0 := by
  induction items generalizing kept p with
  | nil => exact absurd rfl hfail
  | cons it rest ih =>
    have he : p.elem it.name = some ⟨true, true⟩ := hk it (by simp)
    have hb : backup p true ⟨true, true⟩ it.name = ((callGet p it.name).1, [(it.name, (callGet p it.name).2.1)]) := by
      simp [backup]
    rw [setLoop] at hfail ⊢
    simp only [he, hb, if_true] at hfail ⊢
    by_cases hc : (callSet (callGet p it.name).1 it.name it.value (cm && rest.isEmpty)).2 ≠ 0
    · rw [if_pos hc]
      simp only
      have hct : p.codes.tail.headD 0 ≠ 0 := hc
      have hz : ∀ c ∈ p.codes.tail.tail, c = 0 :=
        countP_tail (Nat.le_trans (countP_tail_le _) hone) hct
      rw [restore_zero _ _ _ (by exact hz)]
      have hst : (callSet (callGet p it.name).1 it.name it.value (cm && rest.isEmpty)).1.store = p.store :=
        if_neg (c := (callGet p it.name).1.code = 0) hct
      rw [hst]
      exact hs0
    · rw [if_neg hc] at hfail ⊢
      have hct : p.codes.tail.headD 0 = 0 := by simpa [callSet, callGet, Provider.code] using hc
      by_cases hg : p.code = 0
      · apply ih _ _ _ _ _ _ _ hfail
        · intro i hi; exact hk i (by simp [hi])
        · exact (List.nodup_cons.1 hnd).2
        · intro i hi
          rw [List.map_append, List.mem_append, not_or]
          refine ⟨hfresh i (by simp [hi]), ?_⟩
          intro hm
          simp only [List.map_cons, List.map_nil, List.mem_singleton] at hm
          exact (List.nodup_cons.1 hnd).1 (List.mem_map.2 ⟨i, hi, hm⟩)
        · exact Nat.le_trans (countP_tail_le _) (Nat.le_trans (countP_tail_le _) hone)
        · rw [writes_append]
          have hst : (callSet (callGet p it.name).1 it.name it.value (cm && rest.isEmpty)).1.store =
              write p.store it.name it.value :=
            if_pos (c := (callGet p it.name).1.code = 0) hct
          rw [hst]
          have hn : it.name ∉ kept.map (·.1) := hfresh it (by simp)
          have hsn : p.store it.name = s0 it.name := by
            rw [← hs0, writes_absent _ _ _ hn]
          funext m
          simp only [writes_cons, writes_nil, write, callGet, hg, if_true]
          by_cases hm : m = it.name
          · simp [hm, hsn]
          · rw [if_neg hm, ← hs0]
            exact writes_congr _ _ _ _ (.inr (by simp [write, hm]))
      · have hz := countP_tail hone hg
        have := (setLoop_works true cm rest (kept ++ [(it.name, (callGet p it.name).2.1)])
          (callSet (callGet p it.name).1 it.name it.value (cm && rest.isEmpty)).1
          (fun i hi => ⟨_, hk i (by simp [hi]), rfl⟩) (tail_zero hz)).1
        exact absurd this hfail

/-- The old values reported with success. -/
theorem setLoop_old (cm : Bool) (items : List Item) (kept : List Prop') (p : Provider)
    (hk : ∀ i ∈ items, Known p i.name) (hnd : (items.map (·.name)).Nodup)
    (hz : ∀ c ∈ p.codes, c = 0) :
    (setLoop true cm items kept p).2.old = kept ++ items.map fun i => (i.name, p.store i.name) := by
  induction items generalizing kept p with
  | nil => simp [setLoop]
  | cons it rest ih =>
    have he : p.elem it.name = some ⟨true, true⟩ := hk it (by simp)
    have hb : backup p true ⟨true, true⟩ it.name = ((callGet p it.name).1, [(it.name, (callGet p it.name).2.1)]) := by
      simp [backup]
    have hc : (callSet (callGet p it.name).1 it.name it.value (cm && rest.isEmpty)).2 = 0 :=
      code_zero (p := (callGet p it.name).1) (tail_zero hz)
    have hg : p.code = 0 := code_zero hz
    rw [setLoop]
    simp only [he, hb, if_true]
    rw [if_neg (by simpa using hc), ih]
    · rw [List.append_assoc]
      congr 1
      simp only [List.map_cons, List.singleton_append, callGet, hg, if_true, List.cons.injEq, true_and]
      apply List.map_congr_left
      intro i hi
      have hne : i.name ≠ it.name := fun h =>
        (List.nodup_cons.1 hnd).1 (List.mem_map.2 ⟨i, hi, h⟩)
      simp only [callSet]
      split <;> simp [write, hne]
    · intro i hi; exact hk i (by simp [hi])
    · exact (List.nodup_cons.1 hnd).2
    · exact tail_zero (tail_zero hz)

/-- A set request stops, with what was set so far, at a parameter that is not there or not writable. -/
theorem setLoop_stops (rb cm : Bool) (a : List Item) (x : Item) (b : List Item) (kept : List Prop') (p : Provider)
    (ha : ∀ i ∈ a, ∃ e, p.elem i.name = some e ∧ e.set = true) (hz : ∀ c ∈ p.codes, c = 0)
    (hx : ∀ e, p.elem x.name = some e → e.set = false) :
    (setLoop rb cm (a ++ x :: b) kept p).1.store = writes p.store (asked a) ∧
      (setLoop rb cm (a ++ x :: b) kept p).2.code ≠ 0 := by
  induction a generalizing kept p with
  | nil =>
    rw [List.nil_append, setLoop]
    cases he : p.elem x.name with
    | none => exact ⟨rfl, by simp [eElementMissing]⟩
    | some e => simp [hx e he, asked, writes_nil, eNotWritable]
  | cons it rest ih =>
    obtain ⟨e, he, hs⟩ := ha it (by simp)
    have hbz : ∀ c ∈ (backup p rb e it.name).1.codes, c = 0 := by
      unfold backup
      split
      · exact tail_zero hz
      · exact hz
    have hc : (callSet (backup p rb e it.name).1 it.name it.value (cm && (rest ++ x :: b).isEmpty)).2 = 0 :=
      code_zero hbz
    rw [List.cons_append, setLoop]
    simp only [he]
    rw [if_pos hs, if_neg (by simpa using hc)]
    have := ih (kept ++ (backup p rb e it.name).2)
      (callSet (backup p rb e it.name).1 it.name it.value (cm && (rest ++ x :: b).isEmpty)).1
      (by intro i hi; rw [callSet_elem, backup_elem]; exact ha i (by simp [hi])) (tail_zero hbz)
      (by intro e he; rw [callSet_elem, backup_elem] at he; exact hx e he)
    refine ⟨?_, this.2⟩
    rw [this.1]
    simp [asked, writes_cons, callSet, code_zero hbz, backup_store]

end Verif.Params
