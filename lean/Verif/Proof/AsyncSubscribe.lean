import Verif.Spec.AsyncSubscribe
import Verif.Props.Time

/-!
# Proofs about asynchronous subscriptions
-/

namespace Verif.Async

open Verif Verif.Time
open Verif.Spec.Time (Normal nanos)
open Verif.Spec.Async

/-! ### Times -/

theorem elapsed_eq {s e : Time} (hs : Normal s) (he : Normal e) (h1 : nanos s ≤ nanos e)
    (h2 : nanos e < nanos s + 2 ^ 32 * 1000000) :
    (elapsed s e : Int) = (nanos e - nanos s) / 1000000 := by
  have key : ∀ x : Int, 0 ≤ x → x < 2 ^ 32 → ((BitVec.ofInt 32 (toInt32 x)).toNat : Int) = x := by
    intro x h1 h2
    rw [toInt32, BitVec.ofInt_toInt, BitVec.toNat_ofInt]
    omega
  obtain ⟨a1, a2⟩ := hs
  obtain ⟨b1, b2⟩ := he
  simp only [nanos] at *
  unfold elapsed Time.elapsed
  split
  · rw [Int.tdiv_eq_ediv_of_nonneg (by omega), key] <;> omega
  · rw [Int.tdiv_eq_ediv_of_nonneg (by omega), key] <;> omega

theorem compare_le {a b : Time} (ha : Normal a) (hb : Normal b) : Time.compare a b ≤ 0 ↔ nanos a ≤ nanos b := by
  rw [Props.C42_compare_is_order a b ha hb]
  rcases Int.lt_trichotomy (nanos a - nanos b) 0 with h | h | h
  · rw [Int.sign_eq_neg_one_of_neg h]; omega
  · rw [h]; simp; omega
  · rw [Int.sign_eq_one_of_pos h]; omega

theorem compare_lt {a b : Time} (ha : Normal a) (hb : Normal b) : Time.compare a b < 0 ↔ nanos a < nanos b := by
  rw [Props.C42_compare_is_order a b ha hb]
  rcases Int.lt_trichotomy (nanos a - nanos b) 0 with h | h | h
  · rw [Int.sign_eq_neg_one_of_neg h]; omega
  · rw [h]; simp; omega
  · rw [Int.sign_eq_one_of_pos h]; omega

theorem later_ns {t : Time} (ht : Normal t) {ms : Nat} (h : ms < 2 ^ 32) :
    Normal (later t (BitVec.ofNat 32 ms)) ∧ nanos (later t (BitVec.ofNat 32 ms)) = nanos t + ms * 1000000 := by
  obtain ⟨h1, h2⟩ := Props.C42_later_exact t ht (BitVec.ofNat 32 ms)
  refine ⟨h1, ?_⟩
  rw [h2, BitVec.toNat_ofNat, Nat.mod_eq_of_lt h]

/-- The wait after so many retries. -/
def waitAfter (k : Nat) : Nat := if k = 0 then 0 else min (1000 * 2 ^ (k - 1)) 60000

theorem nextWait_waitAfter (k : Nat) : nextWait (waitAfter k) = waitAfter (k + 1) := by
  unfold nextWait waitAfter maxWait
  cases k with
  | zero => simp
  | succ k =>
    have hp : 0 < 2 ^ k := Nat.two_pow_pos k
    simp only [Nat.succ_ne_zero, if_false, Nat.add_sub_cancel, Nat.pow_succ]
    have : min (1000 * 2 ^ k) 60000 ≠ 0 := by omega
    simp only [this, if_false]
    split <;> omega

/-! ### Histories -/

theorem accepted_snoc {h : History} {e o id n t} : Accepted (h ++ [(e, o)]) id n t ↔
    Accepted h id n t ∨ ∃ ev f, e = .request n ev f t ∧ o = .accepted id := by
  simp only [Accepted, List.mem_append, List.mem_singleton, Prod.mk.injEq]
  constructor
  · rintro ⟨ev, f, h | ⟨h1, h2⟩⟩
    · exact Or.inl ⟨ev, f, h⟩
    · exact Or.inr ⟨ev, f, h1.symm, h2.symm⟩
  · rintro (⟨ev, f, h⟩ | ⟨ev, f, h1, h2⟩)
    · exact ⟨ev, f, Or.inl h⟩
    · exact ⟨ev, f, Or.inr ⟨h1.symm, h2.symm⟩⟩

theorem completed_snoc {h : History} {e o id c} : Completed (h ++ [(e, o)]) id c ↔
    Completed h id c ∨ o = .done id c := by
  simp only [Completed, List.mem_append, List.mem_singleton, Prod.mk.injEq]
  constructor
  · rintro ⟨ev, h | ⟨h1, h2⟩⟩
    · exact Or.inl ⟨ev, h⟩
    · exact Or.inr h2.symm
  · rintro (⟨ev, h⟩ | h2)
    · exact ⟨ev, Or.inl h⟩
    · exact ⟨e, Or.inr ⟨rfl, h2.symm⟩⟩

theorem withdrawn_snoc {h : History} {e o id} : Withdrawn (h ++ [(e, o)]) id ↔
    Withdrawn h id ∨ o = .cancelled id ∨ o = .closed (some id) := by
  simp only [Withdrawn, List.mem_append, List.mem_singleton, Prod.mk.injEq]
  constructor
  · rintro ⟨ev, (h | ⟨_, h⟩) | (h | ⟨_, h⟩)⟩
    · exact Or.inl ⟨ev, Or.inl h⟩
    · exact Or.inr (Or.inl h.symm)
    · exact Or.inl ⟨ev, Or.inr h⟩
    · exact Or.inr (Or.inr h.symm)
  · rintro (⟨ev, h | h⟩ | h | h)
    · exact ⟨ev, Or.inl (Or.inl h)⟩
    · exact ⟨ev, Or.inr (Or.inl h)⟩
    · exact ⟨e, Or.inl (Or.inr ⟨rfl, h.symm⟩)⟩
    · exact ⟨e, Or.inr (Or.inr ⟨rfl, h.symm⟩)⟩

theorem mem_completions {h : History} {id} : id ∈ completions h ↔ ∃ c, Completed h id c := by
  simp only [completions, List.mem_filterMap, Completed]
  constructor
  · rintro ⟨⟨e, o⟩, hm, hx⟩
    cases o <;> simp at hx
    subst hx
    exact ⟨_, e, hm⟩
  · rintro ⟨c, e, hm⟩
    exact ⟨_, hm, rfl⟩

/-- What is always true. -/
structure Inv (h : History) (s : State) : Prop where
  nodup : (s.items.map (·.id)).Nodup
  below : ∀ x ∈ s.items, x.id < s.nextId
  fresh : ∀ id n t, Accepted h id n t → id < s.nextId
  unused : ∀ id, s.nextId ≤ id → retries h id = 0
  known : ∀ x ∈ s.items, Accepted h x.id x.handle x.start
  settled : ∀ id n t, Accepted h id n t →
    (∃ x ∈ s.items, x.id = id ∧ x.handle = n ∧ x.start = t) ∨ Withdrawn h id ∨ ∃ c, Completed h id c
  gone : ∀ id, Withdrawn h id → id < s.nextId ∧ ∀ x ∈ s.items, x.id ≠ id
  called : ∀ id c, Completed h id c → id < s.nextId ∧ ∀ x ∈ s.items, x.id = id →
    ∃ now ok, s.worker = .calling now id ok ∨ s.worker = .called now id ok
  told : ∀ i, (∃ now ok, s.worker = .calling now i ok ∨ s.worker = .called now i ok) → ∃ c, Completed h i c
  once : (completions h).Nodup
  waits : ∀ x ∈ s.items, x.wait = waitAfter (retries h x.id)
  due : ∀ x ∈ s.items, dueTime h x.id = some x.due
  clock : ∀ now, (∃ li, s.worker = .item now li) ∨ (∃ i, s.worker = .waiting now i) ∨
    (∃ i ok, s.worker = .calling now i ok) ∨ (∃ i ok, s.worker = .called now i ok) → workerTime h = some now

theorem Inv.init : Inv [] State.init := by
  constructor <;> simp [State.init, Accepted, Withdrawn, Completed, completions, retries]

/-- An event that says nothing about requests and leaves them as they are. -/
theorem Inv.same {h : History} {s s' : State} (hi : Inv h s) {e : Op} {o : Out}
    (hitems : s'.items = s.items) (hnext : s'.nextId = s.nextId)
    (ho : (∀ id, o ≠ .accepted id) ∧ (∀ id c, o ≠ .done id c) ∧ (∀ id t, o ≠ .retry id t) ∧
      (∀ id, o ≠ .cancelled id) ∧ (∀ id, o ≠ .closed (some id)))
    (hw : ∀ i, (∃ now ok, s.worker = .calling now i ok ∨ s.worker = .called now i ok) →
      ∃ now ok, s'.worker = .calling now i ok ∨ s'.worker = .called now i ok)
    (hb : ∀ i, (∃ now ok, s'.worker = .calling now i ok ∨ s'.worker = .called now i ok) →
      ∃ now ok, s.worker = .calling now i ok ∨ s.worker = .called now i ok)
    (hc : ∀ now, (∃ li, s'.worker = .item now li) ∨ (∃ i, s'.worker = .waiting now i) ∨
      (∃ i ok, s'.worker = .calling now i ok) ∨ (∃ i ok, s'.worker = .called now i ok) →
      workerTime (h ++ [(e, o)]) = some now) : Inv (h ++ [(e, o)]) s' := by
  obtain ⟨o1, o2, o3, o4, o5⟩ := ho
  have ha : ∀ id n t, Accepted (h ++ [(e, o)]) id n t ↔ Accepted h id n t := by
    intro id n t; rw [accepted_snoc]; simp [o1]
  have hd : ∀ id c, Completed (h ++ [(e, o)]) id c ↔ Completed h id c := by
    intro id c; rw [completed_snoc]; simp [o2]
  have hg : ∀ id, Withdrawn (h ++ [(e, o)]) id ↔ Withdrawn h id := by
    intro id; rw [withdrawn_snoc]; simp [o4, o5]
  have hr : ∀ id, retries (h ++ [(e, o)]) id = retries h id := by
    intro id
    simp only [retries, List.countP_append, List.countP_singleton]
    cases o <;> simp at o3 ⊢
  have hcomp : completions (h ++ [(e, o)]) = completions h := by
    simp only [completions, List.filterMap_append]
    cases o <;> simp at o2 ⊢
  have hdue : ∀ id, dueTime (h ++ [(e, o)]) id = dueTime h id := by
    intro id
    simp only [dueTime, List.foldl_append, List.foldl_cons, List.foldl_nil]
    cases o <;> cases e <;> simp at o1 o3 ⊢
  constructor
  · rw [hitems]; exact hi.nodup
  · rw [hitems, hnext]; exact hi.below
  · intro id n t; rw [ha, hnext]; exact hi.fresh id n t
  · intro id; rw [hr, hnext]; exact hi.unused id
  · rw [hitems]; intro x hx; rw [ha]; exact hi.known x hx
  · intro id n t; rw [ha, hg, hitems]; intro h0
    rcases hi.settled id n t h0 with h1 | h1 | ⟨c, h1⟩
    · exact Or.inl h1
    · exact Or.inr (Or.inl h1)
    · exact Or.inr (Or.inr ⟨c, (hd _ _).2 h1⟩)
  · intro id; rw [hg, hnext, hitems]; exact hi.gone id
  · intro id c; rw [hd, hnext, hitems]; intro h0
    obtain ⟨h1, h2⟩ := hi.called id c h0
    exact ⟨h1, fun x hx hxi => hw id (h2 x hx hxi)⟩
  · intro i hx
    obtain ⟨c, h0⟩ := hi.told i (hb i hx)
    exact ⟨c, (hd _ _).2 h0⟩
  · rw [hcomp]; exact hi.once
  · rw [hitems]; intro x hx; rw [hr]; exact hi.waits x hx
  · rw [hitems]; intro x hx; rw [hdue]; exact hi.due x hx
  · exact hc

theorem workerTime_keep {h : History} {e : Op} {o : Out} (he : ∀ a t, e ≠ .answer a t) (ho : o ≠ .sending) :
    workerTime (h ++ [(e, o)]) = workerTime h := by
  simp only [workerTime, List.foldl_append, List.foldl_cons, List.foldl_nil]
  cases e <;> cases o <;> simp at he ho ⊢

/-- A request is taken from the queue. -/
theorem Inv.remove {h : History} {s s' : State} (hi : Inv h s) {e : Op} {o : Out} {i : Nat}
    (hitems : s'.items = s.items.filter (fun x => x.id ≠ i)) (hnext : s'.nextId = s.nextId)
    (hin : ∃ x ∈ s.items, x.id = i)
    (ho : (∀ id, o ≠ .accepted id) ∧ (∀ id c, o ≠ .done id c) ∧ (∀ id t, o ≠ .retry id t) ∧
      (∀ id, o = .cancelled id → id = i) ∧ (∀ id, o = .closed (some id) → id = i))
    (hgone : Withdrawn (h ++ [(e, o)]) i ∨ ∃ c, Completed h i c)
    (hw : ∀ j, j ≠ i → (∃ now ok, s.worker = .calling now j ok ∨ s.worker = .called now j ok) →
      ∃ now ok, s'.worker = .calling now j ok ∨ s'.worker = .called now j ok)
    (hb : ∀ i, (∃ now ok, s'.worker = .calling now i ok ∨ s'.worker = .called now i ok) →
      ∃ now ok, s.worker = .calling now i ok ∨ s.worker = .called now i ok)
    (hc : ∀ now, (∃ li, s'.worker = .item now li) ∨ (∃ i, s'.worker = .waiting now i) ∨
      (∃ i ok, s'.worker = .calling now i ok) ∨ (∃ i ok, s'.worker = .called now i ok) →
      workerTime (h ++ [(e, o)]) = some now) : Inv (h ++ [(e, o)]) s' := by
  obtain ⟨o1, o2, o3, o4, o5⟩ := ho
  have ha : ∀ id n t, Accepted (h ++ [(e, o)]) id n t ↔ Accepted h id n t := by
    intro id n t; rw [accepted_snoc]; simp [o1]
  have hd : ∀ id c, Completed (h ++ [(e, o)]) id c ↔ Completed h id c := by
    intro id c; rw [completed_snoc]; simp [o2]
  have hg : ∀ id, Withdrawn (h ++ [(e, o)]) id → Withdrawn h id ∨ id = i := by
    intro id; rw [withdrawn_snoc]
    rintro (h | h | h)
    · exact Or.inl h
    · exact Or.inr (o4 _ h)
    · exact Or.inr (o5 _ h)
  have hr : ∀ id, retries (h ++ [(e, o)]) id = retries h id := by
    intro id
    simp only [retries, List.countP_append, List.countP_singleton]
    cases o <;> simp at o3 ⊢
  have hcomp : completions (h ++ [(e, o)]) = completions h := by
    simp only [completions, List.filterMap_append]
    cases o <;> simp at o2 ⊢
  have hdue : ∀ id, dueTime (h ++ [(e, o)]) id = dueTime h id := by
    intro id
    simp only [dueTime, List.foldl_append, List.foldl_cons, List.foldl_nil]
    cases o <;> cases e <;> simp at o1 o3 ⊢
  have hm : ∀ x, x ∈ s'.items ↔ x ∈ s.items ∧ x.id ≠ i := by
    intro x; rw [hitems, List.mem_filter]; simp
  constructor
  · rw [hitems]
    exact hi.nodup.sublist (List.filter_sublist.map _)
  · intro x hx; rw [hnext]; exact hi.below x ((hm x).1 hx).1
  · intro id n t; rw [ha, hnext]; exact hi.fresh id n t
  · intro id; rw [hr, hnext]; exact hi.unused id
  · intro x hx; rw [ha]; exact hi.known x ((hm x).1 hx).1
  · intro id n t; rw [ha]; intro h0
    by_cases hid : id = i
    · subst hid
      rcases hgone with hg' | ⟨c, hg'⟩
      · exact Or.inr (Or.inl hg')
      · exact Or.inr (Or.inr ⟨c, (hd _ _).2 hg'⟩)
    · rcases hi.settled id n t h0 with ⟨x, hx, h1⟩ | h1 | ⟨c, h1⟩
      · exact Or.inl ⟨x, (hm x).2 ⟨hx, by rw [h1.1]; exact hid⟩, h1⟩
      · exact Or.inr (Or.inl (withdrawn_snoc.2 (Or.inl h1)))
      · exact Or.inr (Or.inr ⟨c, (hd _ _).2 h1⟩)
  · intro id h0
    rw [hnext]
    rcases hg id h0 with h0 | rfl
    · obtain ⟨h1, h2⟩ := hi.gone id h0
      exact ⟨h1, fun x hx => h2 x ((hm x).1 hx).1⟩
    · obtain ⟨x, hx, rfl⟩ := hin
      exact ⟨hi.below x hx, fun y hy => ((hm y).1 hy).2⟩
  · intro id c; rw [hd, hnext]; intro h0
    obtain ⟨h1, h2⟩ := hi.called id c h0
    refine ⟨h1, fun x hx hxi => ?_⟩
    obtain ⟨hx1, hx2⟩ := (hm x).1 hx
    exact hw id (by rw [← hxi]; exact hx2) (h2 x hx1 hxi)
  · intro i hx
    obtain ⟨c, h0⟩ := hi.told i (hb i hx)
    exact ⟨c, (hd _ _).2 h0⟩
  · rw [hcomp]; exact hi.once
  · intro x hx; rw [hr]; exact hi.waits x ((hm x).1 hx).1
  · intro x hx; rw [hdue]; exact hi.due x ((hm x).1 hx).1
  · exact hc

theorem search_mem {sc : Bool} {freed : Option Nat} {n : Nat} {e : Bytes} {f : Filter.Filter} {x : Item} :
    ∀ {l : List Item}, search sc freed n e f l = .ok (some x) → x ∈ l ∧ freed ≠ some x.id
  | [], h => by cases h
  | i :: is, h => by
    unfold search at h
    split at h
    · cases h
    · rename_i hf
      split at h
      · obtain ⟨c, h1, h⟩ := res_bind_ok h
        split at h
        · cases h; exact ⟨by simp, hf⟩
        · exact ⟨by simp [(search_mem h).1], (search_mem h).2⟩
      · exact ⟨by simp [(search_mem h).1], (search_mem h).2⟩

theorem searchHandle_mem {freed : Option Nat} {n : Nat} {x : Item} :
    ∀ {l : List Item}, searchHandle freed n l = .ok (some x) → x ∈ l ∧ freed ≠ some x.id
  | [], h => by cases h
  | i :: is, h => by
    unfold searchHandle at h
    split at h
    · cases h
    · rename_i hf
      split at h
      · cases h; exact ⟨by simp, hf⟩
      · exact ⟨by simp [(searchHandle_mem h).1], (searchHandle_mem h).2⟩

theorem find_id {l : List Item} {i : Nat} {x : Item} (h : l.find? (fun x => x.id = i) = some x) :
    x ∈ l ∧ x.id = i := by
  refine ⟨List.mem_of_find?_eq_some h, ?_⟩
  simpa using List.find?_some h

theorem eq_of_id {l : List Item} (hn : (l.map (·.id)).Nodup) {x y : Item} (hx : x ∈ l) (hy : y ∈ l)
    (h : x.id = y.id) : x = y := by
  induction l with
  | nil => cases hx
  | cons a l ih =>
    simp only [List.map_cons, List.nodup_cons] at hn
    rcases List.mem_cons.1 hx with rfl | hx'
    · rcases List.mem_cons.1 hy with rfl | hy'
      · rfl
      · exact (hn.1 (List.mem_map.2 ⟨y, hy', h.symm⟩)).elim
    · rcases List.mem_cons.1 hy with rfl | hy'
      · exact (hn.1 (List.mem_map.2 ⟨x, hx', h⟩)).elim
      · exact ih hn.2 hx' hy'

theorem retry_fields (T : Nat) (x : Item) (t : Time) :
    (retry T x t).id = x.id ∧ (retry T x t).handle = x.handle ∧ (retry T x t).start = x.start ∧
      (retry T x t).wait = nextWait x.wait := by
  unfold retry
  simp only []
  split <;> exact ⟨rfl, rfl, rfl, rfl⟩

theorem step_inv {sc : Bool} {T : Nat → Nat} {h : History} {s s' : State} {e : Op} {o : Out} (hi : Inv h s)
    (hs : step sc T s e = .ok (s', o)) : Inv (h ++ [(e, o)]) s' := by
  cases e with
  | request n ev f t =>
    simp only [step] at hs
    split at hs
    · cases hs
    obtain ⟨found, h1, hs⟩ := res_bind_ok hs
    cases found with
    | some x =>
      cases hs
      exact hi.same rfl rfl (by simp) (fun i hx => hx) (fun i hx => hx) (fun now hx => by
        rw [workerTime_keep (by simp) (by simp)]; exact hi.clock now hx)
    | none =>
      cases hs
      have hd : ∀ id c, Completed (h ++ [(.request n ev f t, .accepted s.nextId)]) id c ↔ Completed h id c := by
        intro id c; rw [completed_snoc]; simp
      have hg : ∀ id, Withdrawn (h ++ [(.request n ev f t, .accepted s.nextId)]) id ↔ Withdrawn h id := by
        intro id; rw [withdrawn_snoc]; simp
      have hr : ∀ id, retries (h ++ [(.request n ev f t, .accepted s.nextId)]) id = retries h id := by
        intro id
        simp [retries, List.countP_append]
      have hcomp : completions (h ++ [(.request n ev f t, .accepted s.nextId)]) = completions h := by
        simp [completions, List.filterMap_append]
      have hdue : ∀ id, dueTime (h ++ [(.request n ev f t, .accepted s.nextId)]) id =
          if s.nextId = id then some t else dueTime h id := by
        intro id
        simp only [dueTime, List.foldl_append, List.foldl_cons, List.foldl_nil]
      constructor
      · simp only [List.map_append, List.map_cons, List.map_nil]
        rw [List.nodup_append]
        refine ⟨hi.nodup, by simp, ?_⟩
        intro a ha b hb
        obtain ⟨x, hx, rfl⟩ := List.mem_map.1 ha
        simp only [List.mem_singleton] at hb
        have := hi.below x hx
        omega
      · intro x hx
        simp only [List.mem_append, List.mem_singleton] at hx
        rcases hx with hx | rfl
        · have := hi.below x hx; simp only; omega
        · simp
      · intro id m t'
        rw [accepted_snoc]
        simp only
        rintro (h0 | ⟨_, _, _, h0⟩)
        · have := hi.fresh _ _ _ h0; omega
        · cases h0; omega
      · intro id hid
        rw [hr]
        exact hi.unused id (by simp only at hid; omega)
      · intro x hx
        simp only [List.mem_append, List.mem_singleton] at hx
        rw [accepted_snoc]
        rcases hx with hx | rfl
        · exact Or.inl (hi.known x hx)
        · exact Or.inr ⟨ev, f, rfl, rfl⟩
      · intro id m t'
        rw [accepted_snoc, hg]
        rintro (h0 | ⟨_, _, h1, h2⟩)
        · rcases hi.settled _ _ _ h0 with ⟨x, hx, h3⟩ | h3 | ⟨c, h3⟩
          · exact Or.inl ⟨x, by simp [hx], h3⟩
          · exact Or.inr (Or.inl h3)
          · exact Or.inr (Or.inr ⟨c, (hd _ _).2 h3⟩)
        · cases h1; cases h2
          exact Or.inl ⟨_, List.mem_append_right _ (List.mem_singleton.2 rfl), rfl, rfl, rfl⟩
      · intro id
        rw [hg]
        intro h0
        obtain ⟨h3, h4⟩ := hi.gone id h0
        refine ⟨by simp only; omega, fun x hx => ?_⟩
        simp only [List.mem_append, List.mem_singleton] at hx
        rcases hx with hx | rfl
        · exact h4 x hx
        · simp only; omega
      · intro id c
        rw [hd]
        intro h0
        obtain ⟨h3, h4⟩ := hi.called id c h0
        refine ⟨by simp only; omega, fun x hx hxi => ?_⟩
        simp only [List.mem_append, List.mem_singleton] at hx
        rcases hx with hx | rfl
        · exact h4 x hx hxi
        · simp only at hxi; omega
      · intro i hx
        obtain ⟨c, h0⟩ := hi.told i hx
        exact ⟨c, (hd _ _).2 h0⟩
      · rw [hcomp]; exact hi.once
      · intro x hx
        simp only [List.mem_append, List.mem_singleton] at hx
        rw [hr]
        rcases hx with hx | rfl
        · exact hi.waits x hx
        · simp only; rw [hi.unused _ (Nat.le_refl _)]; rfl
      · intro x hx
        simp only [List.mem_append, List.mem_singleton] at hx
        rw [hdue]
        rcases hx with hx | rfl
        · have := hi.below x hx
          rw [if_neg (by omega)]
          exact hi.due x hx
        · simp
      · intro now hx
        rw [workerTime_keep (by simp) (by simp)]
        exact hi.clock now hx
  | cancel n ev f =>
    simp only [step] at hs
    obtain ⟨found, h1, hs⟩ := res_bind_ok hs
    cases found with
    | none =>
      cases hs
      exact hi.same rfl rfl (by simp) (fun i hx => hx) (fun i hx => hx) (fun now hx => by
        rw [workerTime_keep (by simp) (by simp)]; exact hi.clock now hx)
    | some x =>
      cases hs
      refine hi.remove (i := x.id) rfl rfl ⟨x, (search_mem h1).1, rfl⟩ (by simp [eq_comm]) (Or.inl ?_)
        (fun j _ hx => hx) (fun i hx => hx) (fun now hx => by
          rw [workerTime_keep (by simp) (by simp)]; exact hi.clock now hx)
      rw [withdrawn_snoc]; simp
  | close n =>
    simp only [step] at hs
    obtain ⟨found, h1, hs⟩ := res_bind_ok hs
    cases found with
    | none =>
      cases hs
      exact hi.same rfl rfl (by simp) (fun i hx => hx) (fun i hx => hx) (fun now hx => by
        rw [workerTime_keep (by simp) (by simp)]; exact hi.clock now hx)
    | some x =>
      cases hs
      refine hi.remove (i := x.id) rfl rfl ⟨x, (searchHandle_mem h1).1, rfl⟩ (by simp [eq_comm]) (Or.inl ?_)
        (fun j _ hx => hx) (fun i hx => hx) (fun now hx => by
          rw [workerTime_keep (by simp) (by simp)]; exact hi.clock now hx)
      rw [withdrawn_snoc]; simp
  | check t t' =>
    simp only [step] at hs
    split at hs
    · rename_i hw
      split at hs
      · cases hs
        refine hi.same rfl rfl (by simp) (fun i hx => by rw [hw] at hx; simp at hx) (fun i hx => by simp at hx) (fun now hx => ?_)
        simp at hx
        subst hx
        simp [workerTime, List.foldl_append]
      · cases hs
        exact hi.same rfl rfl (by simp) (fun i hx => hx) (fun i hx => hx) (fun now hx => by rw [hw] at hx; simp at hx)
    · cases hs
  | look =>
    simp only [step] at hs
    split at hs
    · rename_i now i hw
      split at hs
      · cases hs
      · split at hs <;> cases hs <;>
        · refine hi.same rfl rfl (by simp) (fun i hx => by rw [hw] at hx; simp at hx) (fun i hx => by simp at hx) (fun now' hx => ?_)
          rw [workerTime_keep (by simp) (by simp)]
          simp at hx
          subst hx
          exact hi.clock _ (Or.inl ⟨_, hw⟩)
    · rename_i hw
      cases hs
      exact hi.same rfl rfl (by simp) (fun i hx => by rw [hw] at hx; simp at hx) (fun i hx => by simp at hx) (fun now hx => by simp at hx)
    · cases hs
  | answer a t =>
    simp only [step] at hs
    split at hs
    · rename_i now i hw
      split at hs
      · cases hs
      · rename_i x hfx
        obtain ⟨hx, rfl⟩ := find_id hfx
        split at hs
        · cases hs
        split at hs
        · cases hs
          obtain ⟨f1, f2, f3, f4⟩ := retry_fields (T x.handle) x t
          have ha : ∀ id n t', Accepted (h ++ [(.answer a t, .retry x.id (retry (T x.handle) x t).due)]) id n t' ↔
              Accepted h id n t' := by
            intro id n t'; rw [accepted_snoc]; simp
          have hd : ∀ id c, Completed (h ++ [(.answer a t, .retry x.id (retry (T x.handle) x t).due)]) id c ↔
              Completed h id c := by
            intro id c; rw [completed_snoc]; simp
          have hg : ∀ id, Withdrawn (h ++ [(.answer a t, .retry x.id (retry (T x.handle) x t).due)]) id ↔
              Withdrawn h id := by
            intro id; rw [withdrawn_snoc]; simp
          have hr : ∀ id, retries (h ++ [(.answer a t, .retry x.id (retry (T x.handle) x t).due)]) id =
              retries h id + if x.id = id then 1 else 0 := by
            intro id
            simp [retries, List.countP_append, List.countP_singleton]
          have hcomp : completions (h ++ [(.answer a t, .retry x.id (retry (T x.handle) x t).due)]) =
              completions h := by
            simp [completions, List.filterMap_append]
          have hdue : ∀ id, dueTime (h ++ [(.answer a t, .retry x.id (retry (T x.handle) x t).due)]) id =
              if x.id = id then some (retry (T x.handle) x t).due else dueTime h id := by
            intro id
            simp only [dueTime, List.foldl_append, List.foldl_cons, List.foldl_nil]
          have hmem : ∀ y, y ∈ s.items.map (fun z => if z.id = x.id then retry (T x.handle) x t else z) →
              (y = retry (T x.handle) x t) ∨ (y ∈ s.items ∧ y.id ≠ x.id) := by
            intro y hy
            obtain ⟨z, hz, rfl⟩ := List.mem_map.1 hy
            split
            · exact Or.inl rfl
            · rename_i hne; exact Or.inr ⟨hz, hne⟩
          constructor
          · simp only [List.map_map]
            have : (s.items.map ((fun x => x.id) ∘ fun z => if z.id = x.id then retry (T x.handle) x t else z)) =
                s.items.map (·.id) := by
              apply List.map_congr_left
              intro z hz
              simp only [Function.comp]
              split
              · rename_i hz'; rw [f1, hz']
              · rfl
            rw [this]; exact hi.nodup
          · intro y hy
            rcases hmem y hy with rfl | ⟨hy, _⟩
            · rw [f1]; exact hi.below x hx
            · exact hi.below y hy
          · intro id n t'; rw [ha]; exact hi.fresh id n t'
          · intro id hid
            rw [hr, hi.unused id hid, if_neg]
            have := hi.below x hx
            simp only at hid
            omega
          · intro y hy
            rw [ha]
            rcases hmem y hy with rfl | ⟨hy, _⟩
            · rw [f1, f2, f3]; exact hi.known x hx
            · exact hi.known y hy
          · intro id n t'
            rw [ha, hg]
            intro h0
            rcases hi.settled id n t' h0 with ⟨y, hy, h1, h2, h3⟩ | h1 | ⟨c, h1⟩
            · by_cases hyx : y.id = x.id
              · have := eq_of_id hi.nodup hy hx hyx
                subst this
                exact Or.inl ⟨_, List.mem_map.2 ⟨y, hy, if_pos rfl⟩, by rw [f1, h1], by rw [f2, h2], by rw [f3, h3]⟩
              · exact Or.inl ⟨y, List.mem_map.2 ⟨y, hy, if_neg hyx⟩, h1, h2, h3⟩
            · exact Or.inr (Or.inl h1)
            · exact Or.inr (Or.inr ⟨c, (hd _ _).2 h1⟩)
          · intro id
            rw [hg]
            intro h0
            obtain ⟨h1, h2⟩ := hi.gone id h0
            refine ⟨h1, fun y hy => ?_⟩
            rcases hmem y hy with rfl | ⟨hy, _⟩
            · rw [f1]; exact h2 x hx
            · exact h2 y hy
          · intro id c
            rw [hd]
            intro h0
            obtain ⟨h1, h2⟩ := hi.called id c h0
            refine ⟨h1, fun y hy hyi => ?_⟩
            rcases hmem y hy with rfl | ⟨hy, _⟩
            · rw [f1] at hyi
              have := h2 x hx hyi
              rw [hw] at this
              simp at this
            · have := h2 y hy hyi
              rw [hw] at this
              simp at this
          · intro i hx'
            simp at hx'
          · rw [hcomp]; exact hi.once
          · intro y hy
            rw [hr]
            rcases hmem y hy with rfl | ⟨hy, hne⟩
            · rw [f4, f1, if_pos rfl, hi.waits x hx, nextWait_waitAfter]
            · rw [if_neg (Ne.symm hne)]; exact hi.waits y hy
          · intro y hy
            rw [hdue]
            rcases hmem y hy with rfl | ⟨hy, hne⟩
            · rw [f1, if_pos rfl]
            · rw [if_neg (Ne.symm hne)]; exact hi.due y hy
          · intro now' hx'
            simp at hx'
            subst hx'
            simp [workerTime, List.foldl_append]
        · cases hs
          have ha : ∀ id n t', Accepted (h ++ [(.answer a t, .done x.id (code a))]) id n t' ↔
              Accepted h id n t' := by
            intro id n t'; rw [accepted_snoc]; simp
          have hg : ∀ id, Withdrawn (h ++ [(.answer a t, .done x.id (code a))]) id ↔ Withdrawn h id := by
            intro id; rw [withdrawn_snoc]; simp
          have hr : ∀ id, retries (h ++ [(.answer a t, .done x.id (code a))]) id = retries h id := by
            intro id
            simp [retries, List.countP_append]
          have hcomp : completions (h ++ [(.answer a t, .done x.id (code a))]) = completions h ++ [x.id] := by
            simp [completions, List.filterMap_append]
          have hdue : ∀ id, dueTime (h ++ [(.answer a t, .done x.id (code a))]) id = dueTime h id := by
            intro id
            simp only [dueTime, List.foldl_append, List.foldl_cons, List.foldl_nil]
          have hnot : ∀ c, ¬ Completed h x.id c := by
            intro c hc
            have := (hi.called x.id c hc).2 x hx rfl
            rw [hw] at this
            simp at this
          constructor
          · exact hi.nodup
          · exact hi.below
          · intro id n t'; rw [ha]; exact hi.fresh id n t'
          · intro id; rw [hr]; exact hi.unused id
          · intro y hy; rw [ha]; exact hi.known y hy
          · intro id n t'
            rw [ha, hg]
            intro h0
            rcases hi.settled id n t' h0 with h1 | h1 | ⟨c, h1⟩
            · exact Or.inl h1
            · exact Or.inr (Or.inl h1)
            · exact Or.inr (Or.inr ⟨c, completed_snoc.2 (Or.inl h1)⟩)
          · intro id; rw [hg]; exact hi.gone id
          · intro id c
            rw [completed_snoc]
            rintro (h0 | h0)
            · obtain ⟨h1, h2⟩ := hi.called id c h0
              refine ⟨h1, fun y hy hyi => ?_⟩
              have := h2 y hy hyi
              rw [hw] at this
              simp at this
            · simp only [Out.done.injEq] at h0
              obtain ⟨rfl, rfl⟩ := h0
              exact ⟨hi.below x hx, fun y _ _ => ⟨_, _, Or.inl rfl⟩⟩
          · intro i hx'
            simp at hx'
            subst hx'
            exact ⟨_, completed_snoc.2 (Or.inr rfl)⟩
          · rw [hcomp, List.nodup_append]
            refine ⟨hi.once, by simp, ?_⟩
            intro u hu v hv
            simp only [List.mem_singleton] at hv
            subst hv
            rintro rfl
            obtain ⟨c, hc⟩ := mem_completions.1 hu
            exact hnot c hc
          · intro y hy; rw [hr]; exact hi.waits y hy
          · intro y hy; rw [hdue]; exact hi.due y hy
          · intro now' hx'
            simp at hx'
            subst hx'
            simp [workerTime, List.foldl_append]
    · cases hs
  | back =>
    simp only [step] at hs
    split at hs
    · rename_i now i ok hw
      split at hs
      · cases hs
      · split at hs
        · cases hs
        · cases hs
          refine hi.same rfl rfl (by simp) (fun j hx => ?_) (fun j hx => ?_) (fun now' hx => ?_)
          · rw [hw] at hx
            simp at hx ⊢
            exact hx
          · rw [hw]
            simp at hx ⊢
            exact hx
          · rw [workerTime_keep (by simp) (by simp)]
            simp at hx
            subst hx
            exact hi.clock _ (Or.inr (Or.inr (Or.inl ⟨_, _, hw⟩)))
    · cases hs
  | finish =>
    simp only [step] at hs
    split at hs
    · rename_i now i ok hw
      split at hs
      · cases hs
      · rename_i x hfx
        obtain ⟨hx, rfl⟩ := find_id hfx
        cases hs
        refine hi.remove (i := x.id) rfl rfl ⟨x, hx, rfl⟩ (by simp)
          (Or.inr (hi.told _ ⟨_, _, Or.inr hw⟩)) (fun j hj hx => ?_) (fun j hx => by simp at hx) (fun now' hx => ?_)
        · rw [hw] at hx
          simp at hx
          exact absurd hx.symm hj
        · rw [workerTime_keep (by simp) (by simp)]
          simp at hx
          subst hx
          exact hi.clock _ (Or.inr (Or.inr (Or.inr ⟨_, _, hw⟩)))
    · cases hs

theorem leads_inv {sc : Bool} {T : Nat → Nat} {h : History} {s : State} (hl : Leads sc T h s) : Inv h s := by
  induction hl with
  | nil => exact Inv.init
  | snoc _ hs ih => exact step_inv ih hs

/-! ### Due times -/

theorem _root_.Verif.Spec.Async.Clock.left {T : Nat → Nat} {a b : History} (h : Clock T (a ++ b)) : Clock T a :=
  ⟨h.timeouts, fun x hx => h.normal x (List.mem_append_left _ hx), (List.pairwise_append.1 h.order).1⟩

theorem _root_.Verif.Spec.Async.Clock.answered {T : Nat → Nat} {h : History} {a : Answer} {t : Time} {o : Out}
    (hc : Clock T (h ++ [(.answer a t, o)])) {id n : Nat} {t0 : Time} (ha : Accepted h id n t0) :
    Normal t0 ∧ Normal t ∧ nanos t0 ≤ nanos t ∧ nanos t < nanos t0 + 2 ^ 32 * 1000000 := by
  obtain ⟨e, f, hm⟩ := ha
  have := (List.pairwise_append.1 hc.order).2.2 _ hm (.answer a t, o) (by simp) n e f t0 a t rfl rfl
  exact ⟨hc.normal _ (List.mem_append_left _ hm) t0 (by simp [times]),
    hc.normal (.answer a t, o) (by simp) t (by simp [times]), this⟩

theorem waitAfter_le (k : Nat) : waitAfter k ≤ 60000 := by
  unfold waitAfter
  split <;> omega

theorem retry_due {T k : Nat} {x : Item} {t : Time} (hw : x.wait = waitAfter k) (hT : T + 60000 < 2 ^ 32)
    (hs : Normal x.start) (ht : Normal t) (h1 : nanos x.start ≤ nanos t)
    (h2 : nanos t < nanos x.start + 2 ^ 32 * 1000000) (he : elapsed x.start t < T) :
    Normal (retry T x t).due ∧ nanos (retry T x t).due =
      min (nanos t + delay k * 1000000) (nanos x.start + T * 1000000) := by
  have hel := elapsed_eq hs ht h1 h2
  have hwk : nextWait x.wait = delay k := by
    rw [hw, nextWait_waitAfter]
    simp [waitAfter, delay]
  have hle : delay k ≤ 60000 := Nat.min_le_right _ _
  unfold retry
  simp only [hwk]
  generalize delay k = w at *
  rw [Nat.mod_eq_of_lt (by omega)]
  split
  · rename_i hlt
    obtain ⟨n1, n2⟩ := later_ns ht (ms := w) (by omega)
    refine ⟨n1, ?_⟩
    simp only [n2]
    omega
  · rename_i hge
    obtain ⟨n1, n2⟩ := later_ns hs (ms := T) (by omega)
    refine ⟨n1, ?_⟩
    simp only [n2]
    omega

/-- The times of what is pending. -/
def TInv (T : Nat → Nat) (s : State) : Prop :=
  ∀ x ∈ s.items, Normal x.start ∧ Normal x.due ∧ nanos x.due ≤ nanos x.start + T x.handle * 1000000

theorem step_tinv {sc : Bool} {T : Nat → Nat} {h : History} {s s' : State} {e : Op} {o : Out} (hi : Inv h s)
    (ht : TInv T s) (hs : step sc T s e = .ok (s', o)) (hc : Clock T (h ++ [(e, o)])) : TInv T s' := by
  cases e with
  | request n ev f t =>
    simp only [step] at hs
    split at hs
    · cases hs
    obtain ⟨found, h1, hs⟩ := res_bind_ok hs
    cases found with
    | some x => cases hs; exact ht
    | none =>
      cases hs
      intro x hx
      simp only [List.mem_append, List.mem_singleton] at hx
      rcases hx with hx | rfl
      · exact ht x hx
      · have : Normal t := hc.normal _ (List.mem_append_right _ (List.mem_singleton.2 rfl)) t (by simp [times])
        exact ⟨this, this, by simp only; omega⟩
  | cancel n ev f =>
    simp only [step] at hs
    obtain ⟨found, h1, hs⟩ := res_bind_ok hs
    cases found <;> cases hs
    · exact ht
    · exact fun x hx => ht x (List.mem_filter.1 hx).1
  | close n =>
    simp only [step] at hs
    obtain ⟨found, h1, hs⟩ := res_bind_ok hs
    cases found <;> cases hs
    · exact ht
    · exact fun x hx => ht x (List.mem_filter.1 hx).1
  | check t t' =>
    simp only [step] at hs
    split at hs
    · split at hs <;> cases hs <;> exact ht
    · cases hs
  | look =>
    simp only [step] at hs
    split at hs
    · split at hs
      · cases hs
      · split at hs <;> cases hs <;> exact ht
    · cases hs; exact ht
    · cases hs
  | answer a t =>
    simp only [step] at hs
    split at hs
    · split at hs
      · cases hs
      · rename_i x hfx
        obtain ⟨hx, rfl⟩ := find_id hfx
        split at hs
        · cases hs
        split at hs
        · rename_i hcond
          cases hs
          obtain ⟨n1, n2, n3, n4⟩ := hc.answered (hi.known x hx)
          obtain ⟨r1, r2⟩ := retry_due (hi.waits x hx) (hc.timeouts x.handle) n1 n2 n3 n4 hcond.2
          obtain ⟨f1, f2, f3, f4⟩ := retry_fields (T x.handle) x t
          intro y hy
          obtain ⟨z, hz, rfl⟩ := List.mem_map.1 hy
          split
          · rw [f3, f2]
            exact ⟨n1, r1, by rw [r2]; omega⟩
          · exact ht z hz
        · cases hs; exact ht
    · cases hs
  | back =>
    simp only [step] at hs
    split at hs
    · split at hs
      · cases hs
      · split at hs
        · cases hs
        · cases hs; exact ht
    · cases hs
  | finish =>
    simp only [step] at hs
    split at hs
    · split at hs
      · cases hs
      · cases hs
        exact fun x hx => ht x (List.mem_filter.1 hx).1
    · cases hs

theorem leads_tinv {sc : Bool} {T : Nat → Nat} {h : History} {s : State} (hl : Leads sc T h s) (hc : Clock T h) :
    TInv T s := by
  induction hl with
  | nil => intro x hx; cases hx
  | snoc hl hs ih => exact step_tinv (leads_inv hl) (ih hc.left) hs hc

theorem earliest_le {l : List Item} : ∀ {t : Time}, Normal t → (∀ x ∈ l, Normal x.due) →
    Normal (earliest l t) ∧ nanos (earliest l t) ≤ nanos t ∧ ∀ x ∈ l, nanos (earliest l t) ≤ nanos x.due := by
  induction l with
  | nil => intro t ht _; exact ⟨ht, Int.le_refl _, by simp⟩
  | cons i is ih =>
    intro t ht hl
    have hid := hl i (by simp)
    have hrest : ∀ x ∈ is, Normal x.due := fun x hx => hl x (by simp [hx])
    unfold earliest
    split
    · rename_i h
      rw [compare_lt hid ht] at h
      obtain ⟨h1, h2, h3⟩ := ih hid hrest
      refine ⟨h1, by omega, fun x hx => ?_⟩
      rcases List.mem_cons.1 hx with rfl | hx
      · exact h2
      · exact h3 x hx
    · rename_i h
      rw [compare_lt hid ht] at h
      obtain ⟨h1, h2, h3⟩ := ih ht hrest
      refine ⟨h1, h2, fun x hx => ?_⟩
      rcases List.mem_cons.1 hx with rfl | hx
      · omega
      · exact h3 x hx

theorem _root_.Verif.Spec.Async.Clock.worker {T : Nat → Nat} {h : History} (hc : Clock T h) {now : Time}
    (hw : workerTime h = some now) : Normal now := by
  have key : ∀ (l : History) (d : Option Time), (∀ x ∈ l, ∀ t ∈ times x.1, Normal t) → (∀ t, d = some t → Normal t) →
      ∀ t, l.foldl (fun d e =>
        match e with
        | (.check _ t, .sending) => some t
        | (.answer _ t, _) => some t
        | _ => d) d = some t → Normal t := by
    intro l
    induction l with
    | nil => intro d _ hd t ht; exact hd t ht
    | cons x l ih =>
      intro d hl hd t ht
      rw [List.foldl_cons] at ht
      refine ih _ (fun y hy => hl y (List.mem_cons_of_mem _ hy)) ?_ t ht
      intro u hu
      have hx := hl x (by simp)
      split at hu
      · cases hu; exact hx _ (by simp [times])
      · cases hu; exact hx _ (by simp [times])
      · exact hd u hu
  exact key h none hc.normal (by simp) now hw

theorem run_snoc {sc : Bool} {T : Nat → Nat} {es : List Op} {e : Op} {s' : State} {os : List Out} {o : Out} :
    ∀ {s : State}, run sc T s (es ++ [e]) = .ok (s', os ++ [o]) →
      ∃ s1, run sc T s es = .ok (s1, os) ∧ step sc T s1 e = .ok (s', o) := by
  induction es generalizing os with
  | nil =>
    intro s h
    obtain ⟨⟨s1, o1⟩, h1, h⟩ := res_bind_ok h
    simp only [run, Res.ok_bind, pure, Res.ok.injEq, Prod.mk.injEq] at h
    obtain ⟨rfl, heq⟩ := h
    cases os with
    | nil => simp at heq; subst heq; exact ⟨s, rfl, h1⟩
    | cons a os => simp at heq
  | cons d es ih =>
    intro s h
    obtain ⟨⟨s1, o1⟩, h1, h⟩ := res_bind_ok h
    obtain ⟨⟨s2, os2⟩, h2, h⟩ := res_bind_ok h
    simp only [pure, Res.ok.injEq, Prod.mk.injEq] at h
    obtain ⟨rfl, heq⟩ := h
    cases os with
    | nil =>
      simp at heq
      obtain ⟨_, rfl⟩ := heq
      cases es with
      | nil =>
        obtain ⟨⟨s3, o3⟩, _, h2⟩ := res_bind_ok h2
        cases h2
      | cons d' es =>
        obtain ⟨⟨s3, o3⟩, _, h2⟩ := res_bind_ok h2
        obtain ⟨⟨s4, o4⟩, _, h2⟩ := res_bind_ok h2
        cases h2
    | cons a os =>
      simp only [List.cons_append, List.cons.injEq] at heq
      obtain ⟨rfl, rfl⟩ := heq
      obtain ⟨s3, h3, h4⟩ := ih h2
      refine ⟨s3, ?_, h4⟩
      simp only [run]
      rw [h1]
      simp only [Res.ok_bind]
      rw [h3]
      rfl

end Verif.Async
