import Verif.Spec.Answer
import Verif.Proof.Exec

/-!
# Lemmas about answering calls
-/

namespace Verif.Answer

open Verif Verif.Spec.Answer

@[simp] theorem called_invoked (c k) : called (.invoked c k) = some c := rfl
@[simp] theorem called_sent (c r) : called (.sent c r) = none := rfl
@[simp] theorem replied_invoked (c k) : replied (.invoked c k) = none := rfl
@[simp] theorem replied_sent (c r) : replied (.sent c r) = some c := rfl

theorem arrived_snoc (h : History) (e : Op) (o) :
    arrived (h ++ [(e, o)]) = arrived h ++ (match e with | .enter c => [c] | _ => []) := by
  unfold arrived
  rw [List.filterMap_append]
  cases e <;> rfl

theorem served_snoc (h : History) (e : Op) (o) :
    served (h ++ [(e, o)]) = served h ++ o.filterMap called := by
  unfold served
  rw [List.flatMap_append, List.filterMap_append]
  simp

theorem answered_snoc (h : History) (e : Op) (o) :
    answered (h ++ [(e, o)]) = answered h ++ o.filterMap replied := by
  unfold answered
  rw [List.flatMap_append, List.filterMap_append]
  simp

theorem effects_snoc (h : History) (e : Op) (o) : effects (h ++ [(e, o)]) = effects h ++ o := by
  unfold effects
  rw [List.flatMap_append]
  simp

theorem returns_snoc (h : History) (e : Op) (o) :
    returns (h ++ [(e, o)]) = returns h + (match e with | .back _ => 1 | _ => 0) := by
  unfold returns
  rw [List.filter_append]
  cases e <;> simp

theorem send_served (c : Call) (r) :
    (send c r).filterMap called = [] := by
  unfold send; split <;> rfl

theorem send_answered (c : Call) (r) :
    (send c r).filterMap replied = if c.request then [c] else [] := by
  unfold send; split <;> rfl

/-- The calls that may still be answered. -/
def pending (s : State) : List Call :=
  s.handles.map (·.2) ++ (match s.running with | some (c, none) => [c] | _ => [])

structure Inv (h : History) (s : State) : Prop where
  order : arrived h = served h ++ s.queue
  idle : s.running = none → s.queue = []
  last : ∀ c k, s.running = some (c, k) → (served h).getLast? = some c ∧ .invoked c k ∈ effects h
  backs : (served h).length = returns h + if s.running.isSome then 1 else 0
  keys : (s.handles.map (·.1)).Nodup
  below : ∀ x ∈ s.handles, x.1 < s.made
  made : ∀ c k, .invoked c (some k) ∈ effects h → k < s.made ∧ c.rpc = true ∧ c.inTable = false
  nohand : ∀ c, .invoked c none ∈ effects h → ¬ (c.rpc = true ∧ c.inTable = false)
  uniq : ∀ c c' k, .invoked c (some k) ∈ effects h → .invoked c' (some k) ∈ effects h → c = c'
  given : ∀ x ∈ s.handles, .invoked x.2 (some x.1) ∈ effects h
  once : ∀ c, (answered h).count c + (pending s).count c ≤ (served h).count c
  waits : ∀ c ∈ answered h, c.request = true
  all : Kept h → ∀ c ∈ served h, c.request = true → c ∈ answered h ∨ c ∈ pending s

theorem kept_init {h : History} {e o} (k : Kept (h ++ [(e, o)])) : Kept h := by
  intro a out b c he
  subst he
  exact k a out (b ++ [(e, o)]) c (by simp)

theorem start_ok {s c s' o} (h : start s c = .ok (s', o)) :
    (c.rpc = true ∧ c.inTable = false ∧
      s' = { s with running := some (c, some s.made), handles := s.handles ++ [(s.made, c)], made := s.made + 1 } ∧
      o = [.invoked c (some s.made)]) ∨
    (¬ (c.rpc = true ∧ c.inTable = false) ∧ s' = { s with running := some (c, none) } ∧ o = [.invoked c none]) := by
  unfold start at h
  split at h
  · cases h
  · split at h
    · rename_i h1; cases h; exact .inl ⟨h1.1, by simpa using h1.2, rfl, rfl⟩
    · rename_i h1; cases h; exact .inr ⟨by simpa using h1, rfl, rfl⟩

theorem find_key {l : List (Nat × Call)} {k x} (h : l.find? (fun y => decide (y.1 = k)) = some x) : x ∈ l ∧ x.1 = k :=
  ⟨List.mem_of_find?_eq_some h, by simpa using List.find?_some h⟩

theorem count_remove : ∀ {l : List (Nat × Call)} {k : Nat} {x : Call} (c : Call), (l.map (·.1)).Nodup → (k, x) ∈ l →
    ((l.filter fun y => y.1 ≠ k).map (·.2)).count c + (if x = c then 1 else 0) = (l.map (·.2)).count c := by
  intro l
  induction l with
  | nil => intro k x c _ h; cases h
  | cons y l ih =>
    intro k x c hn hm
    rw [List.map_cons, List.nodup_cons] at hn
    rcases List.mem_cons.1 hm with h | h
    · subst h
      have : (l.filter fun y => decide (y.1 ≠ k)) = l := by
        rw [List.filter_eq_self]
        intro z hz
        simp only [ne_eq, decide_not, Bool.not_eq_true', decide_eq_false_iff_not]
        intro e
        exact hn.1 (e ▸ List.mem_map.2 ⟨z, hz, rfl⟩)
      simp only [ne_eq, decide_not, List.filter_cons, decide_true, Bool.not_true, Bool.false_eq_true, if_false,
        List.map_cons, List.count_cons] at this ⊢
      rw [this]
      simp [beq_iff_eq]
    · have hy : y.1 ≠ k := by
        intro e
        exact hn.1 (by rw [e]; exact List.mem_map.2 ⟨_, h, rfl⟩)
      have := ih c hn.2 h
      simp only [ne_eq, decide_not] at this
      simp only [ne_eq, decide_not, List.filter_cons, hy, decide_false, Bool.not_false, if_true, List.map_cons,
        List.count_cons]
      omega

theorem mem_remove {l : List (Nat × Call)} {k : Nat} {x : Call} (hn : (l.map (·.1)).Nodup) (hm : (k, x) ∈ l) {c : Call}
    (hc : c ∈ l.map (·.2)) : c = x ∨ c ∈ (l.filter fun y => y.1 ≠ k).map (·.2) := by
  by_cases e : c = x
  · exact .inl e
  · right
    have := count_remove (x := x) c hn hm
    rw [if_neg (fun h => e h.symm)] at this
    have h1 := List.count_pos_iff.2 hc
    exact List.count_pos_iff.1 (by omega)

theorem nodup_filter {l : List (Nat × Call)} {p} (hn : (l.map (·.1)).Nodup) : ((l.filter p).map (·.1)).Nodup :=
  List.Nodup.sublist (List.Sublist.map _ List.filter_sublist) hn

theorem inv_init : Inv [] State.init where
  order := rfl
  idle := fun _ => rfl
  last := by intro c k h; cases h
  backs := rfl
  keys := List.nodup_nil
  below := by intro x h; cases h
  made := by intro c k h; cases h
  nohand := by intro c h; cases h
  uniq := by intro c c' k h; cases h
  given := by intro x h; cases h
  once := by intro c; simp [answered, pending, State.init, served]
  waits := by intro c h; cases h
  all := by intro _ c h; cases h

theorem enter_inv {h s} (i : Inv h s) {c s' o} (hs : start s c = .ok (s', o)) (hr : s.running = none) :
    Inv (h ++ [(.enter c, o)]) s' := by
  have hq := i.idle hr
  have hord := i.order
  rw [hq, List.append_nil] at hord
  have hb := i.backs
  rw [hr] at hb
  simp only [Option.isSome_none, Bool.false_eq_true, if_false, Nat.add_zero] at hb
  rcases start_ok hs with ⟨h1, h2, rfl, rfl⟩ | ⟨h1, rfl, rfl⟩
  · constructor
    · rw [arrived_snoc, served_snoc]; simp [hq, hord]
    · intro h; cases h
    · intro c' k hk
      cases hk
      rw [served_snoc, effects_snoc]; simp
    · rw [served_snoc, returns_snoc]; simp [hb]
    · show ((s.handles ++ [(s.made, c)]).map (·.1)).Nodup
      rw [List.map_append]
      refine List.nodup_append.2 ⟨i.keys, by simp, ?_⟩
      intro a ha b hb
      obtain ⟨x, hx, rfl⟩ := List.mem_map.1 ha
      have := i.below x hx
      simp at hb
      omega
    · intro x hx
      rcases List.mem_append.1 hx with hx | hx
      · exact Nat.lt_succ_of_lt (i.below x hx)
      · simp at hx; subst hx; exact Nat.lt_succ_self _
    · intro c' k hk
      rw [effects_snoc] at hk
      rcases List.mem_append.1 hk with hk | hk
      · obtain ⟨q1, q2⟩ := i.made c' k hk; exact ⟨Nat.lt_succ_of_lt q1, q2⟩
      · simp at hk; obtain ⟨rfl, rfl⟩ := hk; exact ⟨Nat.lt_succ_self _, h1, h2⟩
    · intro c' hk
      rw [effects_snoc] at hk
      rcases List.mem_append.1 hk with hk | hk
      · exact i.nohand c' hk
      · simp at hk
    · intro c1 c2 k hk1 hk2
      rw [effects_snoc] at hk1 hk2
      rcases List.mem_append.1 hk1 with hk1 | hk1 <;> rcases List.mem_append.1 hk2 with hk2 | hk2
      · exact i.uniq _ _ _ hk1 hk2
      · have := (i.made _ _ hk1).1; simp at hk2; omega
      · have := (i.made _ _ hk2).1; simp at hk1; omega
      · simp at hk1 hk2; rw [hk1.1, hk2.1]
    · intro x hx
      rw [effects_snoc]
      rcases List.mem_append.1 hx with hx | hx
      · exact List.mem_append_left _ (i.given x hx)
      · simp at hx; subst hx; simp
    · intro c'
      rw [answered_snoc, served_snoc]
      have := i.once c'
      simp only [pending, hr, List.append_nil] at this ⊢
      simp only [List.filterMap_cons, List.filterMap_nil, called_invoked, replied_invoked, List.append_nil, List.map_append, List.map_cons, List.map_nil,
        List.count_append]
      omega
    · intro c' hc
      rw [answered_snoc] at hc
      simp at hc
      exact i.waits c' hc
    · intro hk c' hc hq
      rw [answered_snoc, served_snoc] at *
      rcases List.mem_append.1 hc with hc | hc
      · rcases i.all (kept_init hk) c' hc hq with h | h
        · exact .inl (List.mem_append_left _ h)
        · right
          simp only [pending, hr, List.append_nil] at h ⊢
          rw [List.map_append]
          exact List.mem_append_left _ h
      · right
        simp at hc
        simp [pending, hc]
  · constructor
    · rw [arrived_snoc, served_snoc]; simp [hq, hord]
    · intro h; cases h
    · intro c' k hk
      cases hk
      rw [served_snoc, effects_snoc]; simp
    · rw [served_snoc, returns_snoc]; simp [hb]
    · exact i.keys
    · exact i.below
    · intro c' k hk
      rw [effects_snoc] at hk
      rcases List.mem_append.1 hk with hk | hk
      · exact i.made c' k hk
      · simp at hk
    · intro c' hk
      rw [effects_snoc] at hk
      rcases List.mem_append.1 hk with hk | hk
      · exact i.nohand c' hk
      · simp at hk; subst hk; exact h1
    · intro c1 c2 k hk1 hk2
      rw [effects_snoc] at hk1 hk2
      rcases List.mem_append.1 hk1 with hk1 | hk1
      · rcases List.mem_append.1 hk2 with hk2 | hk2
        · exact i.uniq _ _ _ hk1 hk2
        · simp at hk2
      · simp at hk1
    · intro x hx
      rw [effects_snoc]
      exact List.mem_append_left _ (i.given x hx)
    · intro c'
      rw [answered_snoc, served_snoc]
      have := i.once c'
      simp only [pending, hr, List.append_nil] at this ⊢
      simp only [List.filterMap_cons, List.filterMap_nil, called_invoked, replied_invoked, List.append_nil, List.count_append]
      omega
    · intro c' hc
      rw [answered_snoc] at hc
      simp at hc
      exact i.waits c' hc
    · intro hk c' hc hq
      rw [answered_snoc, served_snoc] at *
      rcases List.mem_append.1 hc with hc | hc
      · rcases i.all (kept_init hk) c' hc hq with h | h
        · exact .inl (List.mem_append_left _ h)
        · right
          simp only [pending, hr, List.append_nil] at h ⊢
          exact List.mem_append_left _ h
      · right
        simp at hc
        simp [pending, hc]

/-- The answer of a callback that does not promise one. -/
def value : Ret → Nat
  | .answer v => v
  | _ => unsupported

/-- What a returning callback and its handle do. -/
theorem finish_ok {s c h r s' o} (hf : finish s c h r = .ok (s', o)) :
    (∃ k, h = some k ∧ r ≠ .later ∧ (∃ x, s.handles.find? (fun y => decide (y.1 = k)) = some x) ∧
      s' = { s with running := none, handles := s.handles.filter fun x => x.1 ≠ k } ∧
      o = send c (some (value r))) ∨
    (∃ k, h = some k ∧ r = .later ∧ s' = { s with running := none } ∧ o = []) ∨
    (h = none ∧ s' = { s with running := none } ∧
      o = match given c r with | some v => send c (some v) | none => []) := by
  cases h with
  | some k =>
    cases r with
    | answer v =>
      simp only [finish] at hf
      split at hf
      · rename_i hs; cases hf
        exact .inl ⟨_, rfl, by simp, Option.isSome_iff_exists.1 hs, rfl, rfl⟩
      · cases hf
    | silent =>
      simp only [finish] at hf
      split at hf
      · rename_i hs; cases hf
        exact .inl ⟨_, rfl, by simp, Option.isSome_iff_exists.1 hs, rfl, rfl⟩
      · cases hf
    | later => cases hf; exact .inr (.inl ⟨_, rfl, rfl, rfl, rfl⟩)
  | none =>
    cases r with
    | answer v => cases hf; exact .inr (.inr ⟨rfl, rfl, rfl⟩)
    | silent => cases hf; exact .inr (.inr ⟨rfl, rfl, rfl⟩)
    | later =>
      cases hf
      refine .inr (.inr ⟨rfl, rfl, ?_⟩)
      unfold Spec.Answer.given
      cases c.inTable <;> rfl

/-- A step that sends `o` to one call and stops some of the calls that may be answered. -/
theorem shrink_inv {h s} (i : Inv h s) {e s' o} (he : ∀ c, e ≠ .enter c) (hqu : s'.queue = s.queue)
    (hidle : s'.running = none → s'.queue = [])
    (hrun : s'.running = none ∨ s'.running = s.running)
    (hb : (if s.running.isSome then 1 else 0) = (match e with | .back _ => 1 | _ => 0) + if s'.running.isSome then 1 else 0)
    (hsub : ∀ x ∈ s'.handles, x ∈ s.handles) (hkeys : (s'.handles.map (·.1)).Nodup) (hmade : s'.made = s.made)
    (hinv : ∀ c k, .invoked c k ∉ o) (hreq : ∀ c v, .sent c v ∈ o → c.request = true)
    (hcount : ∀ c, (o.filterMap replied).count c + (pending s').count c ≤
      (pending s).count c)
    (hall : Kept (h ++ [(e, o)]) → ∀ c ∈ pending s, c.request = true →
      c ∈ o.filterMap replied ∨ c ∈ pending s') :
    Inv (h ++ [(e, o)]) s' := by
  have hsv : o.filterMap called = [] := by
    refine List.filterMap_eq_nil_iff.2 ?_
    intro x hx
    cases x with
    | invoked c k => exact absurd hx (hinv c k)
    | sent c v => rfl
  have hserved : served (h ++ [(e, o)]) = served h := by rw [served_snoc, hsv, List.append_nil]
  have heff : ∀ c k, .invoked c k ∈ effects (h ++ [(e, o)]) ↔ .invoked c k ∈ effects h := by
    intro c k
    rw [effects_snoc, List.mem_append]
    exact ⟨fun x => x.elim id fun x => absurd x (hinv c k), .inl⟩
  constructor
  · rw [arrived_snoc, hserved, hqu, ← i.order]
    cases e with
    | enter c => exact absurd rfl (he c)
    | _ => simp
  · exact hidle
  · intro c k hk
    rw [hserved, heff]
    rcases hrun with h1 | h1
    · rw [h1] at hk; cases hk
    · exact i.last c k (by rw [← h1]; exact hk)
  · rw [hserved, returns_snoc, i.backs, hb, Nat.add_assoc]
  · exact hkeys
  · intro x hx; rw [hmade]; exact i.below x (hsub x hx)
  · intro c k hk; rw [hmade]; exact i.made c k ((heff _ _).1 hk)
  · intro c hk; exact i.nohand c ((heff _ _).1 hk)
  · intro c c' k h1 h2; exact i.uniq c c' k ((heff _ _).1 h1) ((heff _ _).1 h2)
  · intro x hx; exact (heff _ _).2 (i.given x (hsub x hx))
  · intro c
    rw [answered_snoc, hserved, List.count_append]
    have := i.once c
    have := hcount c
    omega
  · intro c hc
    rw [answered_snoc] at hc
    rcases List.mem_append.1 hc with hc | hc
    · exact i.waits c hc
    · obtain ⟨x, hx, hx2⟩ := List.mem_filterMap.1 hc
      cases x with
      | invoked c k => cases hx2
      | sent c' v => cases hx2; exact hreq _ _ hx
  · intro hk c hc hq
    rw [hserved] at hc
    rw [answered_snoc]
    rcases i.all (kept_init hk) c hc hq with h1 | h1
    · exact .inl (List.mem_append_left _ h1)
    · rcases hall hk c h1 hq with h2 | h2
      · exact .inl (List.mem_append_right _ h2)
      · exact .inr h2

theorem send_inv (c : Call) (r) : ∀ c' k, .invoked c' k ∉ send c r := by
  intro c' k; unfold send; split <;> simp

theorem send_req (c : Call) (r) : ∀ c' v, .sent c' v ∈ send c r → c'.request = true := by
  intro c' v h
  unfold send at h
  split at h
  · rename_i hr; simp at h; rw [h.1]; exact hr
  · cases h

theorem step_inv {h s} (i : Inv h s) {e s' o} (hs : step s e = .ok (s', o)) : Inv (h ++ [(e, o)]) s' := by
  cases e with
  | enter c =>
    unfold step at hs
    simp only at hs
    split at hs
    · rename_i hr; exact enter_inv i hs hr
    · rename_i x hr
      cases hs
      have eff : ∀ e, e ∈ effects (h ++ [(Op.enter c, [])]) ↔ e ∈ effects h := by
        intro e; rw [effects_snoc, List.append_nil]
      have sv : served (h ++ [(Op.enter c, [])]) = served h := by rw [served_snoc]; simp
      have an : answered (h ++ [(Op.enter c, [])]) = answered h := by rw [answered_snoc]; simp
      constructor
      · rw [arrived_snoc, sv, i.order]; simp
      · intro h0
        have h0 : s.running = none := h0
        rw [h0] at hr; cases hr
      · intro c' k hk; rw [sv, eff]; exact i.last c' k hk
      · rw [sv, returns_snoc]; exact i.backs
      · exact i.keys
      · exact i.below
      · intro c' k hk; exact i.made c' k ((eff _).1 hk)
      · intro c' hk; exact i.nohand c' ((eff _).1 hk)
      · intro c1 c2 k h1 h2; exact i.uniq c1 c2 k ((eff _).1 h1) ((eff _).1 h2)
      · intro x hx; exact (eff _).2 (i.given x hx)
      · intro c'; rw [an, sv]; exact i.once c'
      · rw [an]; exact i.waits
      · intro hk; rw [an, sv]; exact i.all (kept_init hk)
  | back r =>
    unfold step at hs
    simp only at hs
    split at hs
    · cases hs
    · rename_i c k hr
      obtain ⟨⟨s1, out⟩, hf, hs⟩ := res_bind_ok hs
      simp only [] at hs
      split at hs
      · rename_i hq
        cases hs
        have hrs : s.running.isSome = true := by rw [hr]; rfl
        rcases finish_ok hf with ⟨k, rfl, hl, ⟨x, hx⟩, rfl, rfl⟩ | ⟨k, rfl, rfl, rfl, rfl⟩ | ⟨rfl, rfl, rfl⟩
        · obtain ⟨hx1, hx2⟩ := find_key hx
          have hxc : x.2 = c := by
            have h1 := i.given x hx1
            rw [hx2] at h1
            exact i.uniq _ _ _ h1 (i.last c _ hr).2
          have hm : (k, c) ∈ s.handles := by rw [← hx2, ← hxc]; exact hx1
          refine shrink_inv i (by simp) rfl (fun _ => hq) (.inl rfl) (by simp [hrs]) (fun y hy => (List.mem_filter.1 hy).1)
            (nodup_filter i.keys) rfl (send_inv _ _) (send_req _ _) ?_ ?_
          · intro c'
            have := count_remove c' i.keys hm
            rw [send_answered]
            simp only [pending, hr, List.append_nil]
            split
            · rw [← this]; simp [List.count_cons]; omega
            · rw [← this]; simp
          · intro _ c' hc' hreq
            simp only [pending, hr, List.append_nil] at hc' ⊢
            rcases mem_remove i.keys hm hc' with h1 | h1
            · left; rw [send_answered, ← h1, hreq]; simp
            · exact .inr h1
        · refine shrink_inv i (by simp) rfl (fun _ => hq) (.inl rfl) (by simp [hrs]) (fun y hy => hy)
            i.keys rfl (by simp) (by simp) ?_ ?_
          · intro c'; simp [pending, hr]
          · intro _ c' hc' _; right; simpa [pending, hr] using hc'
        · refine shrink_inv i (by simp) rfl (fun _ => hq) (.inl rfl) (by simp [hrs]) (fun y hy => hy) i.keys rfl ?_ ?_ ?_ ?_
          · split
            · exact send_inv _ _
            · simp
          · split
            · exact send_req _ _
            · simp
          · intro c'
            simp only [pending, hr, List.append_nil, List.count_append]
            split
            · rw [send_answered]
              split <;> simp [List.count_cons]
              omega
            · simp
          · intro hk c' hc' hreq
            simp only [pending, hr, List.append_nil] at hc' ⊢
            rcases List.mem_append.1 hc' with h1 | h1
            · exact .inr h1
            · simp at h1
              subst h1
              left
              have hg : ∃ v, Spec.Answer.given c' r = some v := by
                cases r with
                | answer v => exact ⟨_, rfl⟩
                | silent => exact ⟨_, rfl⟩
                | later =>
                  unfold Spec.Answer.given
                  cases hit : c'.inTable with
                  | true => exact ⟨_, rfl⟩
                  | false =>
                    exfalso
                    have h1 := hk h _ [] c' rfl (i.last c' _ hr).1 hit
                    exact i.nohand c' (i.last c' _ hr).2 ⟨h1, hit⟩
              obtain ⟨v, hv⟩ := hg
              rw [hv]
              show c' ∈ (send c' (some v)).filterMap _
              rw [send_answered, hreq]
              simp
      · cases hs
  | respond k r =>
    unfold step at hs
    simp only at hs
    split at hs
    · rename_i x hx
      cases hs
      obtain ⟨hx1, hx2⟩ := find_key hx
      have hm : (k, x.2) ∈ s.handles := by rw [← hx2]; exact hx1
      refine shrink_inv i (by simp) rfl i.idle (.inr rfl) (by simp) (fun y hy => (List.mem_filter.1 hy).1)
        (nodup_filter i.keys) rfl (send_inv _ _) (send_req _ _) ?_ ?_
      · intro c'
        have := count_remove c' i.keys hm
        rw [send_answered]
        simp only [pending, List.count_append]
        split
        · rw [← this]; simp [List.count_cons]; omega
        · rw [← this]; simp
      · intro _ c' hc' hreq
        simp only [pending] at hc' ⊢
        rcases List.mem_append.1 hc' with hc' | hc'
        · rcases mem_remove i.keys hm hc' with h1 | h1
          · left; rw [send_answered, ← h1, hreq]; simp
          · exact .inr (List.mem_append_left _ h1)
        · exact .inr (List.mem_append_right _ hc')
    · cases hs
  | unregister o' =>
    cases hs
    refine shrink_inv i (by simp) rfl i.idle (.inr rfl) (by simp) (fun y hy => hy) i.keys rfl (by simp) (by simp) ?_ ?_
    · intro c'; simp [pending]
    · intro _ c' hc' _; exact .inr hc'

theorem exec_inv {h s} (hx : Exec step State.init h s) : Inv h s := by
  induction hx with
  | nil => exact inv_init
  | snoc _ hs ih => exact step_inv ih hs

theorem used_snoc {h : History} {e o k} : Used (h ++ [(e, o)]) k ↔ Used h k ∨ ∃ v, e = .respond k v := by
  constructor
  · rintro ⟨v, o', hm⟩
    rcases List.mem_append.1 hm with hm | hm
    · exact .inl ⟨v, o', hm⟩
    · simp at hm; exact .inr ⟨v, hm.1.symm⟩
  · rintro (⟨v, o', hm⟩ | ⟨v, rfl⟩)
    · exact ⟨v, o', List.mem_append_left _ hm⟩
    · exact ⟨v, o, by simp⟩

theorem ended_snoc {h : History} {x k} (he : Ended h k) : Ended (h ++ [x]) k := by
  obtain ⟨a, r, o, b, c, rfl, h2⟩ := he
  exact ⟨a, r, o, b ++ [x], c, by simp, h2⟩

/-- What became of the handles. -/
structure Handles (h : History) (s : State) : Prop where
  used : ∀ k, Used h k → k < s.made ∧ ∀ x ∈ s.handles, x.1 ≠ k
  lost : ∀ k, k < s.made → (∃ x ∈ s.handles, x.1 = k) ∨ Used h k ∨ Ended h k
  gone : ∀ o ∈ s.gone, ∃ r, (Op.unregister o, r) ∈ h
  mine : ∀ c k, s.running = some (c, some k) → (∃ x ∈ s.handles, x.1 = k) ∨ Used h k

theorem filter_lost {l : List (Nat × Call)} {k j} (hj : ∃ x ∈ l, x.1 = j) (hne : j ≠ k) :
    ∃ x ∈ l.filter (fun y => decide (y.1 ≠ k)), x.1 = j := by
  obtain ⟨x, hx, rfl⟩ := hj
  exact ⟨x, List.mem_filter.2 ⟨hx, by simpa using hne⟩, rfl⟩

theorem step_handles {h s} (i : Inv h s) (q : Handles h s) {e s' o} (hs : step s e = .ok (s', o)) :
    Handles (h ++ [(e, o)]) s' := by
  have gone' : ∀ x ∈ s.gone, ∃ r, (Op.unregister x, r) ∈ h ++ [(e, o)] := fun x hx => by
    obtain ⟨r, hr⟩ := q.gone x hx
    exact ⟨r, List.mem_append_left _ hr⟩
  have keep : (∀ v k, e ≠ .respond k v) → s'.made = s.made → s'.handles = s.handles → s'.gone = s.gone →
      (∀ c k, s'.running = some (c, some k) → s.running = some (c, some k)) → Handles (h ++ [(e, o)]) s' := by
    intro h1 h2 h3 h4 h5
    refine ⟨?_, ?_, ?_, ?_⟩
    · intro k hk
      rw [h2, h3]
      rcases used_snoc.1 hk with hk | ⟨v, hk⟩
      · exact q.used k hk
      · exact absurd hk (h1 v k)
    · intro k hk
      rw [h2] at hk
      rw [h3]
      rcases q.lost k hk with h | h | h
      · exact .inl h
      · exact .inr (.inl (used_snoc.2 (.inl h)))
      · exact .inr (.inr (ended_snoc h))
    · rw [h4]; exact gone'
    · intro c k hk
      rw [h3]
      exact (q.mine c k (h5 c k hk)).imp id fun h => used_snoc.2 (.inl h)
  cases e with
  | enter c =>
    unfold step at hs
    simp only at hs
    split at hs
    · rename_i hr
      rcases start_ok hs with ⟨h1, h2, rfl, rfl⟩ | ⟨h1, rfl, rfl⟩
      · refine ⟨?_, ?_, gone', fun c' k hk => by cases hk; exact .inl ⟨(s.made, c), by simp, rfl⟩⟩
        · intro k hk
          rcases used_snoc.1 hk with hk | ⟨v, hk⟩
          · obtain ⟨q1, q2⟩ := q.used k hk
            refine ⟨Nat.lt_succ_of_lt q1, fun x hx => ?_⟩
            rcases List.mem_append.1 hx with hx | hx
            · exact q2 x hx
            · simp at hx; subst hx; simp only; omega
          · cases hk
        · intro k hk
          by_cases hk' : k = s.made
          · subst hk'; exact .inl ⟨(s.made, c), by simp, rfl⟩
          · have hk : k < s.made + 1 := hk
            rcases q.lost k (by omega) with ⟨x, hx, hx2⟩ | h | h
            · exact .inl ⟨x, List.mem_append_left _ hx, hx2⟩
            · exact .inr (.inl (used_snoc.2 (.inl h)))
            · exact .inr (.inr (ended_snoc h))
      · exact keep (by simp) rfl rfl rfl (by intro c k h; cases h)
    · cases hs; exact keep (by simp) rfl rfl rfl (fun _ _ h => h)
  | back r =>
    unfold step at hs
    simp only at hs
    split at hs
    · cases hs
    · rename_i c k hr
      obtain ⟨⟨s1, out⟩, hf, hs⟩ := res_bind_ok hs
      simp only [] at hs
      split at hs
      · rename_i hq
        cases hs
        rcases finish_ok hf with ⟨k, rfl, hl, ⟨x, hx⟩, rfl, rfl⟩ | ⟨k, rfl, rfl, rfl, rfl⟩ | ⟨rfl, rfl, rfl⟩
        · refine ⟨?_, ?_, gone', by intro c k h; cases h⟩
          · intro j hj
            rcases used_snoc.1 hj with hj | ⟨v, hj⟩
            · obtain ⟨q1, q2⟩ := q.used j hj
              exact ⟨q1, fun x hx => q2 x (List.mem_filter.1 hx).1⟩
            · cases hj
          · intro j hj
            by_cases e : j = k
            · subst e
              exact .inr (.inr ⟨h, r, _, [], c, rfl, hl, i.last c _ hr⟩)
            · rcases q.lost j hj with h | h | h
              · exact .inl (filter_lost h e)
              · exact .inr (.inl (used_snoc.2 (.inl h)))
              · exact .inr (.inr (ended_snoc h))
        · exact keep (by simp) rfl rfl rfl (by intro c k h; cases h)
        · exact keep (by simp) rfl rfl rfl (by intro c k h; cases h)
      · cases hs
  | respond k r =>
    unfold step at hs
    simp only at hs
    split at hs
    · rename_i x hx
      cases hs
      obtain ⟨hx1, hx2⟩ := find_key hx
      refine ⟨?_, ?_, gone', ?_⟩
      rotate_left 2
      · intro c j hj
        by_cases e : j = k
        · subst e
          exact .inr (used_snoc.2 (.inr ⟨r, rfl⟩))
        · exact (q.mine c j hj).imp (fun h => filter_lost h e) fun h => used_snoc.2 (.inl h)
      · intro j hj
        rcases used_snoc.1 hj with hj | ⟨v, hj⟩
        · obtain ⟨q1, q2⟩ := q.used j hj
          exact ⟨q1, fun x hx => q2 x (List.mem_filter.1 hx).1⟩
        · cases hj
          refine ⟨hx2 ▸ i.below x hx1, fun y hy => ?_⟩
          simpa using (List.mem_filter.1 hy).2
      · intro j hj
        by_cases e : j = k
        · subst e
          exact .inr (.inl (used_snoc.2 (.inr ⟨r, rfl⟩)))
        · rcases q.lost j hj with h | h | h
          · exact .inl (filter_lost h e)
          · exact .inr (.inl (used_snoc.2 (.inl h)))
          · exact .inr (.inr (ended_snoc h))
    · cases hs
  | unregister u =>
    cases hs
    refine ⟨?_, ?_, ?_, fun c k h => (q.mine c k h).imp id fun h => used_snoc.2 (.inl h)⟩
    · intro k hk
      rcases used_snoc.1 hk with hk | ⟨v, hk⟩
      · exact q.used k hk
      · cases hk
    · intro k hk
      rcases q.lost k hk with h | h | h
      · exact .inl h
      · exact .inr (.inl (used_snoc.2 (.inl h)))
      · exact .inr (.inr (ended_snoc h))
    · intro x hx
      rcases List.mem_append.1 hx with hx | hx
      · exact gone' x hx
      · simp at hx; subst hx; exact ⟨_, List.mem_append_right _ (List.mem_singleton.2 rfl)⟩

theorem exec_handles {h s} (hx : Exec step State.init h s) : Handles h s := by
  induction hx with
  | nil =>
    refine ⟨?_, ?_, ?_, by intro c k h; cases h⟩
    · rintro k ⟨v, o, hm⟩; cases hm
    · intro k hk; exact absurd hk (Nat.not_lt_zero _)
    · intro o ho; cases ho
  | snoc hx hs ih => exact step_handles (exec_inv hx) ih hs

end Verif.Answer
