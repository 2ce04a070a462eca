import Verif.Spec.DirectCache
import Verif.Proof.Message

namespace Verif.DirectCache

open Verif Verif.Message Verif.Spec.DirectCache

/-! ## Items cut short -/

theorem grab_more {bs x r : Bytes} {k : Nat} (h : grab bs k = some (x, r)) (t : Bytes) :
    grab (bs ++ t) k = some (x, r ++ t) := by
  unfold grab at h ⊢
  split at h
  · rename_i hk
    cases h
    rw [if_pos (by rw [List.length_append]; omega), List.take_append_of_le_length hk,
      List.drop_append_of_le_length hk]
  · cases h

theorem grabU_more {bs r : Bytes} {k n : Nat} (h : grabU bs k = some (n, r)) (t : Bytes) :
    grabU (bs ++ t) k = some (n, r ++ t) := by
  unfold grabU at h ⊢
  cases hg : grab bs k with
  | none => simp [hg] at h
  | some q =>
    obtain ⟨x, r'⟩ := q
    simp only [hg, Option.map_some] at h
    cases h
    rw [grab_more hg t]
    rfl

theorem grabS_more {bs r : Bytes} {k : Nat} {n : Int} (h : grabS bs k = some (n, r)) (t : Bytes) :
    grabS (bs ++ t) k = some (n, r ++ t) := by
  unfold grabS at h ⊢
  cases hg : grabU bs k with
  | none => simp [hg] at h
  | some q =>
    obtain ⟨x, r'⟩ := q
    simp only [hg, Option.map_some] at h
    cases h
    rw [grabU_more hg t]
    rfl

theorem ite_more {α : Type} {c : Prop} [Decidable c] {A B A' B' : Option α} {x y : Option α}
    (h1 : A = x → A' = y) (h2 : B = x → B' = y) :
    (if c then A else B) = x → (if c then A' else B') = y := by
  split <;> assumption

/-- An item is read the same when more follows. -/
theorem unpack_more {bs r : Bytes} {i : Item} (h : unpackNext bs = some (i, r)) (t : Bytes) :
    unpackNext (bs ++ t) = some (i, r ++ t) := by
  cases bs with
  | nil => simp [unpackNext] at h
  | cons b bs =>
    have mU : ∀ {k : Nat} (f : Nat → Item), (grabU bs k).map (fun (v, r) => (f v, r)) = some (i, r) →
        (grabU (bs ++ t) k).map (fun (v, r) => (f v, r)) = some (i, r ++ t) := by
      intro k f hh
      cases hg : grabU bs k with
      | none => simp [hg] at hh
      | some q =>
        simp only [hg, Option.map_some, Option.some.injEq, Prod.mk.injEq] at hh
        rw [grabU_more hg t]
        simp [hh.1, hh.2]
    have mS : ∀ {k : Nat} (f : Int → Item), (grabS bs k).map (fun (v, r) => (f v, r)) = some (i, r) →
        (grabS (bs ++ t) k).map (fun (v, r) => (f v, r)) = some (i, r ++ t) := by
      intro k f hh
      cases hg : grabS bs k with
      | none => simp [hg] at hh
      | some q =>
        simp only [hg, Option.map_some, Option.some.injEq, Prod.mk.injEq] at hh
        rw [grabS_more hg t]
        simp [hh.1, hh.2]
    have mG : ∀ {k : Nat} (f : Bytes → Item), (grab bs k).map (fun (v, r) => (f v, r)) = some (i, r) →
        (grab (bs ++ t) k).map (fun (v, r) => (f v, r)) = some (i, r ++ t) := by
      intro k f hh
      cases hg : grab bs k with
      | none => simp [hg] at hh
      | some q =>
        simp only [hg, Option.map_some, Option.some.injEq, Prod.mk.injEq] at hh
        rw [grab_more hg t]
        simp [hh.1, hh.2]
    have m2 : ∀ {k : Nat} (f : Bytes → Item),
        (do let (n, r) ← grabU bs k; let (s, r) ← grab r n; pure (f s, r)) = some (i, r) →
        (do let (n, r) ← grabU (bs ++ t) k; let (s, r) ← grab r n; pure (f s, r)) = some (i, r ++ t) := by
      intro k f hh
      cases hg : grabU bs k with
      | none => simp [hg] at hh
      | some q =>
        obtain ⟨n, r1⟩ := q
        simp only [hg, Option.bind_eq_bind, Option.bind_some] at hh
        cases hg2 : grab r1 n with
        | none => simp [hg2] at hh
        | some q2 =>
          obtain ⟨s, r2⟩ := q2
          simp only [hg2, Option.bind_some, Option.pure_def, Option.some.injEq, Prod.mk.injEq] at hh
          simp only [grabU_more hg t, Option.bind_eq_bind, Option.bind_some, grab_more hg2 t, Option.pure_def]
          rw [hh.1, hh.2]
    simp only [List.cons_append, unpackNext] at h ⊢
    refine ite_more ?_ (ite_more ?_ (ite_more (mG .str) (ite_more (m2 .bin) (ite_more (m2 .bin)
      (ite_more (m2 .bin) (ite_more (mU fun v => .dbl (BitVec.ofNat 64 v))
      (ite_more (mU fun v => .int v) (ite_more (mU fun v => .int v) (ite_more (mU fun v => .int v)
      (ite_more (mU fun v => .int v)
      (ite_more (mS .int) (ite_more (mS .int) (ite_more (mS .int) (ite_more (mS .int)
      (ite_more (m2 .str) (ite_more (m2 .str) (ite_more (m2 .str) ?_))))))))))))))))) h
    · intro h; cases h; rfl
    · intro h; cases h; rfl
    · intro h; cases h

/-- An item cut short is none. -/
theorem unpack_short {f x : Bytes} {i : Item} (h : unpackNext f = some (i, [])) {pre : Bytes}
    (hp : f = pre ++ x) (hx : x ≠ []) : unpackNext pre = none := by
  cases hu : unpackNext pre with
  | none => rfl
  | some q =>
    obtain ⟨j, r⟩ := q
    have := unpack_more hu x
    rw [← hp, h] at this
    simp only [Option.some.injEq, Prod.mk.injEq] at this
    have h2 := congrArg List.length this.2
    rw [List.length_append] at h2
    exact absurd (List.eq_nil_of_length_eq_zero (by simp at h2; omega)) hx

/-! ## Loading what was saved -/

def Good (e : Entry) : Prop :=
  0 ∉ e.element ∧ 0 ∉ e.consumer ∧ e.element.length < 256 ∧ e.consumer.length < 256

def lineOf (e : Entry) : Shown × Shown := (some e.element, some e.consumer)

theorem setString_length (s : Bytes) : (setString s).length ≤ s.length + 6 := by
  unfold setString packStr
  repeat' split
  all_goals (simp; try omega)

theorem showName_set (s r : Bytes) (h0 : (0 : UInt8) ∉ s) (h : s.length < 256) :
    showName (setString s ++ r) = .ok (some s, r) := by
  have hc : (s ++ [0]).contains 0 = true := by simp
  unfold showName setString
  rw [unpack_packStr (s ++ [0]) (by simp; omega)]
  simp only [hc, if_true]
  rw [takeWhile_append_nul h0]

theorem get_entry (e : Entry) (hg : Good e) (r : Bytes) :
    getBytes (packEntry e ++ r) = some (setString e.element ++ setString e.consumer, r) := by
  apply get_setBytes
  have h1 := setString_length e.element
  have h2 := setString_length e.consumer
  obtain ⟨_, _, h3, h4⟩ := hg
  simp only [List.length_append]
  omega

theorem tell_all (es : List Entry) (hg : ∀ e ∈ es, Good e) (r : Bytes) (n : Nat) :
    tell (es.length + n) (es.flatMap packEntry ++ r) =
      (do let l ← tell n r; pure (es.map lineOf ++ l)) := by
  induction es with
  | nil =>
    simp only [List.length_nil, Nat.zero_add, List.flatMap_nil, List.nil_append, List.map_nil]
    cases tell n r <;> rfl
  | cons e es ih =>
    have he := hg e List.mem_cons_self
    have hl : (e :: es).length + n = (es.length + n) + 1 := by simp; omega
    rw [hl]
    simp only [tell, List.flatMap_cons, List.append_assoc]
    rw [get_entry e he]
    simp only []
    rw [showName_set _ _ he.1 he.2.2.1]
    simp only [Res.ok_bind]
    have := showName_set e.consumer [] he.2.1 he.2.2.2
    rw [List.append_nil] at this
    rw [this]
    simp only [Res.ok_bind]
    rw [ih fun x hx => hg x (List.mem_cons_of_mem _ hx)]
    cases tell n r <;> rfl

theorem count_int {n : Nat} (h : n < 2 ^ 31) : (BitVec.ofNat 32 n).toInt = n := by
  have : (BitVec.ofNat 32 n).toNat = n := by
    rw [BitVec.toNat_ofNat]
    omega
  rw [BitVec.toInt_eq_toNat_of_lt (by omega), this]

theorem count_nat {n : Nat} (h : n < 2 ^ 31) : (BitVec.ofNat 32 n).toInt.toNat = n := by
  rw [count_int h]
  rfl

theorem load_save (es : List Entry) (hg : ∀ e ∈ es, Good e) (hn : es.length < 2 ^ 31) :
    load (save es) = .ok (es.map lineOf, save es) := by
  unfold save
  split
  · rename_i h
    have : es = [] := List.eq_nil_of_length_eq_zero h
    subst this
    rfl
  · unfold load
    simp only []
    have hp := setInt32_pos (BitVec.ofNat 32 es.length)
    rw [if_neg (by rw [List.length_append]; omega)]
    rw [get_setInt32]
    simp only []
    rw [count_nat hn]
    have := tell_all es hg [] 0
    rw [List.append_nil, Nat.add_zero] at this
    rw [this]
    simp [tell, Res.ok_bind, Res.pure_eq]

/-- Cut after the number of entries, the file makes the process read from NULL. -/
theorem tell_cut (es : List Entry) (hg : ∀ e ∈ es, Good e) (pre x : Bytes) (hx : x ≠ [])
    (hp : es.flatMap packEntry = pre ++ x) : tell es.length pre = .ub := by
  induction es generalizing pre with
  | nil =>
    simp only [List.flatMap_nil] at hp
    have := congrArg List.length hp
    rw [List.length_append] at this
    exact absurd (List.eq_nil_of_length_eq_zero (by simp at this; omega)) hx
  | cons e es ih =>
    have he := hg e List.mem_cons_self
    rw [List.flatMap_cons] at hp
    by_cases hl : (packEntry e).length ≤ pre.length
    · have hq : pre = packEntry e ++ pre.drop (packEntry e).length := by
        have h1 := congrArg (List.take (packEntry e).length) hp
        rw [List.take_left, List.take_append_of_le_length hl] at h1
        exact (List.take_append_drop (packEntry e).length pre).symm.trans (by rw [← h1])
      generalize pre.drop (packEntry e).length = q at hq
      subst hq
      rw [List.append_assoc] at hp
      have h2 := List.append_cancel_left hp
      simp only [List.length_cons, tell]
      rw [get_entry e he]
      simp only []
      rw [showName_set _ _ he.1 he.2.2.1]
      simp only [Res.ok_bind]
      have := showName_set e.consumer [] he.2.1 he.2.2.2
      rw [List.append_nil] at this
      rw [this]
      simp only [Res.ok_bind]
      rw [ih (fun x hx => hg x (List.mem_cons_of_mem _ hx)) q h2]
      rfl
    · have hq : packEntry e = pre ++ (packEntry e).drop pre.length := by
        have h1 := congrArg (List.take pre.length) hp
        rw [List.take_left, List.take_append_of_le_length (by omega)] at h1
        exact (List.take_append_drop pre.length (packEntry e)).symm.trans (by rw [h1])
      have h0 := get_entry e he []
      rw [List.append_nil] at h0
      have h3 : ∃ s, unpackNext (packEntry e) = some (.bin s, []) := by
        unfold getBytes at h0
        split at h0
        · rename_i s r hu
          cases h0
          exact ⟨_, hu⟩
        · cases h0
      obtain ⟨s, h3⟩ := h3
      have hd : (packEntry e).drop pre.length ≠ [] := by
        intro hh
        have := congrArg List.length hh
        rw [List.length_drop, List.length_nil] at this
        omega
      have h4 := unpack_short h3 hq hd
      simp only [List.length_cons, tell, getBytes, h4]

theorem load_cut (es : List Entry) (hg : ∀ e ∈ es, Good e) (hn : es.length < 2 ^ 31) {f : Bytes}
    (hf : save es = some f) (n : Nat) (hn2 : n < f.length) :
    load (some (f.take n)) =
      if n < (setInt32 (BitVec.ofNat 32 es.length)).length then
        .ok ([], if n = 0 then none else some (f.take n))
      else .ub := by
  unfold save at hf
  split at hf
  · cases hf
  · cases hf
    generalize hc : setInt32 (BitVec.ofNat 32 es.length) = c at *
    have hcpos : 0 < c.length := by rw [← hc]; exact setInt32_pos _
    by_cases hl : n < c.length
    · rw [if_pos hl, List.take_append_of_le_length (by omega)]
      unfold load
      simp only [List.length_take]
      by_cases h0 : n = 0
      · rw [if_pos (by omega), if_pos h0]
      · rw [if_neg (by omega), if_neg h0]
        have h1 : unpackNext c = some (.int es.length, []) := by
          rw [← hc]
          unfold setInt32
          have := unpack_packInt (BitVec.ofNat 32 es.length).toInt
            (by rw [count_int hn]; omega) (by rw [count_int hn]; omega) []
          rw [List.append_nil] at this
          rw [this, count_int hn]
        have hd : c.drop n ≠ [] := by
          intro hh
          have := congrArg List.length hh
          rw [List.length_drop, List.length_nil] at this
          omega
        have h2 := unpack_short h1 (List.take_append_drop n c).symm hd
        simp only [getInt32, h2]
    · rw [if_neg hl]
      rw [List.length_append] at hn2
      have ht : (c ++ es.flatMap packEntry).take n = c ++ (es.flatMap packEntry).take (n - c.length) := by
        rw [List.take_append, List.take_of_length_le (by omega)]
      rw [ht]
      unfold load
      simp only []
      rw [if_neg (by rw [List.length_append]; omega)]
      rw [← hc, get_setInt32, hc]
      simp only []
      rw [count_nat hn]
      rw [tell_cut es hg _ ((es.flatMap packEntry).drop (n - c.length)) _
        (List.take_append_drop _ _).symm]
      · rfl
      · intro hh
        have := congrArg List.length hh
        rw [List.length_drop, List.length_nil] at this
        omega

/-! ## Histories -/

def conn (e : Entry) : Conn := ⟨e.address, e.consumer, e.element⟩

def Small (v : Sheet) : Prop := v.kept.length < 2 ^ 31

/-- The lists are those of the sheet, and the file is the last list written. -/
structure Rel (s : State) (v : Sheet) : Prop where
  live : ∀ p, (s.entries p).map conn = v.live p
  good : ∀ p, ∀ e ∈ s.entries p, Good e
  kept : ∃ es, s.file = save es ∧ es.map conn = v.kept ∧ ∀ e ∈ es, Good e

theorem rel_init : Rel init blank :=
  ⟨fun _ => rfl, (by intro p e h; cases h), [], rfl, rfl, (by intro e h; cases h)⟩

theorem rel_put {s : State} {v : Sheet} (h : Rel s v) (p : Nat) (es : List Entry) (l : List Conn)
    (hl : es.map conn = l) (hg : ∀ e ∈ es, Good e) : Rel (put s p es) (v.now p l) := by
  refine ⟨?_, ?_, es, rfl, hl, hg⟩
  · intro q
    simp only [put, Sheet.now]
    split
    · exact hl
    · exact h.live q
  · intro q e
    simp only [put]
    split
    · exact hg e
    · exact h.good q e

theorem copy_good {a c e : Bytes} (h : (0 : UInt8) ∉ a ∧ (0 : UInt8) ∉ c ∧ (0 : UInt8) ∉ e) :
    Good ⟨copyName a, copyName c, copyName e⟩ := by
  refine ⟨fun hh => h.2.2 (List.mem_of_mem_take hh), fun hh => h.2.1 (List.mem_of_mem_take hh), ?_, ?_⟩
  all_goals
    simp only [copyName, List.length_take]
    omega

theorem close_find (es : List Entry) (c e : Bytes) :
    match es.findIdx? (fun x => x.element == e && x.consumer == c) with
    | some i => (es.map conn).any (fun x => x.element = e ∧ x.consumer = c) = true ∧
        (es.eraseIdx i).map conn = (es.map conn).eraseP fun x => x.element = e ∧ x.consumer = c
    | none => (es.map conn).any (fun x => x.element = e ∧ x.consumer = c) = false := by
  induction es with
  | nil => rfl
  | cons x es ih =>
    rw [List.findIdx?_cons]
    by_cases hx : x.element = e ∧ x.consumer = c
    · rw [if_pos (by simp [hx])]
      refine ⟨by simp [conn, hx], ?_⟩
      rw [List.map_cons, List.eraseP_cons_of_pos (by simp [conn, hx])]
      rfl
    · have hb : (x.element == e && x.consumer == c) = false := by
        rw [Bool.eq_false_iff]
        intro hh
        simp only [Bool.and_eq_true, beq_iff_eq] at hh
        exact hx hh
      rw [hb]
      simp only [Bool.false_eq_true, if_false]
      cases hf : es.findIdx? (fun x => x.element == e && x.consumer == c) with
      | none =>
        rw [hf] at ih
        simp only [Option.map_none, List.map_cons, List.any_cons, ih, Bool.or_false]
        exact decide_eq_false (by simpa [conn] using hx)
      | some i =>
        rw [hf] at ih
        simp only [Option.map_some, List.map_cons, List.any_cons, ih.1, Bool.or_true, true_and,
          List.eraseIdx_cons_succ]
        rw [List.eraseP_cons_of_neg (by simp only [decide_eq_true_eq]; exact hx), ih.2]

theorem line_conn (es : List Entry) : es.map lineOf = (es.map conn).map Conn.line := by
  rw [List.map_map]
  rfl

/-- What an event tells. -/
def says (v : Sheet) : Event → Out → Prop
  | .start _, o => o = .told (v.kept.map Conn.line)
  | _, _ => True

theorem step_rel {s : State} {v : Sheet} (h : Rel s v) (e : Event) (hp : Plain e) (hs : Small v) :
    ∃ s' o, step s e = .ok (s', o) ∧ Rel s' (note v e) ∧ says v e o := by
  cases e with
  | start p =>
    obtain ⟨es, hf, hk, hg⟩ := h.kept
    have hn : es.length < 2 ^ 31 := by
      have : es.length = v.kept.length := by rw [← hk, List.length_map]
      rw [this]
      exact hs
    refine ⟨⟨fun q => if q = p then [] else s.entries q, save es⟩, .told (es.map lineOf), ?_, ?_, ?_⟩
    · simp only [step, hf, load_save es hg hn, Res.ok_bind, Res.pure_eq]
    · refine ⟨?_, ?_, es, rfl, hk, hg⟩
      · intro q
        simp only [note]
        split
        · rfl
        · exact h.live q
      · intro q e
        simp only []
        split
        · intro hh; cases hh
        · exact h.good q e
    · simp only [says]
      rw [line_conn, hk]
  | «open» p a c e =>
    refine ⟨_, _, rfl, ?_, trivial⟩
    refine rel_put h p _ _ ?_ ?_
    · rw [List.map_append, h.live p]
      rfl
    · intro x hx
      rw [List.mem_append, List.mem_singleton] at hx
      rcases hx with hx | hx
      · exact h.good p x hx
      · rw [hx]; exact copy_good hp
  | close p c e =>
    have hc := close_find (s.entries p) c e
    simp only [step]
    cases hf : (s.entries p).findIdx? (fun x => x.element == e && x.consumer == c) with
    | none =>
      rw [hf] at hc
      refine ⟨_, _, rfl, ?_, trivial⟩
      simp only [h.live p] at hc
      simp only [note, hc]
      exact h
    | some i =>
      rw [hf] at hc
      refine ⟨_, _, rfl, ?_, trivial⟩
      simp only [h.live p] at hc
      simp only [note, hc.1, if_true]
      refine rel_put h p _ _ hc.2 ?_
      intro x hx
      exact h.good p x (List.mem_of_mem_eraseIdx hx)
  | gone p a =>
    refine ⟨_, _, rfl, ?_, trivial⟩
    refine rel_put h p _ _ ?_ ?_
    · rw [← h.live p]
      generalize s.entries p = l
      induction l with
      | nil => rfl
      | cons x l ih =>
        rw [List.map_cons]
        by_cases hx : x.address = a
        · rw [List.filter_cons_of_neg (by simp [hx]), List.filter_cons_of_neg (by simp [conn, hx]), ih]
        · rw [List.filter_cons_of_pos (by simp [hx]), List.filter_cons_of_pos (by simp [conn, hx]),
            List.map_cons, ih]
    · intro x hx
      exact h.good p x (List.mem_filter.mp hx).1
  | cut n => exact hp.elim

theorem setInt32_size {n : Nat} (h : n < 2 ^ 31) :
    (Message.setInt32 (BitVec.ofNat 32 n)).length = numberSize n := by
  unfold Message.setInt32 Message.packInt numberSize
  rw [count_int h]
  rw [if_neg (by omega), if_neg (by omega)]
  by_cases h1 : n < 128
  · rw [if_pos (by omega), if_pos h1]; simp
  · rw [if_neg (by omega), if_neg h1]
    by_cases h2 : n < 256
    · rw [if_pos (by omega), if_pos (by omega), if_pos h2]; simp
    · by_cases h3 : n < 65536
      · rw [if_pos (by omega), if_neg (by omega), if_neg h2, if_pos h3]; simp
      · rw [if_neg (by omega), if_pos (by omega), if_neg h2, if_neg h3]; simp

theorem run_append (s : State) (es es' : List Event) :
    run s (es ++ es') = (do
      let (s1, os) ← run s es
      let (s2, os') ← run s1 es'
      pure (s2, os ++ os')) := by
  induction es generalizing s with
  | nil =>
    simp only [List.nil_append, run, Res.ok_bind]
    cases run s es' <;> rfl
  | cons e es ih =>
    simp only [List.cons_append, run]
    cases step s e with
    | ok q =>
      obtain ⟨s1, o⟩ := q
      simp only [Res.ok_bind, ih]
      cases run s1 es with
      | ok q =>
        obtain ⟨s2, os⟩ := q
        simp only [Res.ok_bind, Res.pure_eq]
        cases run s2 es' <;> rfl
      | fail => rfl
      | ub => rfl
    | fail => rfl
    | ub => rfl

theorem cut_start {s : State} {v : Sheet} (h : Rel s v) (hs : Small v) {f : Bytes} (hf : s.file = some f)
    (n p : Nat) (hn : n < f.length) :
    run s [.cut n, .start p] =
      if n < numberSize v.kept.length then
        .ok (⟨fun q => if q = p then [] else s.entries q, if n = 0 then none else some (f.take n)⟩,
          [.cut, .told []])
      else .ub := by
  obtain ⟨es, hsv, hk, hg⟩ := h.kept
  have hl : es.length = v.kept.length := by rw [← hk, List.length_map]
  have hm : es.length < 2 ^ 31 := by rw [hl]; exact hs
  have := load_cut es hg hm (hsv ▸ hf) n hn
  rw [setInt32_size hm, hl] at this
  simp only [run, step, hf, Option.map_some, Res.ok_bind, this]
  split <;> rfl

/-- A whole run. -/
theorem run_rel {s : State} {v : Sheet} (h : Rel s v) (es : List Event) (hp : ∀ e ∈ es, Plain e)
    (hs : ∀ k, Small ((es.take k).foldl note v)) :
    ∃ s' os, run s es = .ok (s', os) ∧ os.length = es.length ∧ Rel s' (es.foldl note v) ∧
      ∀ (k : Nat) e o, es[k]? = some e → os[k]? = some o → says ((es.take k).foldl note v) e o := by
  induction es generalizing s v with
  | nil => exact ⟨s, [], rfl, rfl, h, by intro k e o he; simp at he⟩
  | cons e es ih =>
    obtain ⟨s1, o, h1, hr, hy⟩ := step_rel h e (hp e List.mem_cons_self) (hs 0)
    obtain ⟨s2, os, h2, hl, hr2, hk⟩ := ih hr (fun x hx => hp x (List.mem_cons_of_mem _ hx))
      (fun k => hs (k + 1))
    refine ⟨s2, o :: os, ?_, by simp [hl], hr2, ?_⟩
    · simp only [run, h1, Res.ok_bind, h2, Res.pure_eq]
    · intro k x y hx hy'
      cases k with
      | zero =>
        simp only [List.getElem?_cons_zero, Option.some.injEq] at hx hy'
        subst hx hy'
        exact hy
      | succ k => exact hk k x y (by simpa using hx) (by simpa using hy')

end Verif.DirectCache
