import Verif.Spec.ValueChange

/-!
# Lemmas about value-change detection
-/

namespace Verif.ValueChange

open Verif Verif.Value Verif.Spec.ValueChange

/-- What one poll does to property `n`. -/
theorem pollAll_node (sc : Bool) (now : Nat → Option Scalar) (n : Nat) :
    ∀ rs rs' es, (rs.map (·.node)).Nodup → pollAll sc now rs = .ok (rs', es) →
      rs'.map (·.node) = rs.map (·.node) ∧
      match find n rs, now n with
      | some r, some v => ∃ c, compare sc v r.value = .ok c ∧
          (c = .eq → find n rs' = some r ∧ es.filter (fun e => e.node = n) = []) ∧
          (c ≠ .eq → find n rs' = some { r with value := v } ∧
            es.filter (fun e => e.node = n) = [⟨n, r.value, v⟩])
      | o, _ => find n rs' = o ∧ es.filter (fun e => e.node = n) = [] := by
  intro rs
  induction rs with
  | nil =>
    intro rs' es _ h
    simp only [pollAll, Res.ok.injEq, Prod.mk.injEq] at h
    obtain ⟨rfl, rfl⟩ := h
    simp [find]
  | cons r rs ih =>
    intro rs' es hn h
    rw [List.map_cons, List.nodup_cons] at hn
    have hfresh : r.node = n → find n rs = none := by
      intro hr
      unfold find
      rw [List.find?_eq_none]
      intro x hx he
      simp only [decide_eq_true_eq] at he
      exact hn.1 (List.mem_map.2 ⟨x, hx, by omega⟩)
    -- the record stays, changes or not
    have step1 : ∀ rs1 es1 r1 e1, pollAll sc now rs = .ok (rs1, es1) → rs' = r1 :: rs1 → es = e1 ++ es1 →
        r1.node = r.node → (∀ e ∈ e1, e.node = r.node) →
        rs'.map (·.node) = (r :: rs).map (·.node) ∧
        (r.node ≠ n → match find n (r :: rs), now n with
          | some r, some v => ∃ c, compare sc v r.value = .ok c ∧
              (c = .eq → find n rs' = some r ∧ es.filter (fun e => e.node = n) = []) ∧
              (c ≠ .eq → find n rs' = some { r with value := v } ∧
                es.filter (fun e => e.node = n) = [⟨n, r.value, v⟩])
          | o, _ => find n rs' = o ∧ es.filter (fun e => e.node = n) = []) ∧
        (r.node = n → es1.filter (fun e => e.node = n) = []) := by
      intro rs1 es1 r1 e1 h1 hrs hes hr1 he1
      obtain ⟨i1, i2⟩ := ih rs1 es1 hn.2 h1
      refine ⟨by rw [hrs, List.map_cons, List.map_cons, i1, hr1], ?_, ?_⟩
      · intro hne
        have e1f : e1.filter (fun e => e.node = n) = [] := by
          rw [List.filter_eq_nil_iff]
          intro e he
          have := he1 e he
          simp only [decide_eq_true_eq]
          omega
        have f1 : find n (r :: rs) = find n rs := by
          unfold find
          rw [List.find?_cons_of_neg (by simpa using hne)]
        have f2 : find n rs' = find n rs1 := by
          rw [hrs]
          unfold find
          rw [List.find?_cons_of_neg (by simp; omega)]
        rw [f1, f2, hes, List.filter_append, e1f, List.nil_append]
        exact i2
      · intro he
        rw [hfresh he] at i2
        exact i2.2
    unfold pollAll at h
    cases hv : now r.node with
    | none =>
      rw [hv] at h
      simp only [] at h
      obtain ⟨⟨rs1, es1⟩, h1, h⟩ := res_bind_ok h
      simp only [Res.pure_eq, Res.ok.injEq, Prod.mk.injEq] at h
      obtain ⟨hr, he⟩ := h
      obtain ⟨s1, s2, s3⟩ := step1 rs1 es1 r [] h1 hr.symm (by simp [he]) rfl (by simp)
      refine ⟨s1, ?_⟩
      by_cases hne : r.node = n
      · have f1 : find n (r :: rs) = some r := by unfold find; rw [List.find?_cons_of_pos (by simpa using hne)]
        have f2 : find n rs' = some r := by
          rw [← hr]; unfold find; rw [List.find?_cons_of_pos (by simpa using hne)]
        have hv' : now n = none := by rw [← hne]; exact hv
        rw [f1, hv', ← he]
        exact ⟨f2, s3 hne⟩
      · exact s2 hne
    | some v =>
      rw [hv] at h
      simp only [] at h
      obtain ⟨c, hc, h⟩ := res_bind_ok h
      obtain ⟨⟨rs1, es1⟩, h1, h⟩ := res_bind_ok h
      simp only [] at h
      by_cases hce : c = .eq
      · rw [if_neg (by simpa using hce)] at h
        simp only [Res.pure_eq, Res.ok.injEq, Prod.mk.injEq] at h
        obtain ⟨hr, he⟩ := h
        obtain ⟨s1, s2, s3⟩ := step1 rs1 es1 r [] h1 hr.symm (by simp [he]) rfl (by simp)
        refine ⟨s1, ?_⟩
        by_cases hne : r.node = n
        · have f1 : find n (r :: rs) = some r := by unfold find; rw [List.find?_cons_of_pos (by simpa using hne)]
          have f2 : find n rs' = some r := by
            rw [← hr]; unfold find; rw [List.find?_cons_of_pos (by simpa using hne)]
          have hv' : now n = some v := by rw [← hne]; exact hv
          rw [f1, hv', ← he]
          exact ⟨c, hc, fun _ => ⟨f2, s3 hne⟩, fun h => absurd hce h⟩
        · exact s2 hne
      · rw [if_pos hce] at h
        simp only [Res.pure_eq, Res.ok.injEq, Prod.mk.injEq] at h
        obtain ⟨hr, he⟩ := h
        obtain ⟨s1, s2, s3⟩ := step1 rs1 es1 { r with value := v } [⟨r.node, r.value, v⟩] h1 hr.symm
          (by simp [← he]) rfl (by simp)
        refine ⟨s1, ?_⟩
        by_cases hne : r.node = n
        · have f1 : find n (r :: rs) = some r := by unfold find; rw [List.find?_cons_of_pos (by simpa using hne)]
          have f2 : find n rs' = some { r with value := v } := by
            rw [← hr]; unfold find; rw [List.find?_cons_of_pos (by simpa using hne)]
          have hv' : now n = some v := by rw [← hne]; exact hv
          rw [f1, hv', ← he]
          refine ⟨c, hc, fun h => absurd h hce, fun _ => ⟨f2, ?_⟩⟩
          rw [List.filter_cons_of_pos (by simpa using hne), s3 hne, hne]
        · exact s2 hne

theorem known_snoc (n : Nat) (h : History) (e : Op) (o : Out) :
    known n (h ++ [(e, o)]) =
      (match ((e, o) : Op × Out) with
        | (.watch _ m v, .started) => if m = n then v else known n h
        | (_, .stopped ns) => if n ∈ ns then none else known n h
        | (.poll now, _) => if (known n h).isSome ∧ (now n).isSome then now n else known n h
        | _ => known n h) := by
  unfold known
  rw [List.foldl_append]
  rfl

theorem readings_snoc (n : Nat) (h : History) (e : Op) (o : Out) :
    readings n (h ++ [(e, o)]) = readings n h ++
      (match e with
        | .watch _ m v => (if m = n then v else none).toList
        | .poll now => (now n).toList
        | _ => []) := by
  unfold readings
  rw [List.filterMap_append]
  congr 1
  cases e with
  | watch h m v =>
    by_cases hm : m = n
    · cases v <;> simp [hm]
    · simp [hm]
  | poll now =>
    show List.filterMap _ [_] = _
    rw [List.filterMap_cons]
    cases hv : now n <;> simp [hv]
  | unwatch m => rfl
  | close m => rfl

theorem faithful_left {sc : Bool} {a b : List Scalar} (h : Faithful sc (a ++ b)) : Faithful sc a :=
  fun v hv w hw => h v (List.mem_append_left _ hv) w (List.mem_append_left _ hw)

/-- Where the watched values come from. -/
structure Inv (sc : Bool) (h : History) (s : State) : Prop where
  nodup : (s.records.map (·.node)).Nodup
  read : ∀ n r, find n s.records = some r → r.value ∈ readings n h
  known : ∀ n, Faithful sc (readings n h) → known n h = (find n s.records).map (·.value)

theorem find_node {n : Nat} {rs : List Record} {r : Record} (h : find n rs = some r) : r ∈ rs ∧ r.node = n :=
  ⟨List.mem_of_find?_eq_some h, by simpa using List.find?_some h⟩

theorem find_iff {n : Nat} {rs : List Record} (hn : (rs.map (·.node)).Nodup) {r : Record} :
    find n rs = some r ↔ r ∈ rs ∧ r.node = n := by
  refine ⟨find_node, ?_⟩
  rintro ⟨h1, h2⟩
  induction rs with
  | nil => cases h1
  | cons x rs ih =>
    rw [List.map_cons, List.nodup_cons] at hn
    unfold find
    rcases List.mem_cons.1 h1 with rfl | h1
    · rw [List.find?_cons_of_pos (by simpa using h2)]
    · rw [List.find?_cons_of_neg]
      · exact ih hn.2 h1
      · simp only [decide_eq_true_eq]
        intro hx
        exact hn.1 (List.mem_map.2 ⟨r, h1, by omega⟩)

theorem find_none_iff {n : Nat} {rs : List Record} : find n rs = none ↔ ∀ r ∈ rs, r.node ≠ n := by
  unfold find
  rw [List.find?_eq_none]
  simp

/-- Removing records. -/
theorem find_sub {n : Nat} {ns : List Nat} {rs rs' : List Record} (hn : (rs.map (·.node)).Nodup) (hn' : (rs'.map (·.node)).Nodup)
    (hs : ∀ r, r ∈ rs' ↔ r ∈ rs ∧ r.node ∉ ns) :
    find n rs' = if n ∈ ns then none else find n rs := by
  by_cases hm : n ∈ ns
  · rw [if_pos hm, find_none_iff]
    intro r hr h
    exact ((hs r).1 hr).2 (h ▸ hm)
  · rw [if_neg hm]
    cases hf : find n rs with
    | none =>
      rw [find_none_iff] at hf ⊢
      exact fun r hr => hf r ((hs r).1 hr).1
    | some r =>
      rw [find_iff hn] at hf
      rw [find_iff hn']
      exact ⟨(hs r).2 ⟨hf.1, hf.2 ▸ hm⟩, hf.2⟩

theorem removed_inv {sc : Bool} {h : History} {s : State} {rs : List Record} {ns : List Nat} {e : Op}
    (hi : Inv sc h s) (hn : (rs.map (·.node)).Nodup) (hs : ∀ r, r ∈ rs ↔ r ∈ s.records ∧ r.node ∉ ns)
    (he : ∀ n, readings n (h ++ [(e, Out.stopped ns)]) = readings n h) :
    Inv sc (h ++ [(e, .stopped ns)]) ⟨rs⟩ := by
  refine ⟨hn, ?_, ?_⟩
  · intro n r hr
    rw [he]
    rw [find_sub hi.nodup hn hs] at hr
    by_cases hm : n ∈ ns
    · rw [if_pos hm] at hr; cases hr
    · rw [if_neg hm] at hr; exact hi.read n r hr
  · intro n hf
    rw [he] at hf
    rw [known_snoc, find_sub hi.nodup hn hs]
    have hk := hi.known n hf
    by_cases hm : n ∈ ns
    · cases e <;> simp [hm]
    · cases e <;> simp [hm, hk]

theorem nodup_of_map {rs : List Record} (hn : (rs.map (·.node)).Nodup) : rs.Nodup := by
  induction rs with
  | nil => exact List.nodup_nil
  | cons r rs ih =>
    rw [List.map_cons, List.nodup_cons] at hn
    rw [List.nodup_cons]
    exact ⟨fun h => hn.1 (List.mem_map.2 ⟨r, h, rfl⟩), ih hn.2⟩

theorem step_inv {sc : Bool} {h : History} {s s' : State} {e : Op} {o : Out} (hi : Inv sc h s)
    (hs : step sc s e = .ok (s', o)) : Inv sc (h ++ [(e, o)]) s' := by
  cases e with
  | watch hd m v =>
    simp only [step] at hs
    cases hf : find m s.records with
    | some r0 =>
      rw [hf] at hs
      simp only [Res.ok.injEq, Prod.mk.injEq] at hs
      obtain ⟨rfl, rfl⟩ := hs
      refine ⟨hi.nodup, ?_, ?_⟩
      · intro n r hr
        rw [readings_snoc]
        exact List.mem_append_left _ (hi.read n r hr)
      · intro n hF
        rw [readings_snoc] at hF
        rw [known_snoc]
        exact hi.known n (faithful_left hF)
    | none =>
      rw [hf] at hs
      cases v with
      | none =>
        simp only [Res.ok.injEq, Prod.mk.injEq] at hs
        obtain ⟨rfl, rfl⟩ := hs
        refine ⟨hi.nodup, ?_, ?_⟩
        · intro n r hr
          rw [readings_snoc]
          exact List.mem_append_left _ (hi.read n r hr)
        · intro n hF
          rw [readings_snoc] at hF
          rw [known_snoc]
          exact hi.known n (faithful_left hF)
      | some v =>
        simp only [Res.ok.injEq, Prod.mk.injEq] at hs
        obtain ⟨rfl, rfl⟩ := hs
        have hfind : ∀ n, find n (s.records ++ [⟨hd, m, v⟩]) = if m = n then some ⟨hd, m, v⟩ else find n s.records := by
          intro n
          unfold find at hf ⊢
          rw [List.find?_append]
          by_cases hm : m = n
          · subst hm
            rw [if_pos rfl, hf]
            simp
          · rw [if_neg hm]
            simp [hm]
        refine ⟨?_, ?_, ?_⟩
        · show (List.map Record.node (s.records ++ [_])).Nodup
          rw [List.map_append, List.nodup_append]
          refine ⟨hi.nodup, by simp, ?_⟩
          intro x hx y hy
          simp only [List.map_cons, List.map_nil, List.mem_singleton] at hy
          obtain ⟨r, hr, rfl⟩ := List.mem_map.1 hx
          rw [hy]
          exact find_none_iff.1 hf r hr
        · intro n r hr
          rw [hfind] at hr
          rw [readings_snoc]
          by_cases hm : m = n
          · rw [if_pos hm] at hr
            cases hr
            apply List.mem_append_right
            simp [hm]
          · rw [if_neg hm] at hr
            exact List.mem_append_left _ (hi.read n r hr)
        · intro n hF
          rw [readings_snoc] at hF
          rw [known_snoc, hfind]
          by_cases hm : m = n
          · simp [hm]
          · simp only [hm, if_false]
            exact hi.known n (faithful_left hF)
  | unwatch m =>
    simp only [step] at hs
    cases hf : find m s.records with
    | some r0 =>
      rw [hf] at hs
      simp only [Res.ok.injEq, Prod.mk.injEq] at hs
      obtain ⟨rfl, rfl⟩ := hs
      have h0 := find_node hf
      have hnd : s.records.Nodup := nodup_of_map hi.nodup
      refine removed_inv hi ((List.erase_sublist.map _).nodup hi.nodup) ?_ (fun n => by rw [readings_snoc]; simp)
      intro r
      rw [hnd.mem_erase_iff, List.mem_singleton]
      constructor
      · rintro ⟨h1, h2⟩
        refine ⟨h2, fun h => h1 ?_⟩
        have a := (find_iff hi.nodup).2 ⟨h2, h⟩
        rw [hf] at a
        cases a
        rfl
      · rintro ⟨h1, h2⟩
        exact ⟨fun h => h2 (h ▸ h0.2), h1⟩
    | none =>
      rw [hf] at hs
      simp only [Res.ok.injEq, Prod.mk.injEq] at hs
      obtain ⟨rfl, rfl⟩ := hs
      exact removed_inv hi hi.nodup (by simp) (fun n => by rw [readings_snoc]; simp)
  | close hd =>
    simp only [step, Res.ok.injEq, Prod.mk.injEq] at hs
    obtain ⟨rfl, rfl⟩ := hs
    refine removed_inv hi ((List.filter_sublist.map _).nodup hi.nodup) ?_ (fun n => by rw [readings_snoc]; simp)
    intro r
    simp only [List.mem_filter, List.mem_map, decide_eq_true_eq, ne_eq, decide_not, Bool.not_eq_true',
      decide_eq_false_iff_not, not_exists, not_and]
    constructor
    · rintro ⟨h1, h2⟩
      refine ⟨h1, ?_⟩
      rintro x ⟨hx, hh⟩ hxr
      have a := (find_iff hi.nodup).2 ⟨h1, rfl⟩
      have b := (find_iff hi.nodup).2 ⟨hx, hxr⟩
      rw [a] at b
      cases b
      exact h2 hh
    · rintro ⟨h1, h2⟩
      exact ⟨h1, fun hh => h2 r ⟨h1, hh⟩ rfl⟩
  | poll now =>
    simp only [step] at hs
    obtain ⟨⟨rs, es⟩, h1, hs⟩ := res_bind_ok hs
    simp only [Res.pure_eq, Res.ok.injEq, Prod.mk.injEq] at hs
    obtain ⟨rfl, rfl⟩ := hs
    have hp := fun n => pollAll_node sc now n _ _ _ hi.nodup h1
    refine ⟨by rw [(hp 0).1]; exact hi.nodup, ?_, ?_⟩
    · intro n r hr
      have h2 := (hp n).2
      rw [readings_snoc]
      cases hf : find n s.records with
      | none => rw [hf] at h2; simp only [] at h2; rw [hr] at h2; exact absurd h2.1 (by simp)
      | some r0 =>
        cases hv : now n with
        | none =>
          rw [hf, hv] at h2
          simp only [hr] at h2
          rw [Option.some.inj h2.1]
          exact List.mem_append_left _ (hi.read n r0 hf)
        | some v =>
          rw [hf, hv] at h2
          obtain ⟨c, _, c1, c2⟩ := h2
          by_cases hc : c = .eq
          · have := (c1 hc).1
            rw [hr] at this
            rw [Option.some.inj this]
            exact List.mem_append_left _ (hi.read n r0 hf)
          · have := (c2 hc).1
            rw [hr] at this
            rw [Option.some.inj this]
            exact List.mem_append_right _ (by simp [hv])
    · intro n hF
      rw [readings_snoc] at hF
      have hk := hi.known n (faithful_left hF)
      have h2 := (hp n).2
      rw [known_snoc]
      show (if (known n h).isSome ∧ (now n).isSome then now n else known n h) = _
      cases hf : find n s.records with
      | none =>
        rw [hf] at h2 hk
        simp only [] at h2
        rw [hk, h2.1]
        rfl
      | some r0 =>
        rw [hf] at hk
        cases hv : now n with
        | none =>
          rw [hf, hv] at h2
          simp only [] at h2
          rw [hk, h2.1]
          rfl
        | some v =>
          rw [hf, hv] at h2
          obtain ⟨c, h3, c1, c2⟩ := h2
          rw [hk]
          obtain ⟨c', h4, h5⟩ := hF v (List.mem_append_right _ (by simp [hv])) r0.value
            (List.mem_append_left _ (hi.read n r0 hf))
          rw [h3] at h4
          cases h4
          by_cases hc : c = .eq
          · rw [(c1 hc).1, h5.1 hc]
            rfl
          · rw [(c2 hc).1]
            rfl

theorem leads_inv {sc : Bool} {h : History} {s : State} (hx : Leads sc h s) : Inv sc h s := by
  unfold Leads at hx
  induction hx with
  | nil => exact ⟨by simp [State.init], by simp [State.init, find], by simp [State.init, find, known]⟩
  | snoc _ hs ih => exact step_inv ih hs

theorem pollAll_defined {sc : Bool} {now : Nat → Option Scalar} :
    ∀ rs, (∀ r ∈ rs, ∀ v, now r.node = some v → ∃ c, compare sc v r.value = .ok c) →
      ∃ x, pollAll sc now rs = .ok x := by
  intro rs
  induction rs with
  | nil => exact fun _ => ⟨_, rfl⟩
  | cons r rs ih =>
    intro hr
    obtain ⟨⟨rs', es⟩, hx⟩ := ih fun x hx => hr x (List.mem_cons_of_mem _ hx)
    unfold pollAll
    cases hv : now r.node with
    | none => simp [hx]
    | some v =>
      obtain ⟨c, hc⟩ := hr r List.mem_cons_self v hv
      simp only [hc, hx, Res.ok_bind]
      split <;> exact ⟨_, rfl⟩

/-- Appending steps. -/
theorem leads_run {sc : Bool} {h : History} {s s' : State} {es : List Op} {os : List Out} (hx : Leads sc h s)
    (hr : run sc s es = .ok (s', os)) : Leads sc (h ++ es.zip os) s' :=
  (Exec.extend hx (run := run sc) (fun _ => rfl) (fun _ _ _ => rfl) es s' os hr).2

end Verif.ValueChange
