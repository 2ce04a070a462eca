import Verif.Proof.RowsUse

/-!
# Proofs about tables: histories
-/

namespace Verif.RowsProof

open Verif Verif.Element Verif.Subs Verif.Rows Verif.Spec.Provider Verif.Spec.Rows

/-! ### What the calls do, one after another -/

def Agree (V V' : View) : Prop := ∀ p, Exact p → V p = V' p

theorem exact_dropLast {p : Path} (h : Exact p) : Exact p.dropLast := fun t ht => h t (List.dropLast_subset _ ht)

theorem answer_congr {V V' : View} (h : Agree V V') {op : Rows.Op} (hs : Spec.Rows.Sane V op) :
    answer V op = answer V' op := by
  cases op with
  | add t a c i => simp only [answer, h _ hs.2.1.1]
  | remove r c => simp only [answer, h _ hs.1.1, h _ (exact_dropLast hs.1.1)]
  | register t i a => simp only [answer, h _ hs.1.1]
  | unregister r => simp only [answer, h _ hs.1.1]
  | list t => simp only [answer, h _ hs.1]

theorem withRow_congr {V V' : View} (h : Agree V V') {P : Path} (hP : Exact P) (n : Element.Token) (a : Option Bytes) :
    Agree (withRow V P n a) (withRow V' P n a) := by
  intro p hp
  unfold withRow
  have : Exact (P ++ template :: p.drop (P.length + 1)) := by
    refine exact_append.mpr ⟨hP, (exact_append (p := [template])).mpr ⟨exact_template, ?_⟩⟩
    exact fun t ht => hp t (List.mem_of_mem_drop ht)
  rw [h _ hP, h _ this, h _ hp]

theorem withoutRow_congr {V V' : View} (h : Agree V V') {P : Path} (hP : Exact P) (n : Element.Token) :
    Agree (withoutRow V P n) (withoutRow V' P n) := by
  intro p hp
  unfold withoutRow
  rw [h _ hP, h _ hp]

theorem effect_congr {V V' : View} (h : Agree V V') {op : Rows.Op} (hs : Spec.Rows.Sane V op) :
    Agree (effect V op) (effect V' op) := by
  have ha := answer_congr h hs
  cases op with
  | add t a c i =>
    simp only [effect, ha]
    split
    · exact withRow_congr h hs.2.1.1 _ _
    · exact h
  | remove r c =>
    simp only [effect, ha]
    split
    · exact withoutRow_congr h (exact_dropLast hs.1.1) _
    · exact h
  | register t i a =>
    simp only [effect, ha]
    split
    · exact withRow_congr h hs.1.1 _ _
    · exact h
  | unregister r =>
    simp only [effect, ha]
    split
    · exact withoutRow_congr h (exact_dropLast hs.1.1) _
    · exact h
  | list t => exact h

theorem usage_fold {D : List Decl} {h : List (Rows.Op × Out)} {T : Tree} (hu : Usage D h T) :
    Agree (seen T) ((h.map (·.1)).foldl effect (seen (declare D))) := by
  induction hu with
  | start _ _ => exact fun _ _ => rfl
  | @step h T T' op o hu hs he ih =>
    obtain ⟨T'', o', h1, h2⟩ := did (usage_good hu) hs
    rw [h1] at he
    cases he
    rw [List.map_append, List.foldl_append]
    simp only [List.map_cons, List.map_nil, List.foldl_cons, List.foldl_nil]
    intro p hp
    rw [h2.effect p hp]
    exact effect_congr ih hs p hp

/-! ### The rows of a table -/

structure Kept (V : View) (P : Path) (l : List (Nat × Option Bytes)) : Prop where
  nodup : (l.map (·.1)).Nodup
  above : ∀ q, q <+: P → q ≠ P → ∀ e, V q = some e → e.type ≠ tTable
  table : ∃ e, V P = some e ∧ e.type = tTable ∧ e.below = template :: l.map (fun y => decimal y.1)
  rows : ∀ y ∈ l, y.1 < 2 ^ 32 ∧ ∃ e, V (P ++ [decimal y.1]) = some e ∧ e.alias = y.2

theorem Kept.congr {V V' : View} {P : Path} {l : List (Nat × Option Bytes)} (hP : Exact P) (h : Agree V V')
    (hk : Kept V P l) : Kept V' P l := by
  have hpre : ∀ q, q <+: P → Exact q := by
    rintro q ⟨r, rfl⟩
    exact (exact_append.mp hP).1
  refine ⟨hk.nodup, ?_, ?_, ?_⟩
  · intro q hq hne e he
    rw [← h q (hpre q hq)] at he
    exact hk.above q hq hne e he
  · obtain ⟨e, he, h2⟩ := hk.table
    exact ⟨e, by rw [← h P hP]; exact he, h2⟩
  · intro y hy
    obtain ⟨h1, e, he, h2⟩ := hk.rows y hy
    exact ⟨h1, e, by rw [← h _ (exact_append.mpr ⟨hP, exact_decimal _⟩)]; exact he, h2⟩

theorem snoc_prefix_snoc {Q P : Path} {x n : Element.Token} (h : Q ++ [x] <+: P ++ [n]) :
    (Q = P ∧ x = n) ∨ Q ++ [x] <+: P := by
  obtain ⟨r, hr⟩ := h
  rcases List.eq_nil_or_concat r with rfl | ⟨r', z, rfl⟩
  · rw [List.append_nil] at hr
    have := List.append_inj' hr rfl
    exact .inl ⟨this.1, by simpa using this.2⟩
  · refine .inr ⟨r', ?_⟩
    rw [List.concat_eq_append, ← List.append_assoc] at hr
    exact (List.append_inj' hr rfl).1

theorem Kept.not_inside {V : View} {P Q : Path} {l : List (Nat × Option Bytes)} (hk : Kept V P l) {e : Entry}
    (hQ : V Q = some e) (ht : e.type = tTable) {x : Element.Token} : ¬ Q ++ [x] <+: P := by
  rintro ⟨r, hr⟩
  refine hk.above Q ⟨x :: r, by rw [← hr]; simp⟩ ?_ e hQ ht
  intro h
  rw [← h] at hr
  have := congrArg List.length hr
  simp at this

theorem Kept.add {V : View} {P Q : Path} {l : List (Nat × Option Bytes)} (hk : Kept V P l) {e et : Entry} {i : Nat}
    (hQ : V Q = some e) (ht : e.type = tTable) (hnew : decimal i ∉ e.below) (hi : i < 2 ^ 32)
    (htm : V (Q ++ [template]) = some et) (a : Option Bytes) :
    Kept (withRow V Q (decimal i) a) P (if Q = P then l ++ [(i, a)] else l) := by
  have hin : ∀ x, ¬ Q ++ [x] <+: P := fun x => hk.not_inside hQ ht
  have hself : ∀ n : Element.Token, P ++ [n] ≠ P := by
    intro n h
    have := congrArg List.length h
    simp at this
  refine ⟨?_, ?_, ?_, ?_⟩
  · split
    next h =>
      obtain ⟨e', he', _, hb⟩ := hk.table
      rw [← h, hQ] at he'
      cases he'
      rw [List.map_append, List.nodup_append]
      refine ⟨hk.nodup, by simp, ?_⟩
      intro x hx y hy
      simp only [List.map_cons, List.map_nil, List.mem_singleton] at hy
      rintro rfl
      apply hnew
      rw [hb]
      obtain ⟨z, hz, hzx⟩ := List.mem_map.mp hx
      exact List.mem_cons_of_mem _ (List.mem_map.mpr ⟨z, hz, by rw [hzx, hy]⟩)
    next => exact hk.nodup
  · intro q hq hne e' he'
    unfold withRow at he'
    by_cases h1 : q = Q
    · rw [if_pos h1] at he'
      exact absurd ht (hk.above Q (h1 ▸ hq) (h1 ▸ hne) e hQ)
    · rw [if_neg h1] at he'
      have h2 : ¬ Q ++ [decimal i] <+: q := fun h => hin _ (h.trans hq)
      rw [if_neg h2] at he'
      exact hk.above q hq hne e' he'
  · obtain ⟨e', he', ht', hb⟩ := hk.table
    by_cases h1 : Q = P
    · rw [if_pos h1]
      refine ⟨{ e' with below := e'.below ++ [decimal i] }, ?_, ht', ?_⟩
      · unfold withRow
        rw [if_pos h1.symm, h1, he']
        rfl
      · simp [hb]
    · rw [if_neg h1]
      refine ⟨e', ?_, ht', hb⟩
      unfold withRow
      rw [if_neg (fun h => h1 h.symm), if_neg (hin _)]
      exact he'
  · intro y hy
    by_cases hold : y ∈ l
    · obtain ⟨hlt, e', he', hal⟩ := hk.rows y hold
      refine ⟨hlt, ?_⟩
      unfold withRow
      by_cases h1 : P ++ [decimal y.1] = Q
      · rw [if_pos h1, ← h1, he']
        exact ⟨_, rfl, hal⟩
      · rw [if_neg h1]
        have h2 : ¬ Q ++ [decimal i] <+: P ++ [decimal y.1] := by
          intro h
          rcases snoc_prefix_snoc h with ⟨h3, h4⟩ | h3
          · obtain ⟨e'', he'', _, hb⟩ := hk.table
            rw [← h3, hQ] at he''
            cases he''
            apply hnew
            rw [hb, h4]
            exact List.mem_cons_of_mem _ (List.mem_map.mpr ⟨y, hold, rfl⟩)
          · exact hin _ h3
        rw [if_neg h2]
        exact ⟨e', he', hal⟩
    · by_cases h1 : Q = P
      · rw [if_pos h1] at hy
        rcases List.mem_append.mp hy with h | h
        · exact absurd h hold
        · rw [List.mem_singleton] at h
          subst h
          subst h1
          refine ⟨hi, ?_⟩
          unfold withRow
          rw [if_neg (hself _), if_pos (List.prefix_refl _)]
          have : (Q ++ [decimal i]).drop (Q.length + 1) = [] := by
            rw [List.drop_eq_nil_iff]
            simp
          rw [this, htm]
          refine ⟨_, rfl, ?_⟩
          simp
      · rw [if_neg h1] at hy
        exact absurd hy hold

theorem Kept.remove {V : View} {P Q : Path} {l : List (Nat × Option Bytes)} (hk : Kept V P l) {e : Entry} {x : Element.Token}
    (hQ : V Q = some e) (ht : e.type = tTable) (hx : x ≠ template) :
    Kept (withoutRow V Q x) P (l.filter (fun y => Q ++ [x] ≠ P ++ [decimal y.1])) := by
  have hin : ¬ Q ++ [x] <+: P := hk.not_inside hQ ht
  refine ⟨?_, ?_, ?_, ?_⟩
  · exact (List.filter_sublist.map _).nodup hk.nodup
  · intro q hq hne e' he'
    unfold withoutRow at he'
    by_cases h1 : q = Q
    · rw [if_pos h1] at he'
      exact absurd ht (hk.above Q (h1 ▸ hq) (h1 ▸ hne) e hQ)
    · rw [if_neg h1] at he'
      have h2 : ¬ Q ++ [x] <+: q := fun h => hin (h.trans hq)
      rw [if_neg h2] at he'
      exact hk.above q hq hne e' he'
  · obtain ⟨e', he', ht', hb⟩ := hk.table
    by_cases h1 : Q = P
    · subst h1
      refine ⟨{ e' with below := e'.below.erase x }, ?_, ht', ?_⟩
      · unfold withoutRow
        rw [if_pos rfl, he']
        rfl
      · have hnd : (l.map (fun y => decimal y.1)).Nodup := by
          have : l.map (fun y => decimal y.1) = (l.map (·.1)).map decimal := by rw [List.map_map]; rfl
          rw [this]
          rw [List.Nodup, List.pairwise_map]
          exact hk.nodup.imp (fun hne h => hne (decimal_inj h))
        simp only [hb]
        rw [List.erase_cons_tail (by simpa using Ne.symm hx), hnd.erase_eq_filter, List.filter_map]
        congr 2
        apply List.filter_congr
        intro y _
        have : (Q ++ [x] ≠ Q ++ [decimal y.1]) ↔ decimal y.1 ≠ x := by
          constructor
          · intro h h'; exact h (by rw [h'])
          · intro h h'; exact h (by simpa using (List.append_cancel_left h').symm)
        rw [Bool.eq_iff_iff]
        simp only [Function.comp_apply, bne_iff_ne, decide_eq_true_eq]
        exact this.symm
    · refine ⟨e', ?_, ht', ?_⟩
      · unfold withoutRow
        rw [if_neg (fun h => h1 h.symm), if_neg hin]
        exact he'
      · rw [hb, List.filter_eq_self.mpr]
        intro y _
        have : Q ++ [x] ≠ P ++ [decimal y.1] := fun h => h1 (List.append_inj' h rfl).1
        exact decide_eq_true this
  · intro y hy
    rw [List.mem_filter] at hy
    obtain ⟨hlt, e', he', hal⟩ := hk.rows y hy.1
    refine ⟨hlt, ?_⟩
    have hne : Q ++ [x] ≠ P ++ [decimal y.1] := of_decide_eq_true hy.2
    unfold withoutRow
    by_cases h1 : P ++ [decimal y.1] = Q
    · rw [if_pos h1, ← h1, he']
      exact ⟨_, rfl, hal⟩
    · rw [if_neg h1]
      have h2 : ¬ Q ++ [x] <+: P ++ [decimal y.1] := by
        intro h
        rcases snoc_prefix_snoc h with ⟨h3, h4⟩ | h3
        · exact hne (by rw [h3, h4])
        · exact hin h3
      rw [if_neg h2]
      exact ⟨e', he', hal⟩

theorem template_there {T : Tree} (hg : Good T) {Q : Path} (hQ : Exact Q) {e : Entry} (hs : seen T Q = some e)
    (ht : e.type = tTable) : ∃ et, seen T (Q ++ [template]) = some et := by
  rw [seen_eq hg.neat hQ] at hs
  by_cases h0 : Q = []
  · rw [if_pos h0] at hs; cases hs
  · rw [if_neg h0] at hs
    cases hm : nodeOf Q T.root with
    | none => rw [hm] at hs; cases hs
    | some m =>
      rw [hm] at hs
      cases hs
      obtain ⟨_, tm, rs, hcs, htm, _⟩ := (hg.neat.nodeOf hm).ok.table ht
      have hct : child m template = some tm := by unfold child; rw [hcs]; simp [htm]
      refine ⟨entry tm, ?_⟩
      rw [seen_eq hg.neat (exact_append.mpr ⟨hQ, exact_template⟩), if_neg (by simp), nodeOf_append, hm]
      simp [nodeOf, hct]

theorem declare_kept {D : List Decl} (h : Orderly D) (hg : ∀ d ∈ D, d.type = tTable → d.cb.get = none) {d : Decl}
    (hd : d ∈ D) (ht : d.type = tTable) (hp : Plain d.path) : Kept (seen (declare D)) d.path [] := by
  obtain ⟨e, he, h1, _, _, h2⟩ := declare_seen h hg hd hp.1
  refine ⟨by simp, ?_, ⟨e, he, h1.trans ht, h2 ht⟩, by simp⟩
  intro q hq hne e' he' hty
  have hex : Exact q := by
    obtain ⟨r, hr⟩ := hq
    exact (exact_append.mp (hr ▸ hp.1)).1
  have hti := tidy_declare h
  have hb := (declare_blank h hg).1
  rw [seen_eq hb.neat hex] at he'
  by_cases h0 : q = []
  · rw [if_pos h0] at he'; cases he'
  · rw [if_neg h0] at he'
    cases hm : nodeOf q (declare D).root with
    | none => rw [hm] at he'; cases he'
    | some m =>
      rw [hm] at he'
      cases he'
      rcases Classical.em (∃ d' ∈ D, d'.path = q) with ⟨d', hd', hdq⟩ | hno
      · obtain ⟨A, B, hAB⟩ := List.append_of_mem hd
        have hf := h A d B hAB
        rw [hAB] at hd'
        rcases List.mem_append.mp hd' with hA | hB
        · obtain ⟨_, r, _, hr⟩ := hf.above d' hA (hdq ▸ hq)
          exact hp.2 (by rw [hr]; simp)
        · rcases List.mem_cons.mp hB with hB | hB
          · rw [hB] at hdq; exact hne hdq.symm
          · obtain ⟨B1, B2, hB12⟩ := List.append_of_mem hB
            have hf' := h (A ++ d :: B1) d' B2 (by rw [hAB, hB12]; simp)
            exact hf'.fresh d (by simp) (hdq ▸ hq)
      · have := hti.undeclared q m (fun d' hd' he => hno ⟨d', hd', he⟩) hm
        simp only [entry] at hty
        rw [this] at hty
        cases hty

theorem usage_kept {D : List Decl} {h : List (Rows.Op × Out)} {T : Tree} (hu : Usage D h T) {d : Decl}
    (hd : d ∈ D) (ht : d.type = tTable) (hp : Plain d.path) : Kept (seen T) d.path (live d.path h) := by
  induction hu with
  | start ho hg => exact declare_kept ho hg hd ht hp
  | @step h T T' op o hu hs he ih =>
    have hg := usage_good hu
    obtain ⟨T'', o', h1, h2⟩ := did hg hs
    rw [h1] at he
    cases he
    have hag : Agree (effect (seen T) op) (seen T') := fun p hp => (h2.effect p hp).symm
    refine Kept.congr hp.1 hag ?_
    have hans := h2.answer
    unfold live
    rw [List.foldl_append]
    simp only [List.foldl_cons, List.foldl_nil]
    change Kept _ _ (live1 d.path (live d.path h) (op, o))
    generalize live d.path h = l at ih
    cases op with
    | add t a c i =>
      obtain ⟨_, ⟨hex, _⟩, hi, htab⟩ := hs
      have hc : o.called = (answer (seen T) (.add t a c i)).2 := by rw [← hans]
      simp only [effect, live1, ← hc]
      by_cases hcond : o.called = true ∧ c = 0
      · rw [if_pos hcond]
        have hsome : ∃ e, seen T (pieces t) = some e ∧ e.cb.addRow ≠ none := by
          rw [hcond.1] at hc
          simp only [answer] at hc
          split at hc
          · cases hc
          · cases hst : seen T (pieces t) with
            | none => rw [hst] at hc; cases hc
            | some e =>
              rw [hst] at hc
              refine ⟨e, rfl, ?_⟩
              intro hn
              simp [hn] at hc
        obtain ⟨e, hse, hcb⟩ := hsome
        obtain ⟨hty, hnew⟩ := htab hcond.2 e hse hcb
        obtain ⟨et, het⟩ := template_there hg hex hse hty
        have := ih.add hse hty hnew hi het (if a = some [] then none else a)
        generalize (if a = some [] then none else a) = a' at this ⊢
        by_cases hP : pieces t = d.path
        · rw [if_pos ⟨hP, hcond⟩]
          rwa [if_pos hP] at this
        · rw [if_neg (fun h => hP h.1)]
          rwa [if_neg hP] at this
      · rw [if_neg hcond, if_neg (fun h => hcond h.2)]
        exact ih
    | register t i a =>
      obtain ⟨⟨hex, _⟩, _, hi, htab⟩ := hs
      have hc : o.code = (answer (seen T) (.register t i a)).1 := by rw [← hans]
      simp only [effect, live1, ← hc]
      by_cases hcond : o.code = 0
      · rw [if_pos hcond]
        have hsome : ∃ e, seen T (pieces t) = some e ∧ decimal i ∉ e.below := by
          rw [hcond] at hc
          simp only [answer] at hc
          split at hc
          · cases hc
          · cases hst : seen T (pieces t) with
            | none => rw [hst] at hc; cases hc
            | some e =>
              rw [hst] at hc
              refine ⟨e, rfl, ?_⟩
              intro hn
              simp [hn] at hc
        obtain ⟨e, hse, hnew⟩ := hsome
        have hty := htab e hse
        obtain ⟨et, het⟩ := template_there hg hex hse hty
        have := ih.add hse hty hnew (by omega) het a
        by_cases hP : pieces t = d.path
        · rw [if_pos ⟨hP, hcond⟩]
          rwa [if_pos hP] at this
        · rw [if_neg (fun h => hP h.1)]
          rwa [if_neg hP] at this
      · rw [if_neg hcond, if_neg (fun h => hcond h.2)]
        exact ih
    | remove r c =>
      obtain ⟨⟨hex, hpl⟩, htab⟩ := hs
      have hc : o.called = (answer (seen T) (.remove r c)).2 := by rw [← hans]
      simp only [effect, live1, ← hc]
      by_cases hcond : o.called = true ∧ c = 0
      · rw [if_pos hcond, if_pos hcond]
        have hsome : ∃ er e, seen T (pieces r) = some er ∧ seen T (pieces r).dropLast = some e ∧ e.cb.removeRow ≠ none := by
          rw [hcond.1] at hc
          simp only [answer] at hc
          cases hst : seen T (pieces r) with
          | none => rw [hst] at hc; cases hc
          | some er =>
            cases hst' : seen T (pieces r).dropLast with
            | none => rw [hst, hst'] at hc; cases hc
            | some e =>
              rw [hst, hst'] at hc
              refine ⟨er, e, rfl, rfl, ?_⟩
              intro hn
              simp [hn] at hc
        obtain ⟨er, e, hser, hse, hcb⟩ := hsome
        have hne : pieces r ≠ [] := by intro h; rw [h, seen_nil] at hser; cases hser
        have hsplit := path_split hne
        have hxt : (pieces r).getLastD [] ≠ template := by
          intro h
          rw [h] at hsplit
          exact hpl (by rw [hsplit]; simp)
        have := ih.remove hse (htab hcond.2 e hse hcb) hxt
        rw [← hsplit] at this
        exact this
      · rw [if_neg hcond, if_neg hcond]
        exact ih
    | unregister r =>
      obtain ⟨⟨hex, hpl⟩, hpar⟩ := hs
      have hc : o.code = (answer (seen T) (.unregister r)).1 := by rw [← hans]
      simp only [effect, live1, ← hc]
      by_cases hcond : o.code = 0
      · rw [if_pos hcond, if_pos hcond]
        have hthere : seen T (pieces r) ≠ none := by
          intro h
          rw [hcond] at hc
          simp [answer, h] at hc
        have hne : pieces r ≠ [] := fun h => hthere (by rw [h]; rfl)
        obtain ⟨e, hse, hty⟩ := hpar hthere
        have hsplit := path_split hne
        have hxt : (pieces r).getLastD [] ≠ template := by
          intro h
          rw [h] at hsplit
          exact hpl (by rw [hsplit]; simp)
        have := ih.remove hse hty hxt
        rw [← hsplit] at this
        exact this
      · rw [if_neg hcond, if_neg hcond]
        exact ih
    | list t => exact ih

/-! ### Kinds -/

theorem usage_like {D : List Decl} {h : List (Rows.Op × Out)} {T : Tree} (hu : Usage D h T) :
    Orderly D ∧ (∀ d ∈ D, d.type = tTable → d.cb.get = none) ∧ Like (declare D).root T.root := by
  induction hu with
  | start ho hg => exact ⟨ho, hg, Like.refl _⟩
  | step hu hs he ih =>
    obtain ⟨T', o, h1, h2⟩ := did (usage_good hu) hs
    rw [h1] at he
    cases he
    exact ⟨ih.1, ih.2.1, ih.2.2.trans h2.like⟩

theorem usage_kind {D : List Decl} {h : List (Rows.Op × Out)} {T : Tree} (hu : Usage D h T) {p : Path} (hp : Exact p)
    {e : Entry} (hs : seen T p = some e) {d : Decl} (hd : d ∈ D) (hn : Names D [] p d.path) :
    e.type = d.type ∧ e.cb.get = d.cb.get ∧ e.cb.set = d.cb.set ∧ e.cb.addRow = d.cb.addRow ∧
      e.cb.removeRow = d.cb.removeRow := by
  have hg := usage_good hu
  obtain ⟨ho, hgt, hlike⟩ := usage_like hu
  rw [seen_eq hg.neat hp] at hs
  by_cases h0 : p = []
  · rw [if_pos h0] at hs; cases hs
  · rw [if_neg h0] at hs
    cases hm : nodeOf p T.root with
    | none => rw [hm] at hs; cases hs
    | some m =>
      rw [hm] at hs
      cases hs
      obtain ⟨r, hr, hrm⟩ := registered hg.neat hm
      have hti := tidy_declare ho
      have h1 := hlike p
      rw [hr, retrieve_names hti hn rfl] at h1
      cases hd' : nodeOf d.path (declare D).root with
      | none => rw [hd'] at h1; cases h1
      | some m' =>
        rw [hd'] at h1
        simp only [Option.map_some, Option.some.injEq] at h1
        have h2 := h1.trans hrm.kind
        simp only [kind, Prod.mk.injEq] at h2
        obtain ⟨h3, h4⟩ := hti.declared d hd m' hd'
        simp only [entry]
        rw [← h2.1, ← h2.2, h3, h4]
        refine ⟨rfl, ?_⟩
        split <;> exact ⟨rfl, rfl, rfl, rfl⟩

/-! ### Rows by alias -/

theorem instance_append {p r : Path} : ∀ {n : Node}, Neat n → Exact p →
    instanceFrom false (p ++ r) n = (nodeOf p n).bind (instanceFrom false r) := by
  induction p with
  | nil => intro n _ _; rfl
  | cons t p ih =>
    intro n hn hp
    obtain ⟨_, _, h3, h4⟩ := hp t (by simp)
    have hstar : (t = star) = False := eq_false h3
    have hget : (decide (n.info.type = tTable) && (false || decide (n.info.type = tTable) && decide (t = star) || n.info.cb.get.isSome)) = false := by
      by_cases ht : n.info.type = tTable
      · simp [(hn.ok.table ht).1, hstar]
      · simp [ht]
    simp only [List.cons_append, instanceFrom, nodeOf, hget, if_false, find_instance h4, Bool.false_eq_true]
    simp only [hstar, decide_false, Bool.and_false, Bool.or_false]
    change (match child n t with | some c => instanceFrom false (p ++ r) c | none => none) = _
    cases hc : child n t with
    | none => rfl
    | some c => exact ih (hn.sub c (child_mem hc).1) (fun u hu => hp u (by simp [hu]))

theorem find_unique {α : Type} {p : α → Bool} {a b : List α} {x : α} (ha : ∀ y ∈ a, p y = false) (hx : p x = true) :
    (a ++ x :: b).find? p = some x := by
  induction a with
  | nil => simp [hx]
  | cons y a ih =>
    rw [List.cons_append, List.find?_cons, ha y (by simp)]
    exact ih (fun z hz => ha z (by simp [hz]))

theorem alias_seen {T : Tree} (hg : Good T) {P q : Path} (hP : Exact P) (hq : Exact q) {e er : Entry}
    {l1 l2 : List Element.Token} {n : Element.Token} {a : Bytes} (ha : a ≠ []) (had : (46 : UInt8) ∉ a)
    (hs : seen T P = some e) (ht : e.type = tTable) (hb : e.below = template :: l1 ++ n :: l2)
    (hr : seen T (P ++ [n]) = some er) (hal : er.alias = some a)
    (hfirst : ∀ n' ∈ l1, ∀ e', seen T (P ++ [n']) = some e' → e'.alias ≠ some a) :
    seen T (P ++ (91 :: a ++ [93]) :: q) = seen T (P ++ n :: q) := by
  rw [seen_eq hg.neat hP] at hs
  by_cases h0 : P = []
  · rw [if_pos h0] at hs; cases hs
  rw [if_neg h0] at hs
  cases hm : nodeOf P T.root with
  | none => rw [hm] at hs; cases hs
  | some m =>
    rw [hm] at hs
    cases hs
    have hmn := hg.neat.nodeOf hm
    obtain ⟨hget, tm, rs, hcs, htm, hrs⟩ := hmn.ok.table ht
    simp only [entry, hcs, List.map_cons, List.cons_append, List.cons.injEq] at hb
    obtain ⟨a1, a2, hrs', ha1, hn2⟩ := List.map_eq_append_iff.mp hb.2
    obtain ⟨row, b2, rfl, hrow, hb2⟩ := List.map_eq_cons_iff.mp hn2
    have hmem : row ∈ rs := by rw [hrs']; simp
    obtain ⟨i, hi, hname⟩ := (hrs row hmem).1
    have hnexact : Exact [n] := by rw [← hrow, hname]; exact exact_decimal i
    have hchild : ∀ r ∈ rs, child m r.info.name = some r := by
      intro r hr
      have hr' : r ∈ m.children := by rw [hcs]; simp [hr]
      obtain ⟨u, v, huv⟩ := List.append_of_mem hr'
      unfold child
      rw [huv]
      refine find_unique ?_ (by simp)
      intro y hy
      have := hmn.ok.nodup
      rw [huv, List.map_append, List.nodup_append] at this
      simpa using this.2.2 _ (List.mem_map_of_mem hy) _ (by simp)
    have hseen : ∀ r ∈ rs, seen T (P ++ [r.info.name]) = some (entry r) := by
      intro r hr
      obtain ⟨j, _, hj⟩ := (hrs r hr).1
      rw [seen_eq hg.neat (exact_append.mpr ⟨hP, by rw [hj]; exact exact_decimal j⟩), if_neg (by simp), nodeOf_append, hm]
      simp [nodeOf, hchild r hr]
    have hralias : row.info.alias = some a := by
      have := hseen row hmem
      rw [hrow, hr] at this
      cases this
      exact hal
    have hear : ∀ r ∈ a1, r.info.alias ≠ some a := by
      intro r hr
      have := hseen r (by rw [hrs']; simp [hr])
      exact hfirst r.info.name (by rw [← ha1]; exact List.mem_map_of_mem hr) _ this
    have htok : ∀ t ∈ P ++ (91 :: a ++ [93]) :: q, t ≠ [] ∧ (46 : UInt8) ∉ t := by
      intro t ht
      rcases List.mem_append.mp ht with ht | ht
      · exact ⟨(hP t ht).1, (hP t ht).2.1⟩
      · rcases List.mem_cons.mp ht with rfl | ht
        · refine ⟨by simp, ?_⟩
          intro h46
          simp only [List.cons_append, List.mem_cons, List.mem_append, List.mem_nil_iff, or_false] at h46
          rcases h46 with h | h | h
          · cases h
          · exact had h
          · cases h
        · exact ⟨(hq t ht).1, (hq t ht).2.1⟩
    have hleft : seen T (P ++ (91 :: a ++ [93]) :: q) = (instanceFrom false (P ++ (91 :: a ++ [93]) :: q) T.root).map entry := by
      unfold seen retrieveInstance
      rw [tokens_pieces, pieces_join htok]
      split
      next h => simp at h
      next => rfl
    have hnotname : ∀ r ∈ tm :: rs, r.info.name ≠ 91 :: a ++ [93] := by
      intro r hr h
      rcases List.mem_cons.mp hr with rfl | hr
      · rw [htm] at h; cases h
      · obtain ⟨j, _, hj⟩ := (hrs r hr).1
        rw [hj] at h
        have := (decimal_ok j).2.2.2
        rw [h] at this
        simp at this
    have hfind : findInstance true (91 :: a ++ [93]) m.children = some row := by
      rw [hcs, findInstance, if_neg (hnotname tm (by simp)), hrs']
      refine find_unique ?_ ?_
      · intro r hr
        simp only [Bool.or_eq_false_iff, decide_eq_false_iff_not, Bool.true_and]
        refine ⟨hnotname r (by rw [hrs']; simp [hr]), ?_⟩
        unfold aliasToken
        have := hear r hr
        cases hx : r.info.alias with
        | none => rfl
        | some b =>
          simp only [Bool.and_eq_false_iff, decide_eq_false_iff_not]
          right
          intro h
          simp only [List.cons_append, List.cons.injEq, true_and] at h
          exact this (by rw [hx, (List.append_inj' h rfl).1])
      · simp only [Bool.or_eq_true, decide_eq_true_eq, Bool.true_and]
        right
        unfold aliasToken
        rw [hralias]
        simp only [decide_true, Bool.and_true, decide_eq_true_eq]
        exact List.length_pos_iff.mpr ha
    have hstar : ((91 :: a ++ [93] : Bytes) = star) = False := by
      refine eq_false ?_
      intro h
      cases h
    rw [hleft, instance_append hg.neat hP, hm]
    have hne2 : P ++ n :: q ≠ [] := by simp
    rw [seen_eq hg.neat (by
      rw [show P ++ n :: q = (P ++ [n]) ++ q by simp]
      exact exact_append.mpr ⟨exact_append.mpr ⟨hP, hnexact⟩, hq⟩), if_neg hne2, nodeOf_append, hm]
    simp only [Option.bind_some, nodeOf]
    rw [← hrow, hchild row hmem]
    simp only [entry] at ht
    simp only [instanceFrom, ht, decide_true, hstar, decide_false, hget, Option.isSome_none, Bool.or_false, Bool.and_false,
      Bool.false_eq_true, if_false, hfind]
    rw [instance_nodeOf (hmn.sub row (by rw [hcs]; simp [hmem])) hq]

end Verif.RowsProof
