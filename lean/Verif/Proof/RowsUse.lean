import Verif.Proof.RowsStep

/-!
# Proofs about tables: declared elements, single calls
-/

namespace Verif.RowsProof

open Verif Verif.Element Verif.Subs Verif.Rows Verif.Spec.Provider Verif.Spec.Rows

/-! ### Declared elements -/

/-- Nodes without rows. -/
inductive Blank : Node → Prop where
  | node {n : Node} : (n.children.map (·.info.name)).Nodup →
      (n.info.type = tTable → n.info.cb.get = none ∧ ∃ tm, n.children = [tm] ∧ tm.info.name = template) →
      (∀ c ∈ n.children, Blank c) → Blank n

theorem Blank.nodup {n : Node} (h : Blank n) : (n.children.map (·.info.name)).Nodup := by cases h with | node h _ _ => exact h

theorem Blank.table {n : Node} (h : Blank n) : n.info.type = tTable →
    n.info.cb.get = none ∧ ∃ tm, n.children = [tm] ∧ tm.info.name = template := by cases h with | node _ h _ => exact h

theorem Blank.sub {n : Node} (h : Blank n) : ∀ c ∈ n.children, Blank c := by cases h with | node _ _ h => exact h

theorem Blank.neat {n : Node} (h : Blank n) : Neat n := by
  induction h with
  | @node n h1 h2 _ ih =>
    refine .node ⟨h1, ?_⟩ ih
    intro ht
    obtain ⟨hg, tm, hcs, htm⟩ := h2 ht
    exact ⟨hg, tm, [], hcs, htm, by simp⟩

theorem Blank.nodeOf : ∀ {p : Path} {n m : Node}, Blank n → nodeOf p n = some m → Blank m := by
  intro p
  induction p with
  | nil => intro n m h hm; simp only [Subs.nodeOf, Option.some.injEq] at hm; exact hm ▸ h
  | cons t p ih =>
    intro n m h hm
    simp only [Subs.nodeOf] at hm
    cases hc : child n t with
    | none => simp only [hc] at hm; cases hm
    | some c => simp only [hc] at hm; exact ih (h.sub c (child_mem hc).1) hm

theorem blank_empty (k : Nat) (full : Path) (t : Element.Token) : Blank (empty k full t) :=
  .node (by simp [empty]) (by simp [empty, tObject, tTable]) (by simp [empty])

theorem blank_chain {type : Nat} {cb : Cb} (hcb : type = tTable → cb.get = none) : ∀ (ts : Path) (n : Node) (k : Nat),
    n.children = [] → n.info.type = tObject → Blank (insertAt (setElement type cb) ts n k).1 := by
  intro ts
  induction ts with
  | nil =>
    intro n k hc ho
    simp only [insertAt, setElement]
    split
    next ht =>
      refine .node (by simp) (fun _ => ⟨hcb ht, _, rfl, rfl⟩) ?_
      intro c hc
      simp only [List.mem_singleton] at hc
      exact hc ▸ blank_empty _ _ _
    next ht =>
      refine .node (by simp [hc]) (fun h => absurd h ht) ?_
      simp [hc]
  | cons t ts ih =>
    intro n k hc ho
    simp only [insertAt, hc, upsert]
    refine .node (by simp) (fun h => ?_) ?_
    · simp only at h
      rw [ho] at h
      cases h
    · intro c hc
      simp only [List.mem_singleton] at hc
      exact hc ▸ ih _ _ rfl rfl

theorem blank_insert {type : Nat} {cb : Cb} (hcb : type = tTable → cb.get = none) : ∀ (ts : Path) (n : Node) (k : Nat),
    Blank n → nodeOf ts n = none → junction ts n → Blank (insertAt (setElement type cb) ts n k).1 := by
  intro ts
  induction ts with
  | nil => intro n k _ h; simp [nodeOf] at h
  | cons t ts ih =>
    intro n k hn h hj
    simp only [nodeOf] at h
    simp only [junction] at hj
    simp only [insertAt]
    cases hc : child n t with
    | none =>
      simp only [hc] at hj
      rw [upsert_absent _ _ hc]
      have hname := (insertAt_name type cb ts (empty k (n.info.full ++ [t]) t) (k + 1)).1
      refine .node ?_ ?_ ?_
      · simp only [List.map_append, List.map_cons, List.map_nil, hname]
        rw [List.nodup_append]
        refine ⟨hn.nodup, by simp, ?_⟩
        intro a ha b hb hab
        simp only [List.mem_singleton, empty] at hb
        obtain ⟨x, hx, rfl⟩ := List.mem_map.mp ha
        unfold child at hc
        rw [List.find?_eq_none] at hc
        exact hc x hx (by simp [hab, hb])
      · intro ht
        simp only at ht
        rw [hj] at ht
        cases ht
      · intro c hc'
        rcases List.mem_append.mp hc' with hc' | hc'
        · exact hn.sub c hc'
        · rw [List.mem_singleton] at hc'
          exact hc' ▸ blank_chain hcb ts _ _ rfl rfl
    | some c =>
      simp only [hc] at hj h
      obtain ⟨a, b, h1, h2⟩ := upsert_present (f := insertAt (setElement type cb) ts)
        (mk := fun id => empty id (n.info.full ++ [t]) t) n.children k c hc
      rw [h2]
      have hname := (insertAt_name type cb ts c k).1
      have hbl := ih c k (hn.sub c (child_mem hc).1) h hj
      refine .node ?_ ?_ ?_
      · have := hn.nodup
        rw [h1] at this
        simpa [hname] using this
      · intro ht
        obtain ⟨hg, tm, hcs, htm⟩ := hn.table ht
        rw [h1] at hcs
        refine ⟨hg, ?_⟩
        cases a with
        | nil =>
          simp only [List.nil_append, List.cons.injEq] at hcs
          refine ⟨_, by simp [hcs.2]; rfl, ?_⟩
          rw [hname, hcs.1, htm]
        | cons x a => simp at hcs
      · intro x hx
        rcases List.mem_append.mp hx with hx | hx
        · exact hn.sub x (by rw [h1]; simp [hx])
        · rcases List.mem_cons.mp hx with hx | hx
          · exact hx ▸ hbl
          · exact hn.sub x (by rw [h1]; simp [hx])

theorem fits_free {D : List Decl} {T : Tree} {p : Path} (h : Tidy D T) (hf : Fits D p) :
    nodeOf p T.root = none ∧ junction p T.root := by
  refine ⟨?_, ?_⟩
  · rw [← Option.not_isSome_iff_eq_none, h.present]
    rintro (h1 | ⟨q, hq, h1 | ⟨h1, h2⟩⟩)
    · exact hf.nonempty h1
    · exact hf.fresh q hq h1
    · obtain ⟨_, r, hr, h3⟩ := hf.above q hq (by rw [h2]; exact List.prefix_append _ _)
      rw [h2] at h3
      have := List.append_cancel_left h3
      simp only [List.cons.injEq, true_and] at this
      exact hr this.symm
  · apply junction_of
    intro pre t r m hpre hm hc
    apply Decidable.byContradiction
    intro hne
    have hdecl : ∃ q ∈ D, q.path = pre := by
      apply Classical.byContradiction
      intro hno
      exact hne (h.undeclared pre m (fun q hq he => hno ⟨q, hq, he⟩) hm)
    obtain ⟨q, hq, rfl⟩ := hdecl
    obtain ⟨h1, r', hr', h2⟩ := hf.above q hq (by rw [hpre]; exact List.prefix_append _ _)
    rw [hpre] at h2
    have h3 := List.append_cancel_left h2
    simp only [List.cons.injEq] at h3
    have hthere := (h.present (q.path ++ [template])).mpr (.inr ⟨q, hq, .inr ⟨h1, rfl⟩⟩)
    rw [nodeOf_append, hm] at hthere
    simp only [Option.bind_some, nodeOf, ← h3.1, hc] at hthere
    cases hthere

theorem insert_root {D : List Decl} {T : Tree} {d : Decl} (h : Tidy D T) (hf : Fits D d.path) :
    (Element.insert T d.name d.type d.cb).root = (insertAt (setElement d.type d.cb) d.path T.root T.next).1 := by
  obtain ⟨hnone, hjun⟩ := fits_free h hf
  obtain ⟨_, E, hE1, _, hE3⟩ := insert_flat d.type d.cb d.path T.root T.next [] hnone hjun (.inl ⟨rfl, h.rootObj⟩)
  obtain ⟨id, full, k', m0, hm0, _⟩ := nodeOf_below d.type d.cb d.path T.root T.next hnone
  have hn3 := (insertAt_name d.type d.cb d.path T.root T.next).2.2 hf.nonempty
  have hp' : tokens (if d.type = tTable then tableName d.name else d.name) = d.path := by
    rw [tokens_pieces, tableName_stem]; rfl
  unfold Element.insert
  simp only
  rw [hp']
  generalize insertAt (setElement d.type d.cb) d.path T.root T.next = r at hE1 hm0 hn3
  have hrep : replicateRows d.path r.1 r.2 = (r.1, r.2) := by
    refine replicateRows_id d.path r.1 r.2 [] (by rw [hm0]; rfl) (.inl ⟨rfl, by rw [hn3]; exact h.rootObj⟩) ?_
    intro e he
    rcases List.mem_append.mp (hE1.mem_iff.mp he) with h1 | h1
    · exact h.clean e h1
    · exact hE3 e h1
  rw [hrep]

theorem declare_blank {D : List Decl} (h : Orderly D) (hg : ∀ d ∈ D, d.type = tTable → d.cb.get = none) :
    Blank (declare D).root ∧ (declare D).root.info = Tree.init.root.info := by
  have key : ∀ (D2 D1 : List Decl) (T : Tree), Tidy D1 T → Blank T.root → T.root.info = Tree.init.root.info →
      (∀ A d B, D1 ++ D2 = A ++ d :: B → Fits A d.path) → (∀ d ∈ D2, d.type = tTable → d.cb.get = none) →
      Blank (D2.foldl (fun T d => Element.insert T d.name d.type d.cb) T).root ∧
      (D2.foldl (fun T d => Element.insert T d.name d.type d.cb) T).root.info = Tree.init.root.info := by
    intro D2
    induction D2 with
    | nil => intro D1 T _ hb hi _ _; exact ⟨hb, hi⟩
    | cons d D2 ih =>
      intro D1 T ht hb hi hf hgd
      have hfit := hf D1 d D2 rfl
      have hr := insert_root ht hfit
      obtain ⟨hnone, hjun⟩ := fits_free ht hfit
      refine ih (D1 ++ [d]) _ (ht.insert hfit) ?_ ?_ (by simpa using hf) (fun x hx => hgd x (by simp [hx]))
      · rw [hr]
        exact blank_insert (hgd d (by simp)) d.path T.root T.next hb hnone hjun
      · rw [hr, (insertAt_name d.type d.cb d.path T.root T.next).2.2 hfit.nonempty]
        exact hi
  exact key D [] Tree.init tidy_init (.node (by simp [Tree.init]) (by simp [Tree.init, tObject, tTable]) (by simp [Tree.init]))
    rfl h hg

theorem declare_good {D : List Decl} (h : Orderly D) (hg : ∀ d ∈ D, d.type = tTable → d.cb.get = none) :
    Good (declare D) := by
  obtain ⟨hb, hi⟩ := declare_blank h hg
  have ht := tidy_declare h
  have hids : ids (declare D).root = (declare D).root.id :: (Tree.flat (declare D)).map (·.1) := by
    rw [ids_eq]
    congr 1
    exact (nodesList_ids [] _).symm
  refine ⟨?_, ?_, hb.neat, ht.rootObj, by rw [hi]; rfl⟩
  · rw [hids, List.nodup_cons]
    exact ⟨ht.wf.root, ht.wf.nodup⟩
  · intro i hm
    rw [hids] at hm
    rcases List.mem_cons.mp hm with rfl | hm
    · exact ht.wf.rootBelow
    · obtain ⟨e, he, rfl⟩ := List.mem_map.mp hm
      exact ht.wf.below e he

/-- What was declared is seen. -/
theorem declare_seen {D : List Decl} (h : Orderly D) (hg : ∀ d ∈ D, d.type = tTable → d.cb.get = none) {d : Decl}
    (hd : d ∈ D) (he : Exact d.path) : ∃ e, seen (declare D) d.path = some e ∧ e.type = d.type ∧
      e.cb.addRow = d.cb.addRow ∧ e.cb.removeRow = d.cb.removeRow ∧ (d.type = tTable → e.below = [template]) := by
  have ht := tidy_declare h
  have hb := (declare_blank h hg).1
  have hne : d.path ≠ [] := by
    obtain ⟨a, b, hab⟩ := List.append_of_mem hd
    exact (h a d b hab).nonempty
  have hsome := (ht.present d.path).mpr (.inr ⟨d, hd, .inl (List.prefix_refl _)⟩)
  obtain ⟨m, hm⟩ := Option.isSome_iff_exists.mp hsome
  obtain ⟨h1, h2⟩ := ht.declared d hd m hm
  refine ⟨entry m, ?_, h1, ?_, ?_, ?_⟩
  · rw [seen_eq hb.neat he, if_neg hne, hm]; rfl
  · simp only [entry, h2]; split <;> rfl
  · simp only [entry, h2]; split <;> rfl
  · intro hty
    obtain ⟨_, tm, hcs, htm⟩ := (hb.nodeOf hm).table (h1.trans hty)
    simp [entry, hcs, htm]

/-! ### Single calls -/

theorem seen_pieces {T : Tree} (hn : Neat T.root) {s : Bytes} (h : Exact (pieces s)) :
    seen T (pieces s) = (retrieveInstance T s).map entry := by
  rw [seen_eq hn h, retrieve_eq hn h]
  split <;> rfl

theorem retrieve_some {T : Tree} {s : Bytes} (hn : Neat T.root) (h : Exact (pieces s)) {m : Node}
    (hm : retrieveInstance T s = some m) : pieces s ≠ [] ∧ nodeOf (pieces s) T.root = some m ∧
      ∃ r, retrieve T s = some r ∧ Like r m := by
  rw [retrieve_eq hn h] at hm
  by_cases hp : pieces s = []
  · rw [if_pos hp] at hm; cases hm
  · rw [if_neg hp] at hm
    refine ⟨hp, hm, ?_⟩
    obtain ⟨r, hr, hl⟩ := registered hn hm
    refine ⟨r, ?_, hl⟩
    unfold retrieve
    rw [tokens_pieces]
    cases hq : pieces s with
    | nil => exact absurd hq hp
    | cons t p => rw [hq] at hr; exact hr

theorem returned_told (c : Nat) : returned c = told c := rfl

/-- What a call gives, in a provider as it should be. -/
structure Did (T : Tree) (op : Rows.Op) (T' : Tree) (o : Out) : Prop where
  good : Good T'
  like : Like T.root T'.root
  answer : (o.code, o.called) = answer (seen T) op
  effect : ∀ p, Exact p → seen T' p = effect (seen T) op p

theorem add_did {T : Tree} (hg : Good T) {t : Bytes} {a : Option Bytes} {c i : Nat}
    (hs : Spec.Rows.Sane (seen T) (.add t a c i)) :
    ∃ T' o, Rows.step T (.add t a c i) = .ok (T', o) ∧ Did T (.add t a c i) T' o ∧
      o.inst = (if o.called then i else 0) ∧ o.rows = [] := by
  obtain ⟨hne, ⟨hex, hpl⟩, hi, htab⟩ := hs
  simp only [Rows.step, Rows.addRow, if_neg hne]
  by_cases hl : t.getLast? = some dot
  · rw [if_neg (by simp [hl])]
    have hl' : ¬ t.getLast? ≠ some 46 := fun h => h hl
    cases hri : retrieveInstance T t with
    | none =>
      have hseen : seen T (pieces t) = none := by rw [seen_pieces hg.neat hex, hri]; rfl
      refine ⟨T, { code := returned 17 }, by cases retrieve T t <;> rfl, ⟨hg, Like.refl _, ?_, ?_⟩, rfl, rfl⟩
      · simp only [Spec.Rows.answer, if_neg hl', hseen]; rfl
      · intro p _
        have hans : Spec.Rows.answer (seen T) (.add t a c i) = (17, false) := by
          simp only [Spec.Rows.answer, if_neg hl', hseen]
        simp [Spec.Rows.effect, hans]
    | some m =>
      obtain ⟨hP, hm, r, hr, hlike⟩ := retrieve_some hg.neat hex hri
      have hseen : seen T (pieces t) = some (entry m) := by rw [seen_pieces hg.neat hex, hri]; rfl
      have hkind := hlike.kind
      simp only [kind, Prod.mk.injEq] at hkind
      rw [hr]
      simp only [hkind.2]
      by_cases hcb : m.info.cb.addRow = none
      · simp only [hcb, Option.isSome_none, Bool.false_eq_true, if_false]
        have hans : Spec.Rows.answer (seen T) (.add t a c i) = (9, false) := by
          simp only [Spec.Rows.answer, if_neg hl', hseen]
          simp [entry, hcb]
        refine ⟨_, _, rfl, ⟨hg, Like.refl _, ?_, ?_⟩, rfl, rfl⟩
        · rw [hans]; rfl
        · intro p _; simp [Spec.Rows.effect, hans]
      · have hsome : m.info.cb.addRow.isSome = true := Option.isSome_iff_ne_none.mpr hcb
        have hans : Spec.Rows.answer (seen T) (.add t a c i) = (told c, true) := by
          simp only [Spec.Rows.answer, if_neg hl', hseen]
          simp [entry, hcb]
        simp only [hsome, if_true]
        by_cases hc : c = 0
        · rw [if_pos hc]
          obtain ⟨hty, hnew⟩ := htab hc (entry m) hseen hcb
          obtain ⟨T', row, h1, h2, hlk, h3⟩ := add_core hg hP hex hm hty hi hnew (wireAlias a)
          refine ⟨T', _, by simp only [registerTableRow, h1, Res.ok_bind]; rfl, ⟨h2, hlk, ?_, ?_⟩, rfl, rfl⟩
          · rw [hans]; rfl
          · intro p hp
            rw [h3 p hp]
            subst hc
            simp only [Spec.Rows.effect, hans, and_self, if_true]
            cases a with
            | none => rfl
            | some a => cases a <;> rfl
        · rw [if_neg hc]
          refine ⟨_, _, rfl, ⟨hg, Like.refl _, ?_, ?_⟩, rfl, rfl⟩
          · rw [hans]; rfl
          · intro p _; simp [Spec.Rows.effect, hans, hc]
  · rw [if_pos hl]
    have hans : Spec.Rows.answer (seen T) (.add t a c i) = (2, false) := by
      simp only [Spec.Rows.answer]
      exact if_pos hl
    refine ⟨_, _, rfl, ⟨hg, Like.refl _, by rw [hans], ?_⟩, rfl, rfl⟩
    intro p _
    simp [Spec.Rows.effect, hans]

theorem path_split {s : Bytes} (h : pieces s ≠ []) : pieces s = (pieces s).dropLast ++ [(pieces s).getLastD []] := by
  have := (List.dropLast_concat_getLast h).symm
  rw [List.getLastD_eq_getLast?, List.getLast?_eq_some_getLast h]
  exact this

theorem nodeOf_parent {P : Path} {x : Element.Token} {n row : Node} (h : nodeOf (P ++ [x]) n = some row) :
    ∃ m, nodeOf P n = some m ∧ child m x = some row := by
  rw [nodeOf_append] at h
  cases hm : nodeOf P n with
  | none => rw [hm] at h; cases h
  | some m =>
    rw [hm] at h
    simp only [Option.bind_some, nodeOf] at h
    refine ⟨m, rfl, ?_⟩
    cases hc : child m x with
    | none => rw [hc] at h; cases h
    | some c => rw [hc] at h; exact h

theorem remove_did {T : Tree} (hg : Good T) {r : Bytes} {c : Nat} (hs : Spec.Rows.Sane (seen T) (.remove r c)) :
    ∃ T' o, Rows.step T (.remove r c) = .ok (T', o) ∧ Did T (.remove r c) T' o ∧ o.inst = 0 ∧ o.rows = [] := by
  obtain ⟨⟨hex, hpl⟩, htab⟩ := hs
  simp only [Rows.step, removeRow]
  cases hri : retrieveInstance T r with
  | none =>
    have hseen : seen T (pieces r) = none := by rw [seen_pieces hg.neat hex, hri]; rfl
    have hans : Spec.Rows.answer (seen T) (.remove r c) = (17, false) := by simp only [Spec.Rows.answer, hseen]
    refine ⟨T, { code := returned 17 }, by cases retrieve T r <;> rfl, ⟨hg, Like.refl _, by rw [hans]; rfl, ?_⟩, rfl, rfl⟩
    intro p _
    simp [Spec.Rows.effect, hans]
  | some row =>
    obtain ⟨hP, hm, rr, hr, hlike⟩ := retrieve_some hg.neat hex hri
    have hseen : seen T (pieces r) = some (entry row) := by rw [seen_pieces hg.neat hex, hri]; rfl
    have hsplit := path_split hP
    have hreg : regParent T r = retrieveFrom (pieces r).dropLast T.root := by unfold regParent; rw [tokens_pieces]
    simp only [hr, hreg]
    generalize hQ : (pieces r).dropLast = Q at hsplit htab
    generalize hx : (pieces r).getLastD [] = x at hsplit
    rw [hsplit] at hm hex
    obtain ⟨m, hm', hc'⟩ := nodeOf_parent hm
    have hexQ := (exact_append.mp hex).1
    obtain ⟨tb, htb, hl⟩ := registered hg.neat hm'
    have hkind := hl.kind
    simp only [kind, Prod.mk.injEq] at hkind
    simp only [htb, hkind.2]
    by_cases hQ0 : Q = []
    · have hroot : m = T.root := by
        rw [hQ0] at hm'
        simp only [nodeOf, Option.some.injEq] at hm'
        exact hm'.symm
      have hans : Spec.Rows.answer (seen T) (.remove r c) = (9, false) := by
        simp only [Spec.Rows.answer, hseen, hQ, hQ0, seen_nil]
      rw [hroot, hg.rootCb]
      refine ⟨T, { code := returned 9 }, rfl, ⟨hg, Like.refl _, by rw [hans]; rfl, ?_⟩, rfl, rfl⟩
      intro p _
      simp [Spec.Rows.effect, hans]
    · have hseenQ : seen T Q = some (entry m) := by rw [seen_eq hg.neat hexQ, if_neg hQ0, hm']; rfl
      by_cases hcb : m.info.cb.removeRow = none
      · have hans : Spec.Rows.answer (seen T) (.remove r c) = (9, false) := by
          simp only [Spec.Rows.answer, hseen, hQ, hseenQ]
          simp [entry, hcb]
        simp only [hcb, Option.isSome_none, Bool.false_eq_true, if_false]
        refine ⟨T, _, rfl, ⟨hg, Like.refl _, by rw [hans]; rfl, ?_⟩, rfl, rfl⟩
        intro p _
        simp [Spec.Rows.effect, hans]
      · have hsome : m.info.cb.removeRow.isSome = true := Option.isSome_iff_ne_none.mpr hcb
        have hans : Spec.Rows.answer (seen T) (.remove r c) = (told c, true) := by
          simp only [Spec.Rows.answer, hseen, hQ, hseenQ]
          simp [entry, hcb]
        simp only [hsome, if_true]
        by_cases hc : c = 0
        · rw [if_pos hc]
          have hty := htab hc (entry m) hseenQ hcb
          have hxt : x ≠ template := by
            rintro rfl
            exact hpl (by rw [hsplit]; simp)
          obtain ⟨h1, hlk, h2⟩ := remove_core hg hQ0 hex hxt hm' hty hc'
          refine ⟨_, _, rfl, ⟨h1, hlk, by rw [hans]; rfl, ?_⟩, rfl, rfl⟩
          intro p hp
          rw [h2 p hp]
          subst hc
          simp only [Spec.Rows.effect, hans, and_self, if_true, hQ, hx]
        · rw [if_neg hc]
          refine ⟨_, _, rfl, ⟨hg, Like.refl _, by rw [hans]; rfl, ?_⟩, rfl, rfl⟩
          intro p _
          simp [Spec.Rows.effect, hans, hc]

theorem register_did {T : Tree} (hg : Good T) {t : Bytes} {a : Option Bytes} {i : Nat}
    (hs : Spec.Rows.Sane (seen T) (.register t i a)) :
    ∃ T' o, Rows.step T (.register t i a) = .ok (T', o) ∧ Did T (.register t i a) T' o ∧ o.inst = 0 ∧ o.rows = [] := by
  obtain ⟨⟨hex, hpl⟩, hl, hi, htab⟩ := hs
  have hsd : signedDecimal i = decimal i := by unfold signedDecimal; rw [if_pos hi]
  simp only [Rows.step, registerRow, hsd, List.length_append, maxName]
  by_cases hlen : 256 ≤ t.length + (decimal i).length
  · rw [if_pos hlen]
    have hans : Spec.Rows.answer (seen T) (.register t i a) = (2, false) := by simp only [Spec.Rows.answer, if_pos hlen]
    refine ⟨_, _, rfl, ⟨hg, Like.refl _, by rw [hans], ?_⟩, rfl, rfl⟩
    intro p _
    simp [Spec.Rows.effect, hans]
  · rw [if_neg hlen]
    obtain ⟨hd1, hd2, hd3, hd4⟩ := decimal_ok i
    have hpc := pieces_snoc hl hd2 hd1
    have hexr : Exact (pieces (t ++ decimal i)) := by rw [hpc]; exact exact_append.mpr ⟨hex, exact_decimal i⟩
    have hrow : retrieveInstance T (t ++ decimal i) = nodeOf (pieces t ++ [decimal i]) T.root := by
      rw [retrieve_eq hg.neat hexr, if_neg (by rw [hpc]; simp), hpc]
    rw [hrow]
    cases hri : retrieveInstance T t with
    | none =>
      have hseen : seen T (pieces t) = none := by rw [seen_pieces hg.neat hex, hri]; rfl
      have hans : Spec.Rows.answer (seen T) (.register t i a) = (2, false) := by
        simp only [Spec.Rows.answer, if_neg hlen, hseen]
      refine ⟨T, { code := 2 }, ?_, ⟨hg, Like.refl _, by rw [hans], ?_⟩, rfl, rfl⟩
      · split <;> rfl
      · intro p _
        simp [Spec.Rows.effect, hans]
    | some m =>
      obtain ⟨hP, hm, _⟩ := retrieve_some hg.neat hex hri
      have hseen : seen T (pieces t) = some (entry m) := by rw [seen_pieces hg.neat hex, hri]; rfl
      have hty := htab (entry m) hseen
      have hchild : nodeOf (pieces t ++ [decimal i]) T.root = child m (decimal i) := by
        rw [nodeOf_append, hm]
        simp only [Option.bind_some, nodeOf]
        cases child m (decimal i) <;> rfl
      rw [hchild]
      by_cases hin : decimal i ∈ m.children.map (·.info.name)
      · have hans : Spec.Rows.answer (seen T) (.register t i a) = (2, false) := by
          simp only [Spec.Rows.answer, if_neg hlen, hseen]
          rw [if_pos (by exact hin)]
        have : (child m (decimal i)).isSome = true := by
          unfold child
          rw [List.find?_isSome]
          obtain ⟨x, hx, he⟩ := List.mem_map.mp hin
          exact ⟨x, hx, by simpa using he⟩
        rw [if_pos this]
        refine ⟨T, _, rfl, ⟨hg, Like.refl _, by rw [hans], ?_⟩, rfl, rfl⟩
        intro p _
        simp [Spec.Rows.effect, hans]
      · have hans : Spec.Rows.answer (seen T) (.register t i a) = (0, false) := by
          simp only [Spec.Rows.answer, if_neg hlen, hseen]
          rw [if_neg (by exact hin)]
        have : ¬ (child m (decimal i)).isSome = true := by
          unfold child
          rw [List.find?_isSome]
          rintro ⟨x, hx, he⟩
          exact hin (by rw [← show x.info.name = decimal i by simpa using he]; exact List.mem_map_of_mem hx)
        rw [if_neg this]
        obtain ⟨T', row, h1, h2, hlk, h3⟩ := add_core hg hP hex hm hty (by omega) hin a
        refine ⟨T', _, by simp only [registerTableRow, h1, Res.ok_bind]; rfl, ⟨h2, hlk, by rw [hans], ?_⟩, rfl, rfl⟩
        intro p hp
        rw [h3 p hp]
        simp [Spec.Rows.effect, hans]

theorem unregister_did {T : Tree} (hg : Good T) {r : Bytes} (hs : Spec.Rows.Sane (seen T) (.unregister r)) :
    ∃ T' o, Rows.step T (.unregister r) = .ok (T', o) ∧ Did T (.unregister r) T' o ∧ o.inst = 0 ∧ o.rows = [] := by
  obtain ⟨⟨hex, hpl⟩, hpar0⟩ := hs
  simp only [Rows.step, unregisterRow]
  cases hri : retrieveInstance T r with
  | none =>
    have hseen : seen T (pieces r) = none := by rw [seen_pieces hg.neat hex, hri]; rfl
    have hans : Spec.Rows.answer (seen T) (.unregister r) = (2, false) := by simp [Spec.Rows.answer, hseen]
    refine ⟨T, _, rfl, ⟨hg, Like.refl _, by rw [hans], ?_⟩, rfl, rfl⟩
    intro p _
    simp [Spec.Rows.effect, hans]
  | some row =>
    obtain ⟨hP, hm, _⟩ := retrieve_some hg.neat hex hri
    have hseen : seen T (pieces r) = some (entry row) := by rw [seen_pieces hg.neat hex, hri]; rfl
    have hans : Spec.Rows.answer (seen T) (.unregister r) = (0, false) := by simp [Spec.Rows.answer, hseen]
    obtain ⟨e, hpar, hty⟩ := hpar0 (by rw [hseen]; simp)
    have hsplit := path_split hP
    generalize hQ : (pieces r).dropLast = Q at hsplit hpar
    generalize hx : (pieces r).getLastD [] = x at hsplit
    rw [hsplit] at hm hex
    obtain ⟨m, hm', hc'⟩ := nodeOf_parent hm
    have hexQ := (exact_append.mp hex).1
    have hQ0 : Q ≠ [] := by rintro rfl; rw [seen_nil] at hpar; cases hpar
    have hseenQ : seen T Q = some (entry m) := by rw [seen_eq hg.neat hexQ, if_neg hQ0, hm']; rfl
    rw [hseenQ] at hpar
    cases hpar
    have hxt : x ≠ template := by
      rintro rfl
      exact hpl (by rw [hsplit]; simp)
    obtain ⟨h1, hlk, h2⟩ := remove_core hg hQ0 hex hxt hm' hty hc'
    refine ⟨_, _, rfl, ⟨h1, hlk, by rw [hans], ?_⟩, rfl, rfl⟩
    intro p hp
    rw [h2 p hp]
    simp only [Spec.Rows.effect, hans, if_true, hQ, hx]


theorem fold_decimal (n : Nat) : ∀ a, (decimal n).foldl (fun a c => 10 * a + (c.toNat - 48)) a =
    a * 10 ^ (decimal n).length + n := by
  induction n using Nat.strongRecOn with
  | ind n ih =>
    intro a
    have hdig : ∀ d : Fin 10, (UInt8.ofNat (Nat.digitChar d.1).toNat).toNat - 48 = d.1 := by decide
    unfold decimal at ih ⊢
    rw [Nat.toDigits_eq_if (by omega)]
    split
    next h =>
      have := hdig ⟨n, h⟩
      simp only [List.map_cons, List.map_nil, List.foldl_cons, List.foldl_nil, List.length_singleton, Nat.pow_one]
      simp only at this
      rw [this]
      omega
    next h =>
      have := hdig ⟨n % 10, Nat.mod_lt _ (by omega)⟩
      simp only at this
      rw [List.map_append, List.foldl_append, ih (n / 10) (by omega)]
      simp only [List.map_cons, List.map_nil, List.foldl_cons, List.foldl_nil, List.length_append, List.length_singleton,
        this, List.length_map]
      rw [Nat.pow_succ, Nat.mul_add, ← Nat.mul_assoc, Nat.mul_comm 10 a, Nat.mul_assoc, Nat.mul_comm 10 (10 ^ _)]
      omega

theorem decimal_digits (n : Nat) : ∀ c ∈ decimal n, 48 ≤ c.toNat ∧ c.toNat ≤ 57 := by
  intro c hc
  obtain ⟨d, hd, rfl⟩ := List.mem_map.mp hc
  have := Nat.isDigit_of_mem_toDigits (by omega) (by omega) hd
  simp only [Char.isDigit, Bool.and_eq_true, decide_eq_true_eq, ge_iff_le, UInt32.le_iff_toNat_le] at this
  have h1 : 48 ≤ d.toNat := this.1
  have h2 : d.toNat ≤ 57 := this.2
  simp only [UInt8.toNat_ofNat']
  omega

theorem decimal_inj {i j : Nat} (h : decimal i = decimal j) : i = j := by
  have h1 := fold_decimal i 0
  have h2 := fold_decimal j 0
  rw [h, h2] at h1
  omega

theorem atoi_decimal {i : Nat} (h : i < 2 ^ 32) : atoi (decimal i) = wrap i := by
  unfold atoi
  have : (decimal i).takeWhile (fun c => 48 ≤ c.toNat && c.toNat ≤ 57) = decimal i := by
    have key : ∀ l : Bytes, (∀ c ∈ l, 48 ≤ c.toNat ∧ c.toNat ≤ 57) →
        l.takeWhile (fun c => 48 ≤ c.toNat && c.toNat ≤ 57) = l := by
      intro l
      induction l with
      | nil => intro _; rfl
      | cons c l ih =>
        intro h
        have := h c (by simp)
        rw [List.takeWhile_cons, ih (fun x hx => h x (by simp [hx]))]
        simp [this]
    exact key _ (decimal_digits i)
  rw [this, fold_decimal, BitVec.toInt_eq_toNat_cond]
  unfold wrap
  simp only [BitVec.toNat_ofNat, Nat.zero_mul, Nat.zero_add]
  rw [Nat.mod_eq_of_lt h]
  by_cases hi : i < 2 ^ 31
  · rw [if_pos hi, if_pos (by omega)]
  · rw [if_neg hi, if_neg (by omega)]
    rfl

theorem list_did {T : Tree} (hg : Good T) {t : Bytes} (hs : Spec.Rows.Sane (seen T) (.list t)) :
    ∃ o, Rows.step T (.list t) = .ok (T, o) ∧ Did T (.list t) T o ∧ o.inst = 0 ∧
      ∀ e, seen T (pieces t) = some e → e.type = tTable → ∃ is : List Nat, e.below = template :: is.map decimal ∧
        o.rows = is.map (fun i => (wrap i, ((seen T (pieces t ++ [decimal i])).bind (·.alias)).getD [])) := by
  obtain ⟨hex, hpl⟩ := hs
  simp only [Rows.step, listRows]
  cases hri : retrieveInstance T t with
  | none =>
    have hseen : seen T (pieces t) = none := by rw [seen_pieces hg.neat hex, hri]; rfl
    have hans : Spec.Rows.answer (seen T) (.list t) = (17, false) := by simp [Spec.Rows.answer, hseen]
    refine ⟨_, rfl, ⟨hg, Like.refl _, by rw [hans], fun p _ => rfl⟩, rfl, ?_⟩
    intro e he
    rw [hseen] at he
    cases he
  | some m =>
    obtain ⟨hP, hm, _⟩ := retrieve_some hg.neat hex hri
    have hseen : seen T (pieces t) = some (entry m) := by rw [seen_pieces hg.neat hex, hri]; rfl
    by_cases hty : m.info.type = tTable
    · have hans : Spec.Rows.answer (seen T) (.list t) = (0, false) := by
        simp only [Spec.Rows.answer, hseen]
        rw [if_pos (by exact hty)]
      simp only [hty, if_true]
      refine ⟨_, rfl, ⟨hg, Like.refl _, by rw [hans], fun p _ => rfl⟩, rfl, ?_⟩
      intro e he _
      rw [hseen] at he
      cases he
      have hmn := hg.neat.nodeOf hm
      obtain ⟨_, tm, rs, hcs, htm, hrs⟩ := hmn.ok.table hty
      have hnd := hmn.ok.nodup
      have hkids : ∀ r ∈ rs, child m r.info.name = some r := by
        intro r hr
        unfold child
        have hr' : r ∈ m.children := by rw [hcs]; simp [hr]
        cases hf : m.children.find? (fun c => c.info.name = r.info.name) with
        | none =>
          rw [List.find?_eq_none] at hf
          exact absurd (hf r hr') (by simp)
        | some c =>
          have h1 := List.mem_of_find?_eq_some hf
          have h2 := List.find?_some hf
          simp only [decide_eq_true_eq] at h2
          have : ∀ {l : List Node}, (l.map (·.info.name)).Nodup → c ∈ l → r ∈ l → c = r := by
            intro l
            induction l with
            | nil => intro _ h; cases h
            | cons z l ih =>
              intro hn hc hr
              rw [List.map_cons, List.nodup_cons] at hn
              rcases List.mem_cons.mp hc with hc1 | hc1 <;> rcases List.mem_cons.mp hr with hr1 | hr1
              · exact hc1.trans hr1.symm
              · exact absurd (List.mem_map.mpr ⟨r, hr1, by rw [← hc1]; exact h2.symm⟩) hn.1
              · exact absurd (List.mem_map.mpr ⟨c, hc1, by rw [← hr1]; exact h2⟩) hn.1
              · exact ih hn.2 hc1 hr1
          rw [this hnd h1 hr']
      have hfil : m.children.filter (fun c => c.info.name ≠ template) = rs := by
        rw [hcs, List.filter_cons]
        simp only [htm, ne_eq, not_true, decide_false]
        rw [if_neg (by simp), List.filter_eq_self]
        intro r hr
        obtain ⟨i, _, hi⟩ := (hrs r hr).1
        simp [hi, decimal_ne]
      rw [hfil]
      have key : ∀ l : List Node, (∀ r ∈ l, r ∈ rs) → ∃ is : List Nat, l.map (·.info.name) = is.map decimal ∧
          l.map (fun c => (atoi c.info.name, c.info.alias.getD [])) =
            is.map (fun i => (wrap i, ((seen T (pieces t ++ [decimal i])).bind (·.alias)).getD [])) := by
        intro l
        induction l with
        | nil => intro _; exact ⟨[], rfl, rfl⟩
        | cons r l ih =>
          intro hl
          obtain ⟨is, h1, h2⟩ := ih (fun x hx => hl x (by simp [hx]))
          have hr := hl r (by simp)
          obtain ⟨i, hi, hname⟩ := (hrs r hr).1
          refine ⟨i :: is, by simp [h1, hname], ?_⟩
          have hs : seen T (pieces t ++ [decimal i]) = some (entry r) := by
            rw [seen_eq hg.neat (exact_append.mpr ⟨hex, exact_decimal i⟩), if_neg (by simp), nodeOf_append, hm]
            simp only [Option.bind_some, nodeOf]
            rw [← hname, hkids r hr]
            rfl
          simp only [List.map_cons, h2, hs, hname, atoi_decimal hi, Option.bind_some, entry]
      obtain ⟨is, h1, h2⟩ := key rs (fun _ h => h)
      refine ⟨is, ?_, h2⟩
      simp only [entry, hcs, List.map_cons, htm, h1]
    · have hans : Spec.Rows.answer (seen T) (.list t) = (2, false) := by
        simp only [Spec.Rows.answer, hseen]
        rw [if_neg (by exact hty)]
      simp only [if_neg hty]
      refine ⟨_, rfl, ⟨hg, Like.refl _, by rw [hans], fun p _ => rfl⟩, rfl, ?_⟩
      intro e he ht
      rw [hseen] at he
      cases he
      exact absurd ht hty

/-- Any call. -/
theorem did {T : Tree} (hg : Good T) {op : Rows.Op} (hs : Spec.Rows.Sane (seen T) op) :
    ∃ T' o, Rows.step T op = .ok (T', o) ∧ Did T op T' o := by
  cases op with
  | add t a c i => obtain ⟨T', o, h, hd, _⟩ := add_did hg hs; exact ⟨T', o, h, hd⟩
  | remove r c => obtain ⟨T', o, h, hd, _⟩ := remove_did hg hs; exact ⟨T', o, h, hd⟩
  | register t i a => obtain ⟨T', o, h, hd, _⟩ := register_did hg hs; exact ⟨T', o, h, hd⟩
  | unregister r => obtain ⟨T', o, h, hd, _⟩ := unregister_did hg hs; exact ⟨T', o, h, hd⟩
  | list t => obtain ⟨o, h, hd, _⟩ := list_did hg hs; exact ⟨T, o, h, hd⟩

theorem usage_good {D : List Decl} {h : List (Rows.Op × Out)} {T : Tree} (hu : Usage D h T) : Good T := by
  induction hu with
  | start ho hg => exact declare_good ho hg
  | step _ hs he ih =>
    obtain ⟨T', o, h1, h2⟩ := did ih hs
    rw [h1] at he
    cases he
    exact h2.good

end Verif.RowsProof
