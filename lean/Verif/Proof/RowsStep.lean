import Verif.Proof.Rows

/-!
# Proofs about tables: adding and removing rows
-/

namespace Verif.RowsProof

open Verif Verif.Element Verif.Subs Verif.Rows Verif.Spec.Provider Verif.Spec.Rows

/-! ### Addresses -/

def ids (n : Node) : List Nat := (nodes n).map (·.id)

def idsList (cs : List Node) : List Nat := (nodesList cs).map (·.id)

theorem ids_eq (n : Node) : ids n = n.id :: idsList n.children := by
  cases n
  simp [ids, idsList, nodes]

theorem idsList_append (a b : List Node) : idsList (a ++ b) = idsList a ++ idsList b := by
  induction a with
  | nil => rfl
  | cons n a ih =>
    simp only [idsList, List.cons_append, nodesList, List.map_append] at ih ⊢
    rw [ih, List.append_assoc]

theorem idsList_cons (n : Node) (b : List Node) : idsList (n :: b) = ids n ++ idsList b := by
  simp [idsList, nodesList, ids]

theorem modify_out {id : Nat} {f : Node → Node} {n : Node} (h : id ∉ ids n) : Element.modify id f n = n :=
  modify_absent id f [] n (by rw [nodes_ids]; exact h)

theorem modifyList_out {id : Nat} {f : Node → Node} {cs : List Node} (h : id ∉ idsList cs) : modifyList id f cs = cs :=
  modifyList_absent id f [] cs (by rw [nodesList_ids]; exact h)

theorem unlink_out {id : Nat} {n : Node} (h : id ∉ idsList n.children) : unlink id n = n :=
  unlink_absent id [] n (by rw [nodesList_ids]; exact h)

theorem unlinkList_out {id : Nat} {cs : List Node} (h : id ∉ idsList cs) : unlinkList id cs = cs :=
  unlinkList_absent id [] cs (by rw [nodesList_ids]; exact h)

theorem modifyList_append (id : Nat) (f : Node → Node) (a b : List Node) :
    modifyList id f (a ++ b) = modifyList id f a ++ modifyList id f b := by
  induction a with
  | nil => rfl
  | cons n a ih => simp only [List.cons_append, modifyList, ih]

theorem unlinkList_skip {id : Nat} : ∀ {a b : List Node}, id ∉ idsList a →
    unlinkList id (a ++ b) = a ++ unlinkList id b := by
  intro a
  induction a with
  | nil => intro b _; rfl
  | cons n a ih =>
    intro b h
    rw [idsList_cons, ids_eq] at h
    simp only [List.cons_append, List.mem_cons, List.mem_append, not_or] at h
    simp only [List.cons_append, unlinkList, if_neg (Ne.symm h.1), unlink_out h.2.1, ih h.2.2]

theorem nodeOf_id_mem : ∀ {P : Path} {n m : Node}, nodeOf P n = some m → m.id ∈ ids n := by
  intro P
  induction P with
  | nil =>
    intro n m h
    simp only [nodeOf, Option.some.injEq] at h
    rw [← h, ids_eq]
    simp
  | cons t P ih =>
    intro n m h
    simp only [nodeOf] at h
    cases hc : child n t with
    | none => simp only [hc] at h; cases h
    | some c =>
      simp only [hc] at h
      obtain ⟨a, b, h1, _, _⟩ := find_split hc
      rw [ids_eq, h1, idsList_append, idsList_cons]
      simp [ih h]

theorem modify_eq {f : Node → Node} : ∀ {P : Path} {n m : Node}, (ids n).Nodup → nodeOf P n = some m →
    Element.modify m.id f n = modAt P f n := by
  intro P
  induction P with
  | nil =>
    intro n m _ h
    simp only [nodeOf, Option.some.injEq] at h
    subst h
    cases n
    simp [Element.modify, modAt]
  | cons t P ih =>
    intro n m hn h
    simp only [nodeOf] at h
    cases hc : child n t with
    | none => simp only [hc] at h; cases h
    | some c =>
      simp only [hc] at h
      obtain ⟨a, b, h1, h2, h3⟩ := find_split hc
      obtain ⟨x, i, cs⟩ := n
      simp only at h1
      subst h1
      have hm := nodeOf_id_mem h
      rw [ids_eq, idsList_append, idsList_cons] at hn
      simp only [List.nodup_cons, List.mem_append, not_or, List.nodup_append] at hn
      obtain ⟨⟨hxa, hxc, hxb⟩, hna, ⟨hnc, hnb, hcb⟩, hacb⟩ := hn
      have hx : ¬ x = m.id := by rintro rfl; exact hxc hm
      have ha : m.id ∉ idsList a := fun h' => hacb _ h' _ (.inl hm) rfl
      have hb : m.id ∉ idsList b := fun h' => hcb _ hm _ h' rfl
      simp only [Element.modify, if_neg hx, modifyList_append, modifyList, modifyList_out ha, modifyList_out hb, modAt,
        modFirst_split h2 h3, ih hnc h]

theorem unlink_eq {x : Element.Token} : ∀ {P : Path} {n m row : Node}, (ids n).Nodup → nodeOf P n = some m →
    child m x = some row → unlink row.id n = modAt P (dropChild x) n := by
  intro P
  induction P with
  | nil =>
    intro n m row hn h hr
    simp only [nodeOf, Option.some.injEq] at h
    subst h
    obtain ⟨a, b, h1, h2, h3⟩ := find_split hr
    obtain ⟨y, i, cs⟩ := n
    simp only at h1
    subst h1
    rw [ids_eq, idsList_append, idsList_cons] at hn
    simp only [List.nodup_cons, List.mem_append, not_or, List.nodup_append] at hn
    obtain ⟨_, hna, ⟨hnc, hnb, hcb⟩, hacb⟩ := hn
    have hm : row.id ∈ ids row := by rw [ids_eq]; simp
    have ha : row.id ∉ idsList a := fun h' => hacb _ h' _ (.inl hm) rfl
    simp only [unlink, unlinkList_skip ha, unlinkList, if_true, modAt, dropChild]
    congr 1
    rw [List.eraseP_append_right _ (by intro c hc; simpa using h2 c hc), List.eraseP_cons]
    simp [h3]
  | cons t P ih =>
    intro n m row hn h hr
    simp only [nodeOf] at h
    cases hc : child n t with
    | none => simp only [hc] at h; cases h
    | some c =>
      simp only [hc] at h
      obtain ⟨a, b, h1, h2, h3⟩ := find_split hc
      obtain ⟨y, i, cs⟩ := n
      simp only at h1
      subst h1
      have hrow : nodeOf (P ++ [x]) c = some row := by rw [nodeOf_append, h]; simp [nodeOf, hr]
      have hm := nodeOf_id_mem hrow
      rw [ids_eq, idsList_append, idsList_cons] at hn
      simp only [List.nodup_cons, List.mem_append, not_or, List.nodup_append] at hn
      obtain ⟨_, hna, ⟨hnc, hnb, hcb⟩, hacb⟩ := hn
      have ha : row.id ∉ idsList a := fun h' => hacb _ h' _ (.inl hm) rfl
      have hb : row.id ∉ idsList b := fun h' => hcb _ hm _ h' rfl
      have hne : ¬ c.id = row.id := by
        intro he
        rw [ids_eq, List.nodup_cons] at hnc
        cases hP : P ++ [x] with
        | nil => simp at hP
        | cons u Q =>
          rw [hP] at hrow
          simp only [nodeOf] at hrow
          cases hd : child c u with
          | none => simp only [hd] at hrow; cases hrow
          | some d =>
            simp only [hd] at hrow
            obtain ⟨a', b', h1', _, _⟩ := find_split hd
            apply hnc.1
            rw [he, h1', idsList_append, idsList_cons]
            simp [nodeOf_id_mem hrow]
      simp only [unlink, unlinkList_skip ha, unlinkList, if_neg hne, unlinkList_out hb, modAt, modFirst_split h2 h3,
        ih hnc h hr]

theorem ids_add {f : Node → Node} {E : List Nat} : ∀ {P : Path} {n m : Node}, nodeOf P n = some m →
    (ids (f m)).Perm (ids m ++ E) → (ids (modAt P f n)).Perm (ids n ++ E) := by
  intro P
  induction P with
  | nil =>
    intro n m h hp
    simp only [nodeOf, Option.some.injEq] at h
    subst h
    exact hp
  | cons t P ih =>
    intro n m h hp
    simp only [nodeOf] at h
    cases hc : child n t with
    | none => simp only [hc] at h; cases h
    | some c =>
      simp only [hc] at h
      obtain ⟨a, b, h1, h2, h3⟩ := find_split hc
      rw [ids_eq, ids_eq n]
      simp only [modAt]
      rw [h1, modFirst_split h2 h3, idsList_append, idsList_append, idsList_cons, idsList_cons]
      have := ih h hp
      refine List.Perm.cons _ ?_
      change List.Perm _ (idsList a ++ (ids c ++ idsList b) ++ E)
      rw [List.append_assoc]
      refine List.Perm.append_left _ ?_
      refine (this.append_right _).trans ?_
      rw [List.append_assoc, List.append_assoc]
      exact List.Perm.append_left _ List.perm_append_comm

theorem ids_drop {f : Node → Node} : ∀ {P : Path} {n m : Node}, nodeOf P n = some m →
    (ids (f m)).Sublist (ids m) → (ids (modAt P f n)).Sublist (ids n) := by
  intro P
  induction P with
  | nil =>
    intro n m h hp
    simp only [nodeOf, Option.some.injEq] at h
    subst h
    exact hp
  | cons t P ih =>
    intro n m h hp
    simp only [nodeOf] at h
    cases hc : child n t with
    | none => simp only [hc] at h; cases h
    | some c =>
      simp only [hc] at h
      obtain ⟨a, b, h1, h2, h3⟩ := find_split hc
      rw [ids_eq, ids_eq n]
      simp only [modAt]
      rw [h1, modFirst_split h2 h3, idsList_append, idsList_append, idsList_cons, idsList_cons]
      exact ((List.Sublist.refl _).append ((ih h hp).append (List.Sublist.refl _))).cons_cons _

theorem idsList_sublist : ∀ {a b : List Node}, a.Sublist b → (idsList a).Sublist (idsList b) := by
  intro a b h
  induction h with
  | slnil => exact List.Sublist.refl _
  | cons x _ ih => rw [idsList_cons]; exact ih.trans (List.sublist_append_right _ _)
  | cons_cons x _ ih => rw [idsList_cons, idsList_cons]; exact (List.Sublist.refl _).append ih

theorem ids_dropChild (x : Element.Token) (m : Node) : (ids (dropChild x m)).Sublist (ids m) := by
  rw [ids_eq, ids_eq m]
  exact (idsList_sublist (List.eraseP_sublist)).cons_cons _

/-! ### Copies of the row template -/

theorem dupList_names (full : Path) (cs : List Node) : ∀ k, (dupList full cs k).1.map (·.info.name) = cs.map (·.info.name) := by
  induction cs with
  | nil => intro k; rfl
  | cons c cs ih =>
    intro k
    unfold dupList
    simp only [List.map_cons, ih, (dup_info _ _ c k).1]

theorem dupList_find (full : Path) (u : Element.Token) : ∀ (cs : List Node) (k : Nat),
    (cs.find? (fun c => c.info.name = u) = none → (dupList full cs k).1.find? (fun c => c.info.name = u) = none) ∧
    ∀ c, cs.find? (fun c => c.info.name = u) = some c →
      ∃ k', (dupList full cs k).1.find? (fun c => c.info.name = u) = some (dup (full ++ [c.info.name]) c.info.name c k').1 := by
  intro cs
  induction cs with
  | nil => intro k; simp [dupList]
  | cons d cs ih =>
    intro k
    unfold dupList
    simp only [List.find?_cons, (dup_info _ _ d k).1]
    by_cases hd : d.info.name = u
    · simp only [hd, decide_true]
      refine ⟨fun h => by simp at h, fun c h => ⟨k, ?_⟩⟩
      simp only [Option.some.injEq] at h
      rw [← h, hd]
    · simp only [hd, decide_false]
      exact ih _

theorem dupList_mem (full : Path) {x : Node} : ∀ {cs : List Node} {k : Nat}, x ∈ (dupList full cs k).1 →
    ∃ c ∈ cs, ∃ k', x = (dup (full ++ [c.info.name]) c.info.name c k').1 := by
  intro cs
  induction cs with
  | nil => intro k h; cases h
  | cons d cs ih =>
    intro k h
    unfold dupList at h
    rcases List.mem_cons.mp h with h | h
    · exact ⟨d, by simp, k, h⟩
    · obtain ⟨c, hc, k', he⟩ := ih h
      exact ⟨c, by simp [hc], k', he⟩

theorem child_dup (full : Path) (name u : Element.Token) (n : Node) (k : Nat) :
    (child n u = none → child (dup full name n k).1 u = none) ∧
    ∀ c, child n u = some c → ∃ k', child (dup full name n k).1 u = some (dup (full ++ [c.info.name]) c.info.name c k').1 := by
  unfold child
  rw [(dup_info full name n k).2.2.1]
  exact dupList_find full u n.children (k + 1)

theorem nodeOf_dup : ∀ (q : Path) (full : Path) (name : Element.Token) (n : Node) (k : Nat),
    (nodeOf q (dup full name n k).1).map entry = (nodeOf q n).map (fun m => { entry m with alias := none }) := by
  intro q
  induction q with
  | nil =>
    intro full name n k
    simp only [nodeOf, Option.map_some, entry, (dup_info full name n k).1, (dup_info full name n k).2.2.1, dupList_names]
  | cons u q ih =>
    intro full name n k
    simp only [nodeOf]
    cases hc : child n u with
    | none => rw [(child_dup full name u n k).1 hc]; rfl
    | some c =>
      obtain ⟨k', h⟩ := (child_dup full name u n k).2 c hc
      rw [h]
      exact ih _ _ c k'

theorem like_dup (full : Path) (name : Element.Token) (n : Node) (k : Nat) : Like n (dup full name n k).1 := by
  intro q
  induction q generalizing full name n k with
  | nil => simp only [retrieveFrom, Option.map_some, kind, (dup_info full name n k).1]
  | cons u q ih =>
    simp only [retrieveFrom, (dup_info full name n k).1]
    generalize (if n.info.type = tTable then template else u) = v
    cases hc : child n v with
    | none => rw [(child_dup full name v n k).1 hc]
    | some c =>
      obtain ⟨k', h⟩ := (child_dup full name v n k).2 c hc
      rw [h]
      exact ih _ _ c k'

theorem neat_dup {n : Node} (h : Neat n) : ∀ (full : Path) (name : Element.Token) (k : Nat), Neat (dup full name n k).1 := by
  induction h with
  | @node n hok _ ih =>
    intro full name k
    obtain ⟨hi, _, hch, _⟩ := dup_info full name n k
    refine .node ⟨?_, ?_⟩ ?_
    · rw [hch, dupList_names]; exact hok.nodup
    · intro ht
      rw [hi] at ht ⊢
      obtain ⟨hg, tm, rs, hcs, htm, hrs⟩ := hok.table ht
      refine ⟨hg, ?_⟩
      rw [hch, hcs]
      unfold dupList
      refine ⟨_, _, rfl, by rw [(dup_info _ _ tm (k + 1)).1]; exact htm, ?_⟩
      intro r hr
      obtain ⟨c, hc, k', rfl⟩ := dupList_mem full hr
      refine ⟨by rw [(dup_info _ _ c k').1]; exact (hrs c hc).1, ?_⟩
      exact ((like_dup _ _ tm _).symm.trans (hrs c hc).2).trans (like_dup _ _ c k')
    · intro x hx
      rw [hch] at hx
      obtain ⟨c, hc, k', rfl⟩ := dupList_mem full hx
      exact ih c hc _ _ _

/-- With another alias. -/
def named (a : Option Bytes) (n : Node) : Node := { n with info := { n.info with alias := a } }

theorem neat_named {n : Node} (a : Option Bytes) (h : Neat n) : Neat (named a n) :=
  .node ⟨h.ok.nodup, h.ok.table⟩ h.sub

theorem like_named (a : Option Bytes) (n : Node) : Like n (named a n) := by
  intro q
  cases q <;> rfl

theorem nodeOf_named (a : Option Bytes) (n : Node) (q : Path) : nodeOf q (named a n) = if q = [] then some (named a n) else nodeOf q n := by
  cases q <;> rfl

/-! ### Names -/

theorem cut_append {t : Bytes} (h : (46 : UInt8) ∉ t) (s : Bytes) : cut (t ++ 46 :: s) = t :: cut s := by
  induction t with
  | nil => simp [cut]
  | cons c t ih =>
    simp only [List.mem_cons, not_or] at h
    rw [List.cons_append, cut, if_neg (Ne.symm h.1), ih h.2]

theorem cut_plain {t : Bytes} (h : (46 : UInt8) ∉ t) : cut t = [t] := by
  induction t with
  | nil => rfl
  | cons c t ih =>
    simp only [List.mem_cons, not_or] at h
    rw [cut, if_neg (Ne.symm h.1), ih h.2]

theorem pieces_join {p : Path} (h : ∀ t ∈ p, t ≠ [] ∧ (46 : UInt8) ∉ t) : pieces (join p) = p := by
  induction p with
  | nil => rfl
  | cons t p ih =>
    have h1 := h t (by simp)
    have := ih (fun u hu => h u (by simp [hu]))
    unfold pieces join at this ⊢
    simp only [List.map_cons, List.flatten_cons, List.append_assoc, List.cons_append, List.nil_append]
    rw [cut_append h1.2, List.filter_cons, this]
    simp [h1.1]

theorem cut_snoc (s : Bytes) : ∀ t : Bytes, (46 : UInt8) ∉ t → cut (s ++ 46 :: t) = cut s ++ [t] := by
  induction s with
  | nil => intro t ht; simp [cut, cut_plain ht]
  | cons c s ih =>
    intro t ht
    rw [List.cons_append, cut, cut, ih t ht]
    by_cases hc : c = 46
    · rw [if_pos hc, if_pos hc]; rfl
    · rw [if_neg hc, if_neg hc]
      cases hs : cut s with
      | nil => exact absurd hs (cut_ne s)
      | cons w ws => rfl

theorem pieces_snoc {s t : Bytes} (hs : s.getLast? = some 46) (ht : (46 : UInt8) ∉ t) (hne : t ≠ []) :
    pieces (s ++ t) = pieces s ++ [t] := by
  obtain ⟨r, rfl⟩ := List.getLast?_eq_some_iff.mp hs
  unfold pieces
  rw [List.append_assoc, List.singleton_append, cut_snoc r t ht, cut_snoc r [] (by simp)]
  simp [List.filter_append, hne]

theorem pieces_ok (s : Bytes) : ∀ t ∈ pieces s, t ≠ [] ∧ (46 : UInt8) ∉ t := by
  intro t ht
  unfold pieces at ht
  rw [List.mem_filter] at ht
  refine ⟨by simpa using ht.2, ?_⟩
  have key : ∀ s : Bytes, ∀ t ∈ cut s, (46 : UInt8) ∉ t := by
    intro s
    induction s with
    | nil => intro t ht; simp [cut] at ht; simp [ht]
    | cons c s ih =>
      intro t ht
      rw [cut] at ht
      by_cases hc : c = 46
      · rw [if_pos hc] at ht
        rcases List.mem_cons.mp ht with rfl | ht
        · simp
        · exact ih t ht
      · rw [if_neg hc] at ht
        cases hs : cut s with
        | nil => exact absurd hs (cut_ne s)
        | cons w ws =>
          rw [hs] at ht ih
          rcases List.mem_cons.mp ht with rfl | ht
          · simp only [List.mem_cons, not_or]
            exact ⟨fun h => hc h.symm, ih w (by simp)⟩
          · exact ih t (by simp [ht])
  exact key s t ht.1

theorem find_instance {table : Bool} {t : Element.Token} (h : t.head? ≠ some 91) (cs : List Node) :
    findInstance table t cs = cs.find? (fun c => c.info.name = t) := by
  have ha : ∀ a, aliasToken t a = false := by
    intro a
    cases a with
    | none => rfl
    | some a =>
      unfold aliasToken
      simp only [Bool.and_eq_false_iff, decide_eq_false_iff_not]
      right
      rintro rfl
      simp at h
  cases cs with
  | nil => rfl
  | cons c cs =>
    rw [findInstance, List.find?_cons]
    by_cases hc : c.info.name = t
    · simp [hc]
    · simp [hc, ha]

theorem instance_nodeOf : ∀ {p : Path} {n : Node}, Neat n → Exact p → instanceFrom false p n = nodeOf p n := by
  intro p
  induction p with
  | nil => intro n _ _; rfl
  | cons t p ih =>
    intro n hn hp
    obtain ⟨_, _, h3, h4⟩ := hp t (by simp)
    have hstar : (t = star) = False := eq_false h3
    have hget : (decide (n.info.type = tTable) && (false || decide (n.info.type = tTable) && decide (t = star) || n.info.cb.get.isSome)) = false := by
      by_cases ht : n.info.type = tTable
      · simp [(hn.ok.table ht).1, hstar]
      · simp [ht]
    simp only [instanceFrom, nodeOf, hget, if_false, find_instance h4, Bool.false_eq_true]
    simp only [hstar, decide_false, Bool.and_false, Bool.or_false]
    change (match child n t with | some c => instanceFrom false p c | none => none) = _
    cases hc : child n t with
    | none => rfl
    | some c => exact ih (hn.sub c (child_mem hc).1) (fun u hu => hp u (by simp [hu]))

theorem retrieve_eq {T : Tree} (hn : Neat T.root) {s : Bytes} (h : Exact (pieces s)) :
    retrieveInstance T s = if pieces s = [] then none else nodeOf (pieces s) T.root := by
  unfold retrieveInstance
  rw [tokens_pieces]
  cases hp : pieces s with
  | nil => rfl
  | cons t p => rw [hp] at h; simp [instance_nodeOf hn h]

theorem seen_eq {T : Tree} (hn : Neat T.root) {p : Path} (h : Exact p) :
    seen T p = if p = [] then none else (nodeOf p T.root).map entry := by
  unfold seen
  have hp : pieces (join p) = p := pieces_join (fun t ht => ⟨(h t ht).1, (h t ht).2.1⟩)
  rw [retrieve_eq hn (by rw [hp]; exact h), hp]
  split <;> rfl

theorem seen_nil (T : Tree) : seen T [] = none := rfl

/-- What is found as an instance is found as registered, and looks the same. -/
theorem registered : ∀ {p : Path} {n m : Node}, Neat n → nodeOf p n = some m → ∃ r, retrieveFrom p n = some r ∧ Like r m := by
  intro p
  induction p with
  | nil =>
    intro n m _ h
    simp only [nodeOf, Option.some.injEq] at h
    subst h
    exact ⟨n, rfl, Like.refl n⟩
  | cons t p ih =>
    intro n m hn h
    simp only [nodeOf] at h
    cases hc : child n t with
    | none => simp only [hc] at h; cases h
    | some c =>
      simp only [hc] at h
      obtain ⟨r, hr, hl⟩ := ih (hn.sub c (child_mem hc).1) h
      simp only [retrieveFrom]
      by_cases ht : n.info.type = tTable
      · rw [if_pos ht]
        obtain ⟨_, tm, rs, hcs, htm, hrs⟩ := hn.ok.table ht
        have hct : child n template = some tm := by unfold child; rw [hcs]; simp [htm]
        rw [hct]
        have hlike : Like tm c := by
          have := (child_mem hc).1
          rw [hcs] at this
          rcases List.mem_cons.mp this with rfl | this
          · exact Like.refl _
          · exact (hrs c this).2
        have happ : ∀ (a b : Path) (x : Node), retrieveFrom (a ++ b) x = (retrieveFrom a x).bind (retrieveFrom b) := by
          intro a
          induction a with
          | nil => intro b x; rfl
          | cons u a iha =>
            intro b x
            simp only [List.cons_append, retrieveFrom]
            cases child x (if x.info.type = tTable then template else u) with
            | none => rfl
            | some y => exact iha b y
        have h1 := hlike p
        rw [hr] at h1
        cases hrt : retrieveFrom p tm with
        | none => rw [hrt] at h1; cases h1
        | some r' =>
          refine ⟨r', hrt, ?_⟩
          intro q
          have h2 := hlike (p ++ q)
          rw [happ, happ, hrt, hr] at h2
          exact h2.trans (hl q)
      · rw [if_neg ht, hc]
        exact ⟨r, hr, hl⟩

/-! ### A provider's tree -/

structure Good (T : Tree) : Prop where
  nodup : (ids T.root).Nodup
  below : ∀ i ∈ ids T.root, i < T.next
  neat : Neat T.root
  rootObj : T.root.info.type = tObject
  rootCb : T.root.info.cb = {}

theorem decimal_ok (n : Nat) : decimal n ≠ [] ∧ (46 : UInt8) ∉ decimal n ∧ decimal n ≠ [42] ∧ (decimal n).head? ≠ some 91 := by
  have key : ∀ c ∈ decimal n, 48 ≤ c.toNat ∧ c.toNat ≤ 57 := by
    intro c hc
    obtain ⟨d, hd, rfl⟩ := List.mem_map.mp hc
    have := Nat.isDigit_of_mem_toDigits (by omega) (by omega) hd
    simp only [Char.isDigit, Bool.and_eq_true, decide_eq_true_eq, ge_iff_le, UInt32.le_iff_toNat_le] at this
    have h1 : 48 ≤ d.toNat := this.1
    have h2 : d.toNat ≤ 57 := this.2
    simp only [UInt8.toNat_ofNat']
    omega
  refine ⟨?_, ?_, ?_, ?_⟩
  · unfold decimal
    rw [ne_eq, List.map_eq_nil_iff]
    exact Nat.toDigits_ne_nil
  · intro h; have := key _ h; simp at this
  · intro h; have := key 42 (by rw [h]; simp); simp at this
  · intro h; have := key 91 (List.mem_of_mem_head? (by rw [h]; rfl)); simp at this

theorem exact_append {p q : Path} : Exact (p ++ q) ↔ Exact p ∧ Exact q := by
  constructor
  · intro h; exact ⟨fun t ht => h t (by simp [ht]), fun t ht => h t (by simp [ht])⟩
  · intro h t ht
    rcases List.mem_append.mp ht with ht | ht
    · exact h.1 t ht
    · exact h.2 t ht

theorem exact_template : Exact [template] := by
  intro t ht
  rw [List.mem_singleton] at ht
  subst ht
  decide

theorem exact_decimal (i : Nat) : Exact [decimal i] := by
  intro t ht
  rw [List.mem_singleton] at ht
  subst ht
  exact decimal_ok i

theorem add_core {T : Tree} (hg : Good T) {P : Path} (hP : P ≠ []) (he : Exact P) {m : Node}
    (hm : nodeOf P T.root = some m) (ht : m.info.type = tTable) {i : Nat} (hi : i < 2 ^ 32)
    (hnew : decimal i ∉ m.children.map (·.info.name)) (a : Option Bytes) :
    ∃ T' row, instantiate T m i a = some (T', row) ∧ Good T' ∧ Like T.root T'.root ∧
      ∀ p, Exact p → seen T' p = withRow (seen T) P (decimal i) a p := by
  have hmn := hg.neat.nodeOf hm
  obtain ⟨_, tm, rs, hcs, htm, hrs⟩ := hmn.ok.table ht
  have hct : child m template = some tm := by unfold child; rw [hcs]; simp [htm]
  have htn := hmn.sub tm (by rw [hcs]; simp)
  unfold instantiate
  simp only [hct]
  obtain ⟨hdi, _, _, _⟩ := dup_info (m.info.full ++ [decimal i]) (decimal i) tm T.next
  obtain ⟨hk, hids⟩ := dup_ids (m.info.full ++ [decimal i]) (decimal i) [] tm T.next
  have hdn := nodeOf_dup (full := m.info.full ++ [decimal i]) (name := decimal i) (n := tm) (k := T.next)
  have hdl := like_dup (m.info.full ++ [decimal i]) (decimal i) tm T.next
  have hdt := neat_dup htn (m.info.full ++ [decimal i]) (decimal i) T.next
  generalize dup (m.info.full ++ [decimal i]) (decimal i) tm T.next = d at hdi hk hids hdn hdl hdt
  rw [nodes_ids] at hids
  have hrow : ({ d.1 with info := { d.1.info with alias := a } } : Node) = named a d.1 := rfl
  rw [hrow]
  have hfun : (fun n : Node => ({ n with children := n.children ++ [named a d.1] } : Node)) = addChild (named a d.1) := rfl
  rw [hfun]
  refine ⟨_, _, rfl, ?_⟩
  have hroot := modify_eq (f := addChild (named a d.1)) hg.nodup hm
  rw [hroot]
  have hname : (named a d.1).info.name = decimal i := by simp only [named, hdi]
  have hinfo : ∀ x, (addChild (named a d.1) x).info = x.info := fun _ => rfl
  have hneat : Neat (addChild (named a d.1) m) := by
    refine neat_add hmn (neat_named a hdt) hi hname hnew ?_
    intro tm' htm'
    rw [hct] at htm'
    cases htm'
    exact hdl.trans (like_named a d.1)
  have hlike := like_add (row := named a d.1) hmn.ok ht
  have hidrow : ids (named a d.1) = List.range' T.next (d.2 - T.next) := by
    rw [← hids, ids_eq]
    exact (ids_eq d.1).symm
  have hperm : (ids (modAt P (addChild (named a d.1)) T.root)).Perm (ids T.root ++ List.range' T.next (d.2 - T.next)) := by
    refine ids_add hm ?_
    rw [ids_eq, ids_eq m, ← hidrow]
    simp only [addChild, idsList_append, idsList_cons]
    simp [idsList, nodesList]
  have hgood : Good { T with root := modAt P (addChild (named a d.1)) T.root, next := d.2 } := by
    refine ⟨?_, ?_, ?_, ?_, ?_⟩
    · rw [hperm.nodup_iff, List.nodup_append]
      refine ⟨hg.nodup, List.nodup_range', ?_⟩
      intro x hx y hy
      have := hg.below x hx
      rw [List.mem_range'_1] at hy
      omega
    · intro x hx
      rcases List.mem_append.mp (hperm.mem_iff.mp hx) with hx | hx
      · exact Nat.lt_of_lt_of_le (hg.below x hx) hk
      · rw [List.mem_range'_1] at hx
        simp only
        omega
    · refine neat_modAt hinfo P T.root hg.neat ?_
      intro m' hm'
      rw [hm] at hm'
      cases hm'
      exact ⟨hneat, hlike⟩
    · rw [modAt_info hinfo]; exact hg.rootObj
    · rw [modAt_info hinfo]; exact hg.rootCb
  refine ⟨hgood, like_modAt hinfo P T.root (fun m' hm' => by rw [hm] at hm'; cases hm'; exact hlike), ?_⟩
  intro p hp
  rw [seen_eq hgood.neat hp]
  unfold withRow
  by_cases hpP : p = P
  · subst hpP
    rw [if_neg hP, if_pos rfl, seen_eq hg.neat hp, if_neg hP, hm]
    have := nodeOf_modAt hinfo [] p T.root m hm
    rw [List.append_nil] at this
    simp only [this, nodeOf, Option.map_some, entry, addChild, List.map_append, List.map_cons, List.map_nil, hname]
  · rw [if_neg hpP]
    by_cases hpre : P <+: p
    · obtain ⟨r, rfl⟩ := hpre
      rw [if_neg (by simp [hP])]
      cases r with
      | nil => simp at hpP
      | cons u r =>
        rw [nodeOf_modAt hinfo (u :: r) P T.root m hm]
        simp only [nodeOf, child_add, hname]
        by_cases hu : decimal i = u
        · subst hu
          have hcn : child m (decimal i) = none := by
            unfold child
            rw [List.find?_eq_none]
            intro c hc hx
            exact hnew (by rw [← show c.info.name = decimal i by simpa using hx]; exact List.mem_map_of_mem hc)
          have hpos : P ++ [decimal i] <+: P ++ decimal i :: r := ⟨r, by simp⟩
          rw [hcn, if_pos hpos]
          have hdrop : (P ++ decimal i :: r).drop (P.length + 1) = r := by
            rw [show P ++ decimal i :: r = (P ++ [decimal i]) ++ r by simp]
            rw [List.drop_left' (by simp)]
          rw [hdrop]
          have hr : Exact (template :: r) := by
            have := exact_append.mp hp
            exact (exact_append (p := [template])).mpr ⟨exact_template, fun t ht => this.2 t (by simp [ht])⟩
          rw [seen_eq hg.neat (exact_append.mpr ⟨he, hr⟩), if_neg (show ¬ _ = [] by simp), nodeOf_append, hm]
          simp only [Option.bind_some, nodeOf, hct, if_true, Option.none_or, nodeOf_named]
          have hlen : ((P ++ decimal i :: r).length = P.length + 1) = (r = []) := by
            simp
          simp only [hlen]
          by_cases hr0 : r = []
          · subst hr0
            have := hdn []
            simp only [nodeOf, Option.map_some, Option.some.injEq, entry, Entry.mk.injEq] at this
            simp only [if_true, nodeOf, Option.map_some, entry, named]
            rw [this.1, this.2.1, this.2.2.2]
          · simp only [if_neg hr0]
            rw [hdn r]
            simp [Option.map_map, Function.comp_def]
        · have hneg : ¬ P ++ [decimal i] <+: P ++ u :: r := by
            rintro ⟨s, hs⟩
            rw [List.append_assoc] at hs
            have := List.append_cancel_left hs
            simp only [List.cons_append, List.cons.injEq] at this
            exact hu this.1
          rw [if_neg hneg]
          rw [seen_eq hg.neat hp, if_neg (show ¬ _ = [] by simp), nodeOf_append, hm, if_neg hu]
          simp only [Option.or_none, Option.bind_some, nodeOf]
    · have hneg : ¬ P ++ [decimal i] <+: p := by
        rintro ⟨s, hs⟩
        exact hpre ⟨decimal i :: s, by rw [← hs]; simp⟩
      rw [if_neg hneg]
      rw [seen_eq hg.neat hp, nodeOf_modAt_other hinfo P p T.root hpre]

theorem remove_core {T : Tree} (hg : Good T) {P : Path} (hP : P ≠ []) {x : Element.Token} {m row : Node}
    (he : Exact (P ++ [x])) (hx : x ≠ template)
    (hm : nodeOf P T.root = some m) (ht : m.info.type = tTable) (hr : child m x = some row) :
    Good (deleteRow T row) ∧ Like T.root (deleteRow T row).root ∧
      ∀ p, Exact p → seen (deleteRow T row) p = withoutRow (seen T) P x p := by
  have hmn := hg.neat.nodeOf hm
  have hroot : (deleteRow T row).root = modAt P (dropChild x) T.root := unlink_eq hg.nodup hm hr
  have hinfo : ∀ y, (dropChild x y).info = y.info := fun _ => rfl
  have hsub := ids_drop (f := dropChild x) hm (ids_dropChild x m)
  have hgood : Good (deleteRow T row) := by
    refine ⟨?_, ?_, ?_, ?_, ?_⟩
    · rw [hroot]; exact hsub.nodup hg.nodup
    · intro i hi
      rw [hroot] at hi
      exact hg.below i (hsub.subset hi)
    · rw [hroot]
      refine neat_modAt hinfo P T.root hg.neat ?_
      intro m' hm'
      rw [hm] at hm'
      cases hm'
      exact ⟨neat_drop hmn hx, like_drop ht hx⟩
    · rw [hroot, modAt_info hinfo]; exact hg.rootObj
    · rw [hroot, modAt_info hinfo]; exact hg.rootCb
  refine ⟨hgood, by
    rw [hroot]
    exact like_modAt hinfo P T.root (fun m' hm' => by rw [hm] at hm'; cases hm'; exact like_drop ht hx), ?_⟩
  intro p hp
  rw [seen_eq hgood.neat hp, hroot]
  unfold withoutRow
  by_cases hpP : p = P
  · subst hpP
    rw [if_neg hP, if_pos rfl, seen_eq hg.neat hp, if_neg hP, hm]
    have := nodeOf_modAt hinfo [] p T.root m hm
    rw [List.append_nil] at this
    simp only [this, nodeOf, Option.map_some, entry, dropChild, eraseP_names]
  · rw [if_neg hpP]
    by_cases hpre : P <+: p
    · obtain ⟨r, rfl⟩ := hpre
      rw [if_neg (by simp [hP])]
      cases r with
      | nil => simp at hpP
      | cons u r =>
        rw [nodeOf_modAt hinfo (u :: r) P T.root m hm]
        simp only [nodeOf]
        by_cases hu : u = x
        · subst hu
          have : child (dropChild u m) u = none := find_eraseP_self hmn.ok.nodup
          have hpos : P ++ [u] <+: P ++ u :: r := ⟨r, by simp⟩
          rw [this, if_pos hpos]
          rfl
        · have : child (dropChild x m) u = child m u := find_eraseP_ne hu m.children
          have hneg : ¬ P ++ [x] <+: P ++ u :: r := by
            rintro ⟨s, hs⟩
            rw [List.append_assoc] at hs
            have := List.append_cancel_left hs
            simp only [List.cons_append, List.cons.injEq] at this
            exact hu this.1.symm
          rw [this, if_neg hneg]
          rw [seen_eq hg.neat hp, if_neg (show ¬ _ = [] by simp), nodeOf_append, hm]
          simp only [Option.bind_some, nodeOf]
    · have hneg : ¬ P ++ [x] <+: p := by
        rintro ⟨s, hs⟩
        exact hpre ⟨x :: s, by rw [← hs]; simp⟩
      rw [if_neg hneg]
      rw [seen_eq hg.neat hp, nodeOf_modAt_other hinfo P p T.root hpre]

end Verif.RowsProof
