import Verif.Proof.Cover
import Verif.Spec.Provider

/-!
# Registration of elements
-/

namespace Verif.Subs

open Verif Verif.Element
open Verif.Spec.Provider (Decl Fits Orderly declare cut pieces stem)

theorem find_upsert {t : Element.Token} {f : Node → Nat → Node × Nat} {mk : Nat → Node}
    (hf : ∀ n k, (f n k).1.info.name = n.info.name) (hm : ∀ k, (mk k).info.name = t) :
    ∀ (cs : List Node) (k : Nat),
    (∀ c, cs.find? (fun c => c.info.name = t) = some c →
      (upsert t f mk cs k).1.find? (fun c => c.info.name = t) = some (f c k).1 ∧
      (upsert t f mk cs k).2 = (f c k).2) ∧
    (cs.find? (fun c => c.info.name = t) = none →
      (upsert t f mk cs k).1 = cs ++ [(f (mk k) (k + 1)).1] ∧
      (upsert t f mk cs k).2 = (f (mk k) (k + 1)).2) ∧
    ∀ u, u ≠ t → (upsert t f mk cs k).1.find? (fun c => c.info.name = u) =
      cs.find? (fun c => c.info.name = u) := by
  intro cs
  induction cs with
  | nil =>
    intro k
    refine ⟨fun c h => by simp at h, fun _ => ⟨rfl, rfl⟩, fun u hu => ?_⟩
    simp only [upsert]
    rw [List.find?_cons_of_neg (by simp [hf, hm, Ne.symm hu])]
  | cons n ns ih =>
    intro k
    obtain ⟨i1, i2, i3⟩ := ih k
    unfold upsert
    rcases Decidable.em (n.info.name = t) with hn | hn
    · rw [if_pos hn]
      refine ⟨fun c h => ?_, fun h => ?_, fun u hu => ?_⟩
      · rw [List.find?_cons_of_pos (by simp [hn])] at h
        cases h
        exact ⟨by rw [List.find?_cons_of_pos (by simp [hf, hn])], rfl⟩
      · rw [List.find?_cons_of_pos (by simp [hn])] at h
        cases h
      · have hne : ¬ t = u := fun h => hu h.symm
        simp only
        rw [List.find?_cons_of_neg (by simp [hf, hn, hne]), List.find?_cons_of_neg (by simp [hn, hne])]
    · rw [if_neg hn]
      refine ⟨fun c h => ?_, fun h => ?_, fun u hu => ?_⟩
      · rw [List.find?_cons_of_neg (by simp [hn])] at h
        exact ⟨by simp only; rw [List.find?_cons_of_neg (by simp [hn])]; exact (i1 c h).1, (i1 c h).2⟩
      · rw [List.find?_cons_of_neg (by simp [hn])] at h
        exact ⟨by simp only [List.cons_append]; rw [(i2 h).1], (i2 h).2⟩
      · simp only
        rw [List.find?_cons, List.find?_cons, i3 u hu]

theorem set_info (type : Nat) (cb : Cb) (n : Node) (k : Nat) :
    (setElement type cb n k).1.info.name = n.info.name ∧ (setElement type cb n k).1.id = n.id ∧
    (setElement type cb n k).1.info.type = type := by
  unfold setElement
  split <;> exact ⟨rfl, rfl, by simp_all⟩

theorem insertAt_name (type : Nat) (cb : Cb) : ∀ (ts : Path) (n : Node) (k : Nat),
    (insertAt (setElement type cb) ts n k).1.info.name = n.info.name ∧
    (insertAt (setElement type cb) ts n k).1.id = n.id ∧
    (ts ≠ [] → (insertAt (setElement type cb) ts n k).1.info = n.info) := by
  intro ts n k
  cases ts with
  | nil => exact ⟨(set_info type cb n k).1, (set_info type cb n k).2.1, fun h => absurd rfl h⟩
  | cons t ts => exact ⟨rfl, rfl, fun _ => rfl⟩

/-! ### Where the paths lead afterwards -/

theorem nodeOf_append (a b : Path) (n : Node) : nodeOf (a ++ b) n = (nodeOf a n).bind (nodeOf b) := by
  induction a generalizing n with
  | nil => rfl
  | cons t a ih =>
    simp only [List.cons_append, nodeOf]
    cases child n t with
    | none => rfl
    | some c => exact ih c

/-- The child made or changed by an insertion. -/
theorem child_insertAt (type : Nat) (cb : Cb) (t : Element.Token) (ts : Path) (n : Node) (k : Nat) :
    (∀ c, child n t = some c → child (insertAt (setElement type cb) (t :: ts) n k).1 t =
      some (insertAt (setElement type cb) ts c k).1) ∧
    (child n t = none → child (insertAt (setElement type cb) (t :: ts) n k).1 t =
      some (insertAt (setElement type cb) ts (empty k (n.info.full ++ [t]) t) (k + 1)).1) ∧
    ∀ u, u ≠ t → child (insertAt (setElement type cb) (t :: ts) n k).1 u = child n u := by
  have h := find_upsert (t := t) (f := insertAt (setElement type cb) ts)
    (mk := fun id => empty id (n.info.full ++ [t]) t) (fun n k => (insertAt_name type cb ts n k).1)
    (fun _ => rfl) n.children k
  refine ⟨fun c hc => (h.1 c hc).1, fun hn => ?_, h.2.2⟩
  have hl := (h.2.1 hn).1
  unfold child at hn ⊢
  simp only [insertAt]
  rw [hl, List.find?_append, hn, Option.none_or, List.find?_cons_of_pos]
  simp [(insertAt_name type cb ts _ _).1, empty]

/-- Paths beside the inserted one lead where they led. -/
theorem nodeOf_beside (type : Nat) (cb : Cb) : ∀ (ts us : Path) (n : Node) (k : Nat),
    ¬ us <+: ts → ¬ ts <+: us → nodeOf us (insertAt (setElement type cb) ts n k).1 = nodeOf us n := by
  intro ts
  induction ts with
  | nil => intro us n k _ h; exact absurd (List.nil_prefix) h
  | cons t ts ih =>
    intro us n k h1 h2
    cases us with
    | nil => exact absurd (List.nil_prefix) h1
    | cons u us =>
      obtain ⟨c1, c2, c3⟩ := child_insertAt type cb t ts n k
      rcases Decidable.em (u = t) with rfl | hu
      · rw [List.cons_prefix_cons] at h1 h2
        simp only [true_and] at h1 h2
        simp only [nodeOf]
        cases hc : child n u with
        | some c =>
          rw [c1 c hc]
          exact ih us c k h1 h2
        | none =>
          rw [c2 hc]
          simp only
          rw [ih us _ _ h1 h2]
          cases us with
          | nil => exact absurd (List.nil_prefix) h1
          | cons v us => rfl
      · simp only [nodeOf]
        rw [c3 u hu]

/-- Paths leading to the inserted one lead to nodes with the data they had, or empty ones. -/
theorem nodeOf_above (type : Nat) (cb : Cb) : ∀ (us r : Path) (n : Node) (k : Nat), r ≠ [] →
    ∃ m, nodeOf us (insertAt (setElement type cb) (us ++ r) n k).1 = some m ∧
      (∀ m', nodeOf us n = some m' → m.info = m'.info) ∧
      (nodeOf us n = none → m.info.type = tObject) := by
  intro us
  induction us with
  | nil =>
    intro r n k hr
    refine ⟨_, rfl, ?_, ?_⟩
    · rintro m' h
      cases h
      exact (insertAt_name type cb r n k).2.2 hr
    · intro h
      simp [nodeOf] at h
  | cons u us ih =>
    intro r n k hr
    obtain ⟨c1, c2, c3⟩ := child_insertAt type cb u (us ++ r) n k
    simp only [List.cons_append, nodeOf]
    cases hc : child n u with
    | some c =>
      rw [c1 c hc]
      exact ih r c k hr
    | none =>
      rw [c2 hc]
      obtain ⟨m, h1, h2, h3⟩ := ih r (empty k (n.info.full ++ [u]) u) (k + 1) hr
      refine ⟨m, h1, fun m' h => ?_, fun _ => ?_⟩
      · simp at h
      · cases us with
        | nil =>
          rw [h2 _ rfl]
          rfl
        | cons v us => exact h3 rfl

/-- A new path leads to the element, with the row template below it if it is a table. -/
theorem nodeOf_below (type : Nat) (cb : Cb) : ∀ (ts : Path) (n : Node) (k : Nat), nodeOf ts n = none →
    ∃ id full k' m, nodeOf ts (insertAt (setElement type cb) ts n k).1 = some m ∧
      m = (setElement type cb (empty id full (ts.getLast?.getD [])) k').1 := by
  intro ts
  induction ts with
  | nil => intro n k h; simp [nodeOf] at h
  | cons t ts ih =>
    intro n k h
    obtain ⟨c1, c2, c3⟩ := child_insertAt type cb t ts n k
    simp only [nodeOf] at h ⊢
    cases hc : child n t with
    | some c =>
      rw [hc] at h
      rw [c1 c hc]
      obtain ⟨id, full, k', m, h1, h2⟩ := ih c k h
      refine ⟨id, full, k', m, h1, ?_⟩
      rw [h2]
      cases ts with
      | nil => simp [nodeOf] at h
      | cons v ts => rfl
    | none =>
      rw [c2 hc]
      cases ts with
      | nil => exact ⟨k, n.info.full ++ [t], k + 1, _, rfl, rfl⟩
      | cons v ts =>
        obtain ⟨id, full, k', m, h1, h2⟩ := ih (empty k (n.info.full ++ [t]) t) (k + 1) rfl
        exact ⟨id, full, k', m, h1, by rw [h2]; rfl⟩

/-! ### The nodes afterwards -/

/-- The node where a new path leaves the tree is an object. -/
def junction : Path → Node → Prop
  | [], _ => True
  | t :: ts, n =>
    match child n t with
    | some c => junction ts c
    | none => n.info.type = tObject

/-- What a node's children are listed under. -/
def Under (u : List Info) (n : Node) : Prop :=
  (u = [] ∧ n.info.type = tObject) ∨ ∃ i v, u = i :: v ∧ i.type = n.info.type

theorem clean_under_object {u : List Info} {n : Node} (h : Under u n) (ho : n.info.type = tObject) (i : Info) :
    CleanPath (i :: u) := by
  rcases h with ⟨rfl, _⟩ | ⟨j, v, rfl, hj⟩
  · trivial
  · refine ⟨.inl (hj.trans ho), fun h => ?_⟩
    rw [hj, ho] at h
    cases h

/-- A chain of new nodes. -/
theorem chain_flat (type : Nat) (cb : Cb) : ∀ (ts : Path) (n : Node) (k : Nat) (u : List Info),
    n.children = [] → n.info.type = tObject →
    k ≤ (insertAt (setElement type cb) ts n k).2 ∧
    (flatList ((insertAt (setElement type cb) ts n k).1.info :: u)
      (insertAt (setElement type cb) ts n k).1.children).map (·.1) =
        List.range' k ((insertAt (setElement type cb) ts n k).2 - k) ∧
    ∀ e ∈ flatList ((insertAt (setElement type cb) ts n k).1.info :: u)
      (insertAt (setElement type cb) ts n k).1.children, CleanPath e.2 := by
  intro ts
  induction ts with
  | nil =>
    intro n k u hc ho
    simp only [insertAt, setElement]
    split
    next ht =>
      have : k + 1 - k = 1 := by omega
      simp only [flatList, empty, flat, List.append_nil, List.map_cons, List.map_nil, this]
      refine ⟨by omega, by simp [List.range'], fun e he => ?_⟩
      rw [List.mem_singleton] at he
      subst he
      exact ⟨.inr ht, fun _ => ⟨rfl, rfl⟩⟩
    next => simp [hc, flatList]
  | cons t ts ih =>
    intro n k u hc ho
    obtain ⟨h1, h2, h3⟩ := ih (empty k (n.info.full ++ [t]) t) (k + 1) (n.info :: u) rfl rfl
    have hr : insertAt (setElement type cb) (t :: ts) n k =
        ({ n with children := [(insertAt (setElement type cb) ts (empty k (n.info.full ++ [t]) t) (k + 1)).1] },
          (insertAt (setElement type cb) ts (empty k (n.info.full ++ [t]) t) (k + 1)).2) := by
      simp [insertAt, hc, upsert]
    rw [hr]
    generalize hm : insertAt (setElement type cb) ts (empty k (n.info.full ++ [t]) t) (k + 1) = m at h1 h2 h3
    have hid : m.1.id = k := by rw [← hm]; exact (insertAt_name type cb ts _ _).2.1
    simp only [flatList, List.append_nil, flat_eq]
    refine ⟨by omega, ?_, ?_⟩
    · simp only [List.map_cons, hid, h2]
      have : m.2 - k = (m.2 - (k + 1)) + 1 := by omega
      rw [this, List.range'_succ]
    · intro e he
      rcases List.mem_cons.mp he with rfl | he
      · refine ⟨.inl ho, fun h => ?_⟩
        rw [ho] at h
        cases h
      · exact h3 e he

theorem upsert_absent {t : Element.Token} {f : Node → Nat → Node × Nat} {mk : Nat → Node} :
    ∀ (cs : List Node) (k : Nat), cs.find? (fun c => c.info.name = t) = none →
      upsert t f mk cs k = (cs ++ [(f (mk k) (k + 1)).1], (f (mk k) (k + 1)).2) := by
  intro cs
  induction cs with
  | nil => intro k _; rfl
  | cons n ns ih =>
    intro k h
    rw [List.find?_cons] at h
    split at h
    · cases h
    next hn =>
      unfold upsert
      rw [if_neg (by simpa using hn), ih k h]
      rfl

theorem upsert_present {t : Element.Token} {f : Node → Nat → Node × Nat} {mk : Nat → Node} :
    ∀ (cs : List Node) (k : Nat) (c : Node), cs.find? (fun c => c.info.name = t) = some c →
      ∃ a b, cs = a ++ c :: b ∧ upsert t f mk cs k = (a ++ (f c k).1 :: b, (f c k).2) := by
  intro cs
  induction cs with
  | nil => intro k c h; simp at h
  | cons n ns ih =>
    intro k c h
    unfold upsert
    rcases Decidable.em (n.info.name = t) with hn | hn
    · rw [List.find?_cons_of_pos (by simp [hn])] at h
      cases h
      rw [if_pos hn]
      exact ⟨[], ns, rfl, rfl⟩
    · rw [List.find?_cons_of_neg (by simp [hn])] at h
      obtain ⟨a, b, h1, h2⟩ := ih k c h
      rw [if_neg hn, h2]
      exact ⟨n :: a, b, by rw [h1]; rfl, rfl⟩

/-- A new path adds nodes and changes none. -/
theorem insert_flat (type : Nat) (cb : Cb) : ∀ (ts : Path) (n : Node) (k : Nat) (u : List Info),
    nodeOf ts n = none → junction ts n → Under u n →
    k ≤ (insertAt (setElement type cb) ts n k).2 ∧
    ∃ E, (flatList u (insertAt (setElement type cb) ts n k).1.children).Perm (flatList u n.children ++ E) ∧
      E.map (·.1) = List.range' k ((insertAt (setElement type cb) ts n k).2 - k) ∧
      ∀ e ∈ E, CleanPath e.2 := by
  intro ts
  induction ts with
  | nil => intro n k u h; simp [nodeOf] at h
  | cons t ts ih =>
    intro n k u h hj hu
    simp only [nodeOf, junction] at h hj
    cases hc : child n t with
    | some c =>
      rw [hc] at h hj
      obtain ⟨a, b, h1, h2⟩ := upsert_present (f := insertAt (setElement type cb) ts)
        (mk := fun id => empty id (n.info.full ++ [t]) t) n.children k c hc
      obtain ⟨k1, E, k2, k3, k4⟩ := ih c k (c.info :: u) h hj (.inr ⟨_, _, rfl, rfl⟩)
      have hts : ts ≠ [] := by rintro rfl; simp [nodeOf] at h
      obtain ⟨n1, n2, n3⟩ := insertAt_name type cb ts c k
      have n3 := n3 hts
      simp only [insertAt, h2]
      refine ⟨k1, E, ?_, k3, k4⟩
      rw [h1]
      simp only [flatList_append, flatList, flat_eq, n2, n3]
      rw [List.append_assoc]
      refine List.Perm.append_left _ ?_
      refine (((k2.cons _).append_right _).trans ?_)
      simp only [List.cons_append, List.append_assoc]
      exact (List.Perm.append_left _ List.perm_append_comm).cons _
    | none =>
      rw [hc] at hj
      simp only [insertAt, upsert_absent n.children k hc]
      obtain ⟨c1, c2, c3⟩ := chain_flat type cb ts (empty k (n.info.full ++ [t]) t) (k + 1) u rfl rfl
      generalize hm : insertAt (setElement type cb) ts (empty k (n.info.full ++ [t]) t) (k + 1) = m at c1 c2 c3
      have hid : m.1.id = k := by rw [← hm]; exact (insertAt_name type cb ts _ _).2.1
      refine ⟨by omega, flat u m.1, ?_, ?_, ?_⟩
      · simp only [flatList_append, flatList, List.append_nil]
        exact .refl _
      · rw [flat_eq]
        simp only [List.map_cons, hid, c2]
        have : m.2 - k = (m.2 - (k + 1)) + 1 := by omega
        rw [this, List.range'_succ]
      · intro e he
        rw [flat_eq] at he
        rcases List.mem_cons.mp he with rfl | he
        · exact clean_under_object hu hj _
        · exact c3 e he

theorem mapIds_id {f : Node → Nat → Node × Nat} : ∀ (cs : List Node) (k : Nat),
    (∀ c ∈ cs, ∀ k, f c k = (c, k)) → mapIds f cs k = (cs, k) := by
  intro cs
  induction cs with
  | nil => intro k _; rfl
  | cons c cs ih =>
    intro k h
    unfold mapIds
    rw [h c (by simp) k]
    simp only
    rw [ih k (fun d hd => h d (by simp [hd]))]

/-- Without rows there is nothing to replicate to. -/
theorem replicateRows_id : ∀ (ts : Path) (n : Node) (k : Nat) (u : List Info), (nodeOf ts n).isSome →
    Under u n → (∀ e ∈ flatList u n.children, CleanPath e.2) → replicateRows ts n k = (n, k) := by
  intro ts
  induction ts with
  | nil => intro n k u _ _ _; rfl
  | cons t ts ih =>
    intro n k u h hu hcl
    simp only [nodeOf] at h
    cases hc : child n t with
    | none => rw [hc] at h; cases h
    | some c =>
      rw [hc] at h
      unfold replicateRows
      split
      next ht =>
        rw [hc]
        simp only
        rw [mapIds_id]
        · cases n; rfl
        intro d hd k
        have hk := hcl (d.id, d.info :: u) ((flatList_sublist_of_mem u hd).subset (flat_head_mem u d))
        rcases hu with ⟨_, ho⟩ | ⟨i, v, rfl, hi⟩
        · rw [ho] at ht
          cases ht
        · have := hk.2 (hi.trans ht)
          rw [if_neg (by simp [this.2])]
      next ht =>
        obtain ⟨a, b, h1, h2⟩ := upsert_present (f := replicateRows ts)
          (mk := fun id => empty id [] []) n.children k c hc
        rw [h2]
        have hcm : c ∈ n.children := by rw [h1]; simp
        rw [ih c k (c.info :: u) h (.inr ⟨_, _, rfl, rfl⟩) (fun e he => hcl e
          ((flatList_sublist_of_mem u hcm).subset (by rw [flat_eq]; simp [he])))]
        simp only [← h1]
        cases n; rfl

/-! ### Orderly declarations -/

/-- The tree mirrors the declarations. -/
structure Tidy (D : List Decl) (T : Tree) : Prop where
  wf : WF T
  clean : ∀ e ∈ Tree.flat T, CleanPath e.2
  rootObj : T.root.info.type = tObject
  present : ∀ us, (nodeOf us T.root).isSome ↔
    us = [] ∨ ∃ d ∈ D, us <+: d.path ∨ (d.type = tTable ∧ us = d.path ++ [template])
  declared : ∀ d ∈ D, ∀ m, nodeOf d.path T.root = some m → m.info.type = d.type ∧
    m.info.cb = (if d.type = tTable then { d.cb with method := none, sync := d.cb.method }
      else { d.cb with sync := none })
  undeclared : ∀ us m, (∀ d ∈ D, d.path ≠ us) → nodeOf us T.root = some m → m.info.type = tObject

theorem tidy_init : Tidy [] Tree.init := by
  refine ⟨⟨?_, ?_, ?_, ?_, ?_⟩, ?_, rfl, ?_, ?_, ?_⟩ <;> try simp [Tree.flat, Tree.init, flatList]
  · intro us
    cases us <;> simp [nodeOf, child]
  · intro us m h
    cases us with
    | nil => simp [nodeOf] at h; rw [← h]
    | cons t us => simp [nodeOf, child] at h

theorem junction_of : ∀ (ts : Path) (n : Node),
    (∀ pre t r m, ts = pre ++ t :: r → nodeOf pre n = some m → child m t = none → m.info.type = tObject) →
    junction ts n := by
  intro ts
  induction ts with
  | nil => intro n _; trivial
  | cons t ts ih =>
    intro n h
    unfold junction
    split
    next c hc =>
      apply ih
      intro pre u r m hts hm hcm
      exact h (t :: pre) u r m (by rw [hts]; rfl) (by simp only [nodeOf, hc]; exact hm) hcm
    next hc => exact h [] t ts n rfl rfl hc

theorem cut_ne (s : Bytes) : cut s ≠ [] := by
  cases s with
  | nil => simp [cut]
  | cons c cs =>
    rw [cut]
    split
    · simp
    · split <;> simp

theorem strtok_cut (s acc : Bytes) :
    strtok acc s = match cut s with
      | [] => []
      | w :: ws => ((acc.reverse ++ w) :: ws).filter (· ≠ []) := by
  induction s generalizing acc with
  | nil =>
    rw [strtok, cut]
    by_cases h : acc = []
    · simp [h]
    · simp [h]
  | cons c cs ih =>
    rw [strtok, cut]
    by_cases hc : c = dot
    · have h2 : c = 46 := hc
      rw [if_pos hc, if_pos h2]
      have ih0 := ih []
      have hcut := cut_ne cs
      cases hk : cut cs with
      | nil => exact absurd hk hcut
      | cons w ws =>
        rw [hk] at ih0
        simp only [List.reverse_nil, List.nil_append] at ih0
        by_cases h : acc = []
        · rw [if_pos h, ih0]; simp [h]
        · rw [if_neg h, ih0]
          simp only [List.append_nil]
          rw [List.filter_cons (x := acc.reverse), if_pos (by simpa using h)]
    · have h2 : ¬ c = 46 := hc
      rw [if_neg hc, if_neg h2, ih]
      cases hk : cut cs with
      | nil => exact absurd hk (cut_ne cs)
      | cons w ws => simp

theorem tokens_pieces (s : Bytes) : tokens s = pieces s := by
  unfold tokens pieces
  rw [strtok_cut]
  cases hk : cut s with
  | nil => exact absurd hk (cut_ne s)
  | cons w ws => simp

theorem drop_suffix (t s : Bytes) (k : Nat) (hk : t.length = k) (hl : k ≤ s.length) :
    s.drop (s.length - k) = t ↔ t <:+ s := by
  subst hk
  constructor
  · intro h; rw [← h]; exact List.drop_suffix _ _
  · intro h
    obtain ⟨a, rfl⟩ := h
    simp

theorem tableName_stem (s : Bytes) : tableName s = stem s := by
  have e5 : dot :: template ++ [dot] = [46, 123, 105, 125, 46] := rfl
  have e4 : dot :: template = [46, 123, 105, 125] := rfl
  unfold tableName stem
  by_cases h : s.length > 4
  · rw [if_pos h]
    by_cases h5 : [46, 123, 105, 125, 46] <:+ s
    · rw [if_pos h5, if_pos ((drop_suffix _ s 5 rfl (by omega)).2 (e5 ▸ h5))]
    · rw [if_neg h5, if_neg (fun h' => h5 (e5 ▸ (drop_suffix _ s 5 rfl (by omega)).1 h'))]
      by_cases h4 : [46, 123, 105, 125] <:+ s
      · rw [if_pos ((drop_suffix _ s 4 rfl (by omega)).2 (e4 ▸ h4)), if_pos ⟨h4, h⟩]
      · rw [if_neg (fun h' => h4 (e4 ▸ (drop_suffix _ s 4 rfl (by omega)).1 h')), if_neg (fun h' => h4 h'.1)]
  · rw [if_neg h, if_neg (fun h' => by have := h'.length_le; simp at this; omega), if_neg (fun h' => h h'.2)]

theorem Tidy.insert {D : List Decl} {T : Tree} {d : Decl} (h : Tidy D T) (hf : Fits D d.path) :
    Tidy (D ++ [d]) (Element.insert T d.name d.type d.cb) := by
  generalize hp : d.path = p at hf
  have hnone : nodeOf p T.root = none := by
    rw [← Option.not_isSome_iff_eq_none, h.present]
    rintro (h1 | ⟨q, hq, h1 | ⟨h1, h2⟩⟩)
    · exact hf.nonempty h1
    · exact hf.fresh q hq h1
    · obtain ⟨_, r, hr, h3⟩ := hf.above q hq (by rw [h2]; exact List.prefix_append _ _)
      rw [h2] at h3
      have := List.append_cancel_left h3
      simp only [List.cons.injEq, true_and] at this
      exact hr this.symm
  have hjun : junction p T.root := by
    apply junction_of
    intro pre t r m hpre hm hc
    apply Decidable.byContradiction
    intro hne
    have hdecl : ∃ q ∈ D, q.path = pre := by
      apply Classical.byContradiction
      intro hno
      exact hne (h.undeclared pre m (fun q hq he => hno ⟨q, hq, he⟩) hm)
    obtain ⟨q, hq, rfl⟩ := hdecl
    obtain ⟨h1, r', hr', h2⟩ := hf.above q hq (by rw [hpre]; exact List.prefix_append _ _)
    rw [hpre] at h2
    have h3 := List.append_cancel_left h2
    simp only [List.cons.injEq] at h3
    have hthere := (h.present (q.path ++ [template])).mpr (.inr ⟨q, hq, .inr ⟨h1, rfl⟩⟩)
    rw [nodeOf_append, hm] at hthere
    simp only [Option.bind_some, nodeOf, ← h3.1, hc] at hthere
    cases hthere
  have hunder : Under [] T.root := .inl ⟨rfl, h.rootObj⟩
  obtain ⟨hk, E, hE1, hE2, hE3⟩ := insert_flat d.type d.cb p T.root T.next [] hnone hjun hunder
  obtain ⟨id, full, k', m0, hm0, hm0'⟩ := nodeOf_below d.type d.cb p T.root T.next hnone
  obtain ⟨hn1, hn2, hn3⟩ := insertAt_name d.type d.cb p T.root T.next
  have hn3 := hn3 hf.nonempty
  generalize hr : insertAt (setElement d.type d.cb) p T.root T.next = r at hk hE1 hE2 hm0 hn2 hn3
  have hclean : ∀ e ∈ flatList [] r.1.children, CleanPath e.2 := by
    intro e he
    rcases List.mem_append.mp (hE1.mem_iff.mp he) with h1 | h1
    · exact h.clean e h1
    · exact hE3 e h1
  have hrep : replicateRows p r.1 r.2 = (r.1, r.2) :=
    replicateRows_id p r.1 r.2 [] (by rw [hm0]; rfl) (.inl ⟨rfl, by rw [hn3]; exact h.rootObj⟩) hclean
  have hT : Element.insert T d.name d.type d.cb = { T with root := r.1, next := r.2 } := by
    unfold Element.insert
    simp only
    have hp' : tokens (if d.type = tTable then tableName d.name else d.name) = p := by
      rw [tokens_pieces, tableName_stem]; exact hp
    rw [hp', hr, hrep]
  rw [hT]
  have hids : ∀ e ∈ E, T.next ≤ e.1 ∧ e.1 < r.2 := by
    intro e he
    have : e.1 ∈ E.map (·.1) := List.mem_map_of_mem he
    rw [hE2, List.mem_range'_1] at this
    omega
  have hperm : (Tree.flat { T with root := r.1, next := r.2 }).Perm (Tree.flat T ++ E) := hE1
  have hbeside : ∀ us, ¬ us <+: p → ¬ p <+: us → nodeOf us r.1 = nodeOf us T.root := by
    intro us h1 h2
    rw [← hr]
    exact nodeOf_beside d.type d.cb p us T.root T.next h1 h2
  have habove : ∀ us s, p = us ++ s → s ≠ [] → ∃ m, nodeOf us r.1 = some m ∧
      (∀ m', nodeOf us T.root = some m' → m.info = m'.info) ∧
      (nodeOf us T.root = none → m.info.type = tObject) := by
    intro us s h1 h2
    rw [← hr, h1]
    exact nodeOf_above d.type d.cb us s T.root T.next h2
  have hbelow : ∀ s, nodeOf (p ++ s) r.1 = nodeOf s m0 := by
    intro s
    rw [nodeOf_append, hm0]
    rfl
  have hcases : ∀ us : Path, (¬ us <+: p ∧ ¬ p <+: us) ∨ (∃ s, p = us ++ s ∧ s ≠ []) ∨ ∃ s, us = p ++ s := by
    intro us
    rcases Classical.em (p <+: us) with ⟨s, hs⟩ | h1
    · exact .inr (.inr ⟨s, hs.symm⟩)
    · rcases Classical.em (us <+: p) with ⟨s, hs⟩ | h2
      · refine .inr (.inl ⟨s, hs.symm, ?_⟩)
        rintro rfl
        exact h1 ⟨[], by simpa using hs.symm⟩
      · exact .inl ⟨h2, h1⟩
  have hm0none : ∀ us, nodeOf (p ++ us) T.root = none := by
    intro us
    rw [nodeOf_append, hnone]
    rfl
  have hchild : ∀ s, s ≠ [] → ((nodeOf s m0).isSome ↔ d.type = tTable ∧ s = [template]) := by
    intro s hs
    cases s with
    | nil => exact absurd rfl hs
    | cons t s =>
      rw [hm0']
      unfold setElement
      split
      next ht =>
        simp only [nodeOf, child]
        rcases Decidable.em (t = template) with rfl | hne
        · rw [List.find?_cons_of_pos (by simp [empty])]
          simp only
          cases s with
          | nil => simp [nodeOf, ht]
          | cons v s => simp [nodeOf, empty, child]
        · rw [List.find?_cons_of_neg (by simp [empty, Ne.symm hne])]
          simp [hne]
      next ht => simp [nodeOf, child, empty, ht]
  refine ⟨⟨?_, ?_, ?_, ?_, ?_⟩, hclean, ?_, ?_, ?_, ?_⟩
  · rw [(hperm.map _).nodup_iff, List.map_append, List.nodup_append]
    refine ⟨h.wf.nodup, by rw [hE2]; exact List.nodup_range', ?_⟩
    rintro a ha b hb rfl
    obtain ⟨e, he, rfl⟩ := List.mem_map.mp ha
    obtain ⟨f, hf, hfe⟩ := List.mem_map.mp hb
    have := h.wf.below e he
    have := (hids f hf).1
    omega
  · show r.1.id ∉ _
    rw [hn2, (hperm.map _).mem_iff, List.map_append, List.mem_append]
    rintro (h1 | h1)
    · exact h.wf.root h1
    · obtain ⟨f, hf, hfe⟩ := List.mem_map.mp h1
      have := (hids f hf).1
      have := h.wf.rootBelow
      omega
  · intro e he
    show e.1 < r.2
    rcases List.mem_append.mp (hperm.mem_iff.mp he) with h1 | h1
    · have := h.wf.below e h1
      omega
    · exact (hids e h1).2
  · show r.1.id < r.2
    rw [hn2]
    have := h.wf.rootBelow
    omega
  · intro e he
    exact clean_ok (hclean e he)
  · show r.1.info.type = tObject
    rw [hn3]
    exact h.rootObj
  · intro us
    show (nodeOf us r.1).isSome ↔ _
    have hmem : (∃ q ∈ D ++ [d], us <+: q.path ∨ (q.type = tTable ∧ us = q.path ++ [template])) ↔
        (∃ q ∈ D, us <+: q.path ∨ (q.type = tTable ∧ us = q.path ++ [template])) ∨
        (us <+: p ∨ (d.type = tTable ∧ us = p ++ [template])) := by
      simp only [List.mem_append, List.mem_singleton, ← hp]
      constructor
      · rintro ⟨q, hq | rfl, h⟩
        · exact .inl ⟨q, hq, h⟩
        · exact .inr h
      · rintro (⟨q, hq, h⟩ | h)
        · exact ⟨q, .inl hq, h⟩
        · exact ⟨d, .inr rfl, h⟩
    rw [hmem]
    rcases hcases us with ⟨h1, h2⟩ | ⟨s, h1, h2⟩ | ⟨s, rfl⟩
    · rw [hbeside us h1 h2, h.present us]
      constructor
      · rintro (h3 | h3)
        · exact .inl h3
        · exact .inr (.inl h3)
      · rintro (h3 | h3 | h3 | h3)
        · exact .inl h3
        · exact .inr h3
        · exact absurd h3 h1
        · exact absurd (h3.2 ▸ List.prefix_append _ _) h2
    · obtain ⟨m, hm, -⟩ := habove us s h1 h2
      rw [hm]
      simp only [Option.isSome_some, true_iff]
      exact .inr (.inr (.inl ⟨s, h1.symm⟩))
    · rw [hbelow s]
      have hold := h.present (p ++ s)
      rw [hm0none s] at hold
      simp only [Option.isSome_none, Bool.false_eq_true, false_iff, not_or] at hold
      cases s with
      | nil => simp [nodeOf]
      | cons t s =>
        rw [hchild (t :: s) (by simp)]
        constructor
        · rintro ⟨h1, h2⟩
          exact .inr (.inr (.inr ⟨h1, by rw [h2]⟩))
        · rintro (h1 | h1 | h1 | h1)
          · exact absurd h1 hold.1
          · exact absurd h1 hold.2
          · have := h1.length_le
            simp at this
            omega
          · exact ⟨h1.1, List.append_cancel_left h1.2⟩
  · intro q hq m hm
    rcases List.mem_append.mp hq with hq | hq
    · have hm' : nodeOf q.path r.1 = some m := hm
      rcases hcases q.path with ⟨h1, h2⟩ | ⟨s, h1, h2⟩ | ⟨s, h1⟩
      · rw [hbeside _ h1 h2] at hm'
        exact h.declared q hq m hm'
      · obtain ⟨m1, k1, k2, -⟩ := habove q.path s h1 h2
        rw [k1] at hm'
        cases hm'
        have hthere := (h.present q.path).mpr (.inr ⟨q, hq, .inl (List.prefix_refl _)⟩)
        obtain ⟨m', hm'⟩ := Option.isSome_iff_exists.mp hthere
        have := h.declared q hq m' hm'
        rw [k2 m' hm']
        exact this
      · exact absurd (h1 ▸ List.prefix_append _ _) (hf.fresh q hq)
    · rw [List.mem_singleton] at hq
      subst hq
      have hm' : nodeOf q.path r.1 = some m := hm
      rw [hp, hm0] at hm'
      cases hm'
      rw [hm0']
      unfold setElement
      split <;> simp_all [empty]
  · intro us m hno hm
    have hm' : nodeOf us r.1 = some m := hm
    have hno1 : ∀ q ∈ D, q.path ≠ us := fun q hq => hno q (by simp [hq])
    have hno2 : p ≠ us := by rw [← hp]; exact hno d (by simp)
    rcases hcases us with ⟨h1, h2⟩ | ⟨s, h1, h2⟩ | ⟨s, rfl⟩
    · rw [hbeside us h1 h2] at hm'
      exact h.undeclared us m hno1 hm'
    · obtain ⟨m1, k1, k2, k3⟩ := habove us s h1 h2
      rw [k1] at hm'
      cases hm'
      cases ho : nodeOf us T.root with
      | none => exact k3 ho
      | some m' =>
        rw [k2 m' ho]
        exact h.undeclared us m' hno1 ho
    · rw [hbelow s] at hm'
      have hs : s ≠ [] := by rintro rfl; simp at hno2
      have := (hchild s hs).mp (by rw [hm']; rfl)
      rw [this.2, hm0'] at hm'
      unfold setElement at hm'
      rw [if_pos this.1] at hm'
      simp [nodeOf, child, empty] at hm'
      rw [← hm']

theorem tidy_declare {D : List Decl} (h : Orderly D) : Tidy D (declare D) := by
  have key : ∀ (D2 D1 : List Decl) (T : Tree), Tidy D1 T →
      (∀ A d B, D1 ++ D2 = A ++ d :: B → Fits A d.path) →
      Tidy (D1 ++ D2) (D2.foldl (fun T d => Element.insert T d.name d.type d.cb) T) := by
    intro D2
    induction D2 with
    | nil => intro D1 T ht _; simpa using ht
    | cons d D2 ih =>
      intro D1 T ht hf
      have := ih (D1 ++ [d]) (Element.insert T d.name d.type d.cb) (ht.insert (hf D1 d D2 rfl))
        (by simpa using hf)
      simpa using this
  exact key D [] Tree.init tidy_init h

end Verif.Subs
