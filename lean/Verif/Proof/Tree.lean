import Verif.Model.Subscriptions

/-!
# The element tree, flattened

`flat up n`: every node of the tree with its data and that of the nodes above it. The walks of the model
are filters of this list, and rows are added to and taken from it as a whole.
-/

namespace Verif.Subs

open Verif Verif.Element Verif.TokenChain

mutual

/-- A node and all below it, each with its ancestry. -/
def flat (up : List Info) : Node → List (Nat × List Info)
  | ⟨a, i, cs⟩ => (a, i :: up) :: flatList (i :: up) cs

/-- The same for a list of nodes. -/
def flatList (up : List Info) : List Node → List (Nat × List Info)
  | [] => []
  | n :: ns => flat up n ++ flatList up ns

end

/-- A node is a row template. -/
def isTemplate (l : List Info) : Bool := parentIsTable l && (l.head?.map (·.name)) = some template

/-- A node is a row template or below one. -/
def inTemplate : List Info → Bool
  | [] => false
  | i :: up => isTemplate (i :: up) || inTemplate up

/-- What the walks pick. -/
def picked (e : Nat × List Info) : Bool := (e.2.head?.map (·.type)) ≠ some tObject && !inTemplate e.2.tail

theorem flatList_append (up : List Info) (a b : List Node) :
    flatList up (a ++ b) = flatList up a ++ flatList up b := by
  induction a with
  | nil => rfl
  | cons n a ih => simp only [List.cons_append, flatList, ih, List.append_assoc]

mutual

/-- Everything at or below a node has an ancestry ending in what is above the node. -/
theorem flat_ancestry (up : List Info) : ∀ (n : Node) (e), e ∈ flat up n → ∃ w, e.2 = w ++ n.info :: up
  | ⟨a, i, cs⟩, e, he => by
    unfold flat at he
    rcases List.mem_cons.mp he with rfl | he
    · exact ⟨[], rfl⟩
    · obtain ⟨c, _, w, hw⟩ := flatList_ancestry (i :: up) cs e he
      exact ⟨w ++ [c.info], by simp [hw]⟩

theorem flatList_ancestry (up : List Info) : ∀ (cs : List Node) (e), e ∈ flatList up cs →
    ∃ c ∈ cs, ∃ w, e.2 = w ++ c.info :: up
  | [], e, he => by cases he
  | n :: ns, e, he => by
    unfold flatList at he
    rcases List.mem_append.mp he with he | he
    · obtain ⟨w, hw⟩ := flat_ancestry up n e he
      exact ⟨n, by simp, w, hw⟩
    · obtain ⟨c, hc, w, hw⟩ := flatList_ancestry up ns e he
      exact ⟨c, by simp [hc], w, hw⟩

end

theorem inTemplate_append (w l : List Info) (h : inTemplate l = true) : inTemplate (w ++ l) = true := by
  induction w with
  | nil => exact h
  | cons i w ih => simp [inTemplate, ih]

theorem isTemplate_cons (i : Info) (up : List Info) :
    isTemplate (i :: up) = true ↔ (parentIsTable (i :: up) ∧ i.name = template) := by
  simp [isTemplate]

/-- Nothing below a row template is picked. -/
theorem picked_below {up : List Info} (h : inTemplate up = true) (cs : List Node) :
    (flatList up cs).filter picked = [] := by
  rw [List.filter_eq_nil_iff]
  intro e he
  obtain ⟨c, _, w, hw⟩ := flatList_ancestry up cs e he
  have : inTemplate e.2.tail = true := by
    rw [hw]
    cases w with
    | nil => exact h
    | cons x w =>
      have := inTemplate_append (w ++ [c.info]) up h
      simpa using this
  simp [picked, this]

mutual

/-- The walk over what is not below row templates. -/
theorem visit_flat (up : List Info) (h : inTemplate up = false) : ∀ n : Node,
    visit up n = (flat up n).filter picked
  | ⟨a, i, cs⟩ => by
    unfold visit flat
    have hp : picked (a, i :: up) = decide (i.type ≠ tObject) := by simp [picked, h]
    rw [List.filter_cons, hp]
    have hrest : (if parentIsTable (i :: up) ∧ i.name = template then [] else visitList (i :: up) cs) =
        (flatList (i :: up) cs).filter picked := by
      rcases Decidable.em (isTemplate (i :: up) = true) with ht | ht
      · rw [if_pos ((isTemplate_cons i up).mp ht), picked_below (by simp [inTemplate, ht])]
      · rw [if_neg (fun hc => ht ((isTemplate_cons i up).mpr hc))]
        exact visitList_flat (i :: up) (by simp only [inTemplate, h, Bool.or_false]; simpa using ht) cs
    rw [hrest]
    rcases Decidable.em (i.type = tObject) with hi | hi
    · simp [hi]
    · simp [hi]

theorem visitList_flat (up : List Info) (h : inTemplate up = false) : ∀ cs : List Node,
    visitList up cs = (flatList up cs).filter picked
  | [] => rfl
  | n :: ns => by
    unfold visitList flatList
    rw [List.filter_append, visit_flat up h n, visitList_flat up h ns]

end

mutual

/-- Found by address: it is listed, with all below it. -/
theorem findUp_sound (id : Nat) (up : List Info) : ∀ (n : Node) (l : List Info) (m : Node),
    findUp id up n = some (l, m) →
    m.id = id ∧ ∃ u, l = m.info :: u ∧ (flat u m).Sublist (flat up n)
  | ⟨a, i, cs⟩, l, m, h => by
    unfold findUp at h
    split at h
    next ha =>
      cases h
      exact ⟨ha, up, rfl, .refl _⟩
    next ha =>
      obtain ⟨h1, u, h2, h3⟩ := findUpList_sound id (i :: up) cs l m h
      refine ⟨h1, u, h2, ?_⟩
      conv => rhs; unfold flat
      exact h3.cons _

theorem findUpList_sound (id : Nat) (up : List Info) : ∀ (cs : List Node) (l : List Info) (m : Node),
    findUpList id up cs = some (l, m) →
    m.id = id ∧ ∃ u, l = m.info :: u ∧ (flat u m).Sublist (flatList up cs)
  | [], l, m, h => by cases h
  | n :: ns, l, m, h => by
    unfold findUpList at h
    split at h
    next r hr =>
      cases h
      obtain ⟨h1, u, h2, h3⟩ := findUp_sound id up n l m hr
      refine ⟨h1, u, h2, ?_⟩
      conv => rhs; unfold flatList
      exact h3.trans (List.sublist_append_left _ _)
    next hr =>
      obtain ⟨h1, u, h2, h3⟩ := findUpList_sound id up ns l m h
      refine ⟨h1, u, h2, ?_⟩
      conv => rhs; unfold flatList
      exact h3.trans (List.sublist_append_right _ _)

end

theorem flat_head_mem (u : List Info) (m : Node) : (m.id, m.info :: u) ∈ flat u m := by
  cases m
  simp [flat]

mutual

/-- What is listed is found. -/
theorem findUp_complete (id : Nat) (up : List Info) : ∀ (n : Node), id ∈ (flat up n).map (·.1) →
    (findUp id up n).isSome
  | ⟨a, i, cs⟩, h => by
    unfold findUp
    split
    · rfl
    next ha =>
      apply findUpList_complete id (i :: up) cs
      unfold flat at h
      rcases List.mem_map.mp h with ⟨e, he, rfl⟩
      rcases List.mem_cons.mp he with rfl | he
      · exact absurd rfl ha
      · exact List.mem_map_of_mem he

theorem findUpList_complete (id : Nat) (up : List Info) : ∀ (cs : List Node),
    id ∈ (flatList up cs).map (·.1) → (findUpList id up cs).isSome
  | [], h => by simp [flatList] at h
  | n :: ns, h => by
    unfold findUpList
    split
    · rfl
    next hn =>
      apply findUpList_complete id up ns
      unfold flatList at h
      rw [List.map_append, List.mem_append] at h
      rcases h with h | h
      · have := findUp_complete id up n h
        rw [hn] at this
        cases this
      · exact h

end

/-- The nodes below the root. -/
def Tree.flat (T : Tree) : List (Nat × List Info) := flatList [] T.root.children

theorem locate_sound {T : Tree} {id : Nat} {l : List Info} {m : Node} (h : locate T id = some (l, m)) :
    m.id = id ∧ ∃ u, l = m.info :: u ∧ (flat u m).Sublist (Tree.flat T) ∧ (id, l) ∈ Tree.flat T := by
  obtain ⟨h1, u, h2, h3⟩ := findUpList_sound id [] _ l m h
  refine ⟨h1, u, h2, h3, h3.subset ?_⟩
  have := flat_head_mem u m
  rw [h1] at this
  rw [h2]
  exact this

theorem locate_isSome {T : Tree} {id : Nat} :
    (locate T id).isSome ↔ id ∈ (Tree.flat T).map (·.1) := by
  constructor
  · intro h
    obtain ⟨⟨l, m⟩, hx⟩ := Option.isSome_iff_exists.mp h
    obtain ⟨_, _, _, _, hm⟩ := locate_sound hx
    exact List.mem_map.mpr ⟨_, hm, rfl⟩
  · exact findUpList_complete id [] _

/-- The elements the walks see. -/
theorem visit_root (T : Tree) : visitList [] T.root.children = (Tree.flat T).filter picked :=
  visitList_flat [] rfl _

/-! ### Adding a child -/

/-- With one more child. -/
def addChild (row : Node) (n : Node) : Node := { n with children := n.children ++ [row] }

mutual

theorem modify_absent (id : Nat) (f : Node → Node) (up : List Info) : ∀ n : Node,
    id ∉ (flat up n).map (·.1) → Element.modify id f n = n
  | ⟨a, i, cs⟩, h => by
    unfold flat at h
    simp only [List.map_cons, List.mem_cons, not_or] at h
    unfold Element.modify
    rw [if_neg (Ne.symm h.1), modifyList_absent id f (i :: up) cs h.2]

theorem modifyList_absent (id : Nat) (f : Node → Node) (up : List Info) : ∀ cs : List Node,
    id ∉ (flatList up cs).map (·.1) → modifyList id f cs = cs
  | [], _ => rfl
  | n :: ns, h => by
    unfold flatList at h
    simp only [List.map_append, List.mem_append, not_or] at h
    unfold modifyList
    rw [modify_absent id f up n h.1, modifyList_absent id f up ns h.2]

end

theorem nodup_fst {l : List (Nat × List Info)} (h : (l.map (·.1)).Nodup) {id : Nat} {x y : List Info}
    (hx : (id, x) ∈ l) (hy : (id, y) ∈ l) : x = y := by
  induction l with
  | nil => cases hx
  | cons e l ih =>
    simp only [List.map_cons, List.nodup_cons] at h
    rcases List.mem_cons.mp hx with hx | hx
    · rcases List.mem_cons.mp hy with hy | hy
      · exact (Prod.mk.inj (hx.trans hy.symm)).2
      · exact absurd (hx ▸ List.mem_map_of_mem (f := (·.1)) hy) h.1
    · rcases List.mem_cons.mp hy with hy | hy
      · exact absurd (hy ▸ List.mem_map_of_mem (f := (·.1)) hx) h.1
      · exact ih h.2 hx hy

mutual

/-- The new child and what is below it are added, nothing else changes. -/
theorem flat_modify (id : Nat) (row : Node) (up : List Info) : ∀ (n : Node) (l : List Info),
    ((flat up n).map (·.1)).Nodup → (id, l) ∈ flat up n →
    (flat up (Element.modify id (addChild row) n)).Perm (flat up n ++ flat l row)
  | ⟨a, i, cs⟩, l, hn, hl => by
    unfold Element.modify
    rcases Decidable.em (a = id) with ha | ha
    · rw [if_pos ha]
      have : l = i :: up := nodup_fst hn hl (by unfold flat; simp [ha])
      subst this
      simp only [addChild, flat, flatList_append, flatList, List.append_nil, List.cons_append]
      exact .refl _
    · rw [if_neg ha]
      unfold flat at hn hl
      simp only [List.map_cons, List.nodup_cons] at hn
      have hl' : (id, l) ∈ flatList (i :: up) cs := by
        rcases List.mem_cons.mp hl with h | h
        · exact absurd (congrArg Prod.fst h).symm ha
        · exact h
      have h2 := flatList_modify id row (i :: up) cs l hn.2 hl'
      rw [flat, flat]
      exact h2.cons _

theorem flatList_modify (id : Nat) (row : Node) (up : List Info) : ∀ (cs : List Node) (l : List Info),
    ((flatList up cs).map (·.1)).Nodup → (id, l) ∈ flatList up cs →
    (flatList up (modifyList id (addChild row) cs)).Perm (flatList up cs ++ flat l row)
  | [], l, _, hl => by cases hl
  | n :: ns, l, hn, hl => by
    unfold modifyList
    unfold flatList at hn hl ⊢
    rw [List.map_append, List.nodup_append] at hn
    rcases List.mem_append.mp hl with h | h
    · have habs : id ∉ (flatList up ns).map (·.1) := by
        intro hc
        exact hn.2.2 id (List.mem_map_of_mem (f := (·.1)) h) id hc rfl
      rw [modifyList_absent id _ up ns habs]
      have := flat_modify id row up n l hn.1 h
      refine (this.append_right _).trans ?_
      rw [List.append_assoc, List.append_assoc]
      exact List.Perm.append_left _ List.perm_append_comm
    · have habs : id ∉ (flat up n).map (·.1) := by
        intro hc
        exact hn.2.2 id hc id (List.mem_map_of_mem (f := (·.1)) h) rfl
      rw [modify_absent id _ up n habs, List.append_assoc]
      exact List.Perm.append_left _ (flatList_modify id row up ns l hn.2.1 h)

end

/-! ### Taking a node away -/

mutual

theorem unlink_absent (id : Nat) (up : List Info) : ∀ n : Node,
    id ∉ (flatList up n.children).map (·.1) → unlink id n = n
  | ⟨a, i, cs⟩, h => by
    unfold unlink
    rw [unlinkList_absent id up cs h]

theorem unlinkList_absent (id : Nat) (up : List Info) : ∀ cs : List Node,
    id ∉ (flatList up cs).map (·.1) → unlinkList id cs = cs
  | [], _ => rfl
  | n :: ns, h => by
    obtain ⟨a, i, cs⟩ := n
    unfold flatList at h
    simp only [List.map_append, List.mem_append, not_or, flat, List.map_cons, List.mem_cons] at h
    unfold unlinkList
    rw [if_neg (fun hc => h.1.1 hc.symm)]
    rw [unlink_absent id (i :: up) ⟨a, i, cs⟩ h.1.2, unlinkList_absent id up ns h.2]

end

theorem findUp_self {id : Nat} {up : List Info} {n : Node} (h : n.id = id) :
    findUp id up n = some (n.info :: up, n) := by
  obtain ⟨a, i, cs⟩ := n
  unfold findUp
  rw [if_pos h]

mutual

theorem flat_unlink (id : Nat) (up : List Info) : ∀ (n : Node) (l : List Info) (m : Node) (u : List Info),
    ((flat up n).map (·.1)).Nodup → n.id ≠ id → findUp id up n = some (l, m) → l = m.info :: u →
    (flat up n).Perm (flat up (unlink id n) ++ flat u m)
  | ⟨a, i, cs⟩, l, m, u, hn, ha, h, hl => by
    unfold findUp at h
    rw [if_neg ha] at h
    unfold unlink
    unfold flat at hn
    simp only [List.map_cons, List.nodup_cons] at hn
    have h2 := flatList_unlink id (i :: up) cs l m u hn.2 h hl
    rw [flat, flat]
    exact h2.cons _

theorem flatList_unlink (id : Nat) (up : List Info) : ∀ (cs : List Node) (l : List Info) (m : Node)
    (u : List Info),
    ((flatList up cs).map (·.1)).Nodup → findUpList id up cs = some (l, m) → l = m.info :: u →
    (flatList up cs).Perm (flatList up (unlinkList id cs) ++ flat u m)
  | [], l, m, u, _, h, _ => by cases h
  | n :: ns, l, m, u, hn, h, hl => by
    unfold findUpList at h
    unfold unlinkList
    rcases Decidable.em (n.id = id) with ha | ha
    · rw [if_pos ha]
      rw [findUp_self ha] at h
      simp only [Option.some.injEq, Prod.mk.injEq] at h
      obtain ⟨rfl, rfl⟩ := h
      cases hl
      rw [flatList]
      exact List.perm_append_comm
    · rw [if_neg ha]
      unfold flatList at hn ⊢
      rw [List.map_append, List.nodup_append] at hn
      split at h
      next r hr =>
        cases h
        have hmem : id ∈ (flat up n).map (·.1) := by
          obtain ⟨h1, u', h2, h3⟩ := findUp_sound id up n l m hr
          exact List.mem_map.mpr ⟨_, h3.subset (flat_head_mem u' m), h1⟩
        have habs : id ∉ (flatList up ns).map (·.1) := fun hc => hn.2.2 id hmem id hc rfl
        rw [unlinkList_absent id up ns habs]
        refine ((flat_unlink id up n l m u hn.1 ha hr hl).append_right _).trans ?_
        rw [List.append_assoc, List.append_assoc]
        exact List.Perm.append_left _ List.perm_append_comm
      next hr =>
        have habs : id ∉ (flat up n).map (·.1) := by
          intro hc
          have := findUp_complete id up n hc
          rw [hr] at this
          cases this
        have hne : id ∉ (flatList (n.info :: up) n.children).map (·.1) := by
          intro hc
          apply habs
          cases n
          unfold flat
          exact List.mem_map.mpr (by
            obtain ⟨e, he, h⟩ := List.mem_map.mp hc
            exact ⟨e, by simp at he ⊢; exact .inr he, h⟩)
        rw [unlink_absent id (n.info :: up) n hne, List.append_assoc]
        exact List.Perm.append_left _ (flatList_unlink id up ns l m u hn.2.1 h hl)

end

/-! ### Copies -/

/-- Name and type. -/
def kindOf (i : Info) : Element.Token × Nat := (i.name, i.type)

theorem range'_split {a b c : Nat} (h1 : a ≤ b) (h2 : b ≤ c) :
    List.range' a (b - a) ++ List.range' b (c - b) = List.range' a (c - a) := by
  have := List.range'_append_1 (s := a) (m := b - a) (n := c - b)
  rw [show a + (b - a) = b by omega, show b - a + (c - b) = c - a by omega] at this
  exact this

theorem dup_info (full : Path) (name : Element.Token) : ∀ (n : Node) (k : Nat),
    (dup full name n k).1.info = { n.info with name := name, full := full, alias := none } ∧
    (dup full name n k).1.id = k ∧ (dup full name n k).1.children = (dupList full n.children (k + 1)).1 ∧
    (dup full name n k).2 = (dupList full n.children (k + 1)).2
  | ⟨_, i, cs⟩, k => by
    unfold dup
    exact ⟨rfl, rfl, rfl, rfl⟩

mutual

/-- A copy's nodes get consecutive new addresses. -/
theorem dup_ids (full : Path) (name : Element.Token) (up : List Info) : ∀ (n : Node) (k : Nat),
    k ≤ (dup full name n k).2 ∧
    (flat up (dup full name n k).1).map (·.1) = List.range' k ((dup full name n k).2 - k)
  | ⟨a, i, cs⟩, k => by
    unfold dup
    obtain ⟨h1, h2⟩ := dupList_ids full ({ i with name := name, full := full, alias := none } :: up) cs (k + 1)
    simp only [flat, List.map_cons, h2]
    refine ⟨by omega, ?_⟩
    have : (dupList full cs (k + 1)).2 - k = ((dupList full cs (k + 1)).2 - (k + 1)) + 1 := by omega
    rw [this, List.range'_succ]

theorem dupList_ids (full : Path) (up : List Info) : ∀ (cs : List Node) (k : Nat),
    k ≤ (dupList full cs k).2 ∧
    (flatList up (dupList full cs k).1).map (·.1) = List.range' k ((dupList full cs k).2 - k)
  | [], k => by simp [dupList, flatList]
  | c :: cs, k => by
    unfold dupList
    obtain ⟨h1, h2⟩ := dup_ids (full ++ [c.info.name]) c.info.name up c k
    obtain ⟨h3, h4⟩ := dupList_ids full up cs (dup (full ++ [c.info.name]) c.info.name c k).2
    simp only [flatList, List.map_append, h2, h4]
    refine ⟨by omega, ?_⟩
    exact range'_split h1 h3

end

mutual

/-- A copy's nodes are of the same kinds, apart from the name of the topmost. -/
theorem dup_kinds (full : Path) (name : Element.Token) (up up' : List Info) : ∀ (n : Node) (k : Nat) (e'),
    e' ∈ flat up' (dup full name n k).1 → ∃ e ∈ flat up n, ∃ w w' i', e.2 = w ++ n.info :: up ∧
      e'.2 = w' ++ i' :: up' ∧ w.map kindOf = w'.map kindOf ∧ i'.type = n.info.type ∧ i'.name = name
  | ⟨a, i, cs⟩, k, e', h => by
    unfold dup at h
    simp only [flat] at h
    rcases List.mem_cons.mp h with rfl | h
    · exact ⟨(a, i :: up), by simp [flat], [], [], _, rfl, rfl, rfl, rfl, rfl⟩
    · obtain ⟨e, he, w, w', h1, h2, h3, -⟩ := dupList_kinds full (i :: up) _ cs (k + 1) e' h
      exact ⟨e, by rw [flat]; simp [he], w, w', _, h1, h2, h3, rfl, rfl⟩

theorem dupList_kinds (full : Path) (up up' : List Info) : ∀ (cs : List Node) (k : Nat) (e'),
    e' ∈ flatList up' (dupList full cs k).1 → ∃ e ∈ flatList up cs, ∃ w w', e.2 = w ++ up ∧
      e'.2 = w' ++ up' ∧ w.map kindOf = w'.map kindOf ∧ w ≠ []
  | [], k, e', h => by simp [dupList, flatList] at h
  | c :: cs, k, e', h => by
    unfold dupList at h
    simp only [flatList] at h
    rcases List.mem_append.mp h with h | h
    · obtain ⟨e, he, w, w', i', h1, h2, h3, h4, h5⟩ := dup_kinds _ _ up up' c k e' h
      refine ⟨e, by rw [flatList]; simp [he], w ++ [c.info], w' ++ [i'], by simp [h1], by simp [h2], ?_,
        by simp⟩
      simp [h3, kindOf, h4, h5]
    · obtain ⟨e, he, w, w', h1, h2, h3, h4⟩ := dupList_kinds full up up' cs _ e' h
      exact ⟨e, by rw [flatList]; simp [he], w, w', h1, h2, h3, h4⟩

end

/-! ### Well-formed trees -/

/-- Only objects and tables have something below them; below tables there are rows, which are objects; in a
row template, tables have no rows. -/
def OkPath : List Info → Prop
  | i :: p :: up => (p.type = tObject ∨ p.type = tTable) ∧ (p.type = tTable → i.type = tObject) ∧
      (p.type = tTable → inTemplate (p :: up) = true → i.name = template)
  | _ => True

/-- The same, with no rows anywhere. -/
def CleanPath : List Info → Prop
  | i :: p :: _ => (p.type = tObject ∨ p.type = tTable) ∧ (p.type = tTable → i.type = tObject ∧ i.name = template)
  | _ => True

/-- A tree as it should be. -/
structure WF (T : Tree) : Prop where
  nodup : ((Tree.flat T).map (·.1)).Nodup
  root : T.root.id ∉ (Tree.flat T).map (·.1)
  below : ∀ e ∈ Tree.flat T, e.1 < T.next
  rootBelow : T.root.id < T.next
  ok : ∀ e ∈ Tree.flat T, OkPath e.2

theorem clean_ok {l : List Info} (h : CleanPath l) : OkPath l := by
  match l, h with
  | [], _ => trivial
  | [_], _ => trivial
  | i :: p :: up, h => exact ⟨h.1, fun hp => (h.2 hp).1, fun hp _ => (h.2 hp).2⟩

mutual

/-- In a new row both walks meet the same elements. -/
theorem fresh_visit (up : List Info) (hup : up.head?.map (·.type) ≠ some tTable) : ∀ n : Node,
    (∀ e ∈ flat up n, CleanPath e.2) → fresh up n = visit up n
  | ⟨a, i, cs⟩, h => by
    have hp : parentIsTable (i :: up) = false := by
      cases up with
      | nil => rfl
      | cons p up => simpa [parentIsTable] using hup
    have hcs : ∀ e ∈ flatList (i :: up) cs, CleanPath e.2 := by
      intro e he
      exact h e (by rw [flat]; simp [he])
    unfold fresh visit
    rw [if_neg (c := parentIsTable (i :: up) = true ∧ i.name = template) (by simp [hp])]
    rcases Decidable.em (i.type = tObject) with hi | hi
    · rw [if_pos hi, if_neg (by simp [hi]), List.nil_append]
      exact freshList_visit (i :: up) (by simp [hi, tObject, tTable]) cs hcs
    · rw [if_neg hi, if_pos hi]
      have : visitList (i :: up) cs = [] := by
        have key : ∀ cs, (∀ e ∈ flatList (i :: up) cs, CleanPath e.2) → visitList (i :: up) cs = [] := by
          intro cs
          induction cs with
          | nil => intro _; rfl
          | cons c cs ih =>
            intro hcs
            have hc := hcs (c.id, c.info :: i :: up) (by
              rw [flatList]
              exact List.mem_append_left _ (flat_head_mem _ c))
            have ht : i.type = tTable := by
              rcases hc.1 with h | h
              · exact absurd h hi
              · exact h
            have hcc := hc.2 ht
            rw [visitList, ih (fun e he => hcs e (by rw [flatList]; simp [he])), List.append_nil]
            obtain ⟨b, j, ds⟩ := c
            unfold visit
            rw [if_neg (fun h => h hcc.1), if_pos ⟨by simp [parentIsTable, ht], hcc.2⟩]
            rfl
        exact key cs hcs
      rw [this, List.append_nil]

theorem freshList_visit (up : List Info) (hup : up.head?.map (·.type) ≠ some tTable) : ∀ cs : List Node,
    (∀ e ∈ flatList up cs, CleanPath e.2) → freshList up cs = visitList up cs
  | [], _ => rfl
  | n :: ns, h => by
    unfold freshList visitList
    rw [fresh_visit up hup n (fun e he => h e (by rw [flatList]; simp [he])),
      freshList_visit up hup ns (fun e he => h e (by rw [flatList]; simp [he]))]

end

/-! ### Rows -/

theorem child_mem {n c : Node} {t : Element.Token} (h : child n t = some c) : c ∈ n.children ∧ c.info.name = t := by
  unfold child at h
  have h1 := List.mem_of_find?_eq_some h
  have h2 := List.find?_some h
  exact ⟨h1, by simpa using h2⟩

theorem flatList_sublist_of_mem {c : Node} {cs : List Node} (up : List Info) (h : c ∈ cs) :
    (flat up c).Sublist (flatList up cs) := by
  induction cs with
  | nil => cases h
  | cons d cs ih =>
    rw [flatList]
    rcases List.mem_cons.mp h with rfl | h
    · exact List.sublist_append_left _ _
    · exact (ih h).trans (List.sublist_append_right _ _)

theorem flat_eq (up : List Info) (n : Node) : flat up n = (n.id, n.info :: up) :: flatList (n.info :: up) n.children := by
  cases n
  rw [flat]

theorem decimal_ne (n : Nat) : decimal n ≠ template := by
  intro h
  have h1 : (123 : UInt8) ∈ decimal n := by rw [h]; simp [template]
  unfold decimal at h1
  obtain ⟨c, hc, hcn⟩ := List.mem_map.mp h1
  have hd := Nat.isDigit_of_mem_toDigits (by omega) (by omega) hc
  simp only [Char.isDigit, Bool.and_eq_true, decide_eq_true_eq] at hd
  have h2 : c.toNat ≤ 57 := by
    have := hd.2
    exact UInt32.le_iff_toNat_le.mp this
  have h3 := congrArg UInt8.toNat hcn
  simp only [UInt8.toNat_ofNat'] at h3
  have : c.toNat % 256 = 123 := h3
  omega

/-- What adding a row does to the tree. -/
structure RowAdded (T T' : Tree) (up : List Info) (row : Node) : Prop where
  wf : WF T'
  perm : (Tree.flat T').Perm (Tree.flat T ++ flat up row)
  new : ∀ e ∈ flat up row, T.next ≤ e.1
  object : row.info.type = tObject
  out : inTemplate (row.info :: up) = false
  clean : ∀ e ∈ flatList (row.info :: up) row.children, CleanPath e.2

theorem instantiate_added {T T' : Tree} {id inst : Nat} {alias : Option Bytes} {up : List Info} {node row : Node}
    (hw : WF T) (hl : locate T id = some (up, node)) (ht : node.info.type = tTable)
    (hv : inTemplate up = false) (h : instantiate T node inst alias = some (T', row)) :
    RowAdded T T' up row ∧ T.next ≤ T'.next := by
  unfold instantiate at h
  split at h
  · cases h
  next tmpl htm =>
    obtain ⟨hid, u, hup, hsub, hmem⟩ := locate_sound hl
    obtain ⟨hc, hcn⟩ := child_mem htm
    simp only [Option.some.injEq, Prod.mk.injEq] at h
    obtain ⟨hT, hrow⟩ := h
    have htmem : (flat up tmpl).Sublist (Tree.flat T) := by
      refine List.Sublist.trans ?_ hsub
      rw [flat_eq u node, ← hup]
      exact (flatList_sublist_of_mem up hc).cons _
    have htk := hw.ok _ (htmem.subset (flat_head_mem up tmpl))
    have htobj : tmpl.info.type = tObject := by
      rw [hup] at htk
      exact htk.2.1 ht
    have htt : inTemplate (tmpl.info :: up) = true := by
      have : isTemplate (tmpl.info :: up) = true := by
        rw [isTemplate_cons, hup]
        exact ⟨by simp [parentIsTable, ht], hcn⟩
      simp [inTemplate, this]
    obtain ⟨hi1, hi2, hi3, hi4⟩ := dup_info (node.info.full ++ [decimal inst]) (decimal inst) tmpl T.next
    obtain ⟨hd1, hd2⟩ := dup_ids (node.info.full ++ [decimal inst]) (decimal inst) up tmpl T.next
    have hrid : row.id = T.next := by rw [← hrow]; exact hi2
    have hrname : row.info.name = decimal inst := by rw [← hrow]; simp [hi1]
    have hrtype : row.info.type = tObject := by rw [← hrow]; simp [hi1, htobj]
    have hrch : row.children = (dupList (node.info.full ++ [decimal inst]) tmpl.children (T.next + 1)).1 := by
      rw [← hrow]; exact hi3
    have hids : (flat up row).map (·.1) = List.range' T.next (T'.next - T.next) := by
      rw [← hT, ← hd2, flat_eq up row, flat_eq up (dup _ _ tmpl T.next).1, hrid, hrch, hi2, hi3]
      simp only [List.map_cons]
      rw [(dupList_ids _ _ _ _).2, (dupList_ids _ _ _ _).2]
    have hnext : T.next ≤ T'.next := by rw [← hT]; exact hd1
    have hout : inTemplate (row.info :: up) = false := by
      have : ¬ isTemplate (row.info :: up) = true := by
        rw [isTemplate_cons]
        rintro ⟨-, h⟩
        rw [hrname] at h
        exact decimal_ne inst h
      simp only [inTemplate, hv, Bool.or_false]
      simpa using this
    have hclean : ∀ e ∈ flatList (row.info :: up) row.children, CleanPath e.2 := by
      intro e' he'
      rw [hrch] at he'
      obtain ⟨e, he, w, w', h1, h2, h3, h4⟩ := dupList_kinds _ (tmpl.info :: up) _ _ _ e' he'
      have hek := hw.ok e (htmem.subset (by rw [flat_eq up tmpl]; simp [he]))
      rw [h1] at hek
      rw [h2]
      have hlen : w.length = w'.length := by simpa using congrArg List.length h3
      match w, w', h3, h4, hek, hlen with
      | [i], [i'], h3, _, hek, _ =>
        refine ⟨.inl hrtype, fun h => ?_⟩
        rw [hrtype] at h
        cases h
      | [i], _ :: _ :: _, _, _, _, h => simp at h
      | _ :: _ :: _, [_], _, _, _, h => simp at h
      | i :: p :: w, i' :: p' :: w', h3, _, hek, _ =>
        simp only [List.map_cons, List.cons.injEq, kindOf, Prod.mk.injEq] at h3
        obtain ⟨⟨hn, ht1⟩, ⟨-, ht2⟩, -⟩ := h3
        refine ⟨by rw [← ht2]; exact hek.1, fun h => ?_⟩
        rw [← ht2] at h
        rw [← ht1, ← hn]
        exact ⟨hek.2.1 h, hek.2.2 h (inTemplate_append (p :: w) (tmpl.info :: up) htt)⟩
    have hne : T.root.id ≠ node.id := by
      intro he
      apply hw.root
      rw [he, hid]
      exact List.mem_map.mpr ⟨_, hmem, rfl⟩
    have hroot : T'.root.children = modifyList node.id (addChild row) T.root.children ∧
        T'.root.id = T.root.id := by
      rw [← hT]
      simp only
      generalize T.root = r at hne
      obtain ⟨a, i, cs⟩ := r
      unfold Element.modify
      rw [if_neg hne]
      refine ⟨?_, rfl⟩
      simp only [← hrow]
      rfl
    have hperm : (Tree.flat T').Perm (Tree.flat T ++ flat up row) := by
      unfold Tree.flat
      rw [hroot.1]
      exact flatList_modify node.id row [] _ up hw.nodup (by rw [hid]; exact hmem)
    have hnew : ∀ e ∈ flat up row, T.next ≤ e.1 ∧ e.1 < T'.next := by
      intro e he
      have : e.1 ∈ (flat up row).map (·.1) := List.mem_map_of_mem he
      rw [hids, List.mem_range'_1] at this
      omega
    refine ⟨⟨⟨?_, ?_, ?_, ?_, ?_⟩, hperm, fun e he => (hnew e he).1, hrtype, hout, hclean⟩, hnext⟩
    · rw [(hperm.map _).nodup_iff, List.map_append, List.nodup_append]
      refine ⟨hw.nodup, by rw [hids]; exact List.nodup_range', ?_⟩
      rintro a ha b hb rfl
      obtain ⟨e, he, rfl⟩ := List.mem_map.mp ha
      obtain ⟨f, hf, hfe⟩ := List.mem_map.mp hb
      have := hw.below e he
      have := (hnew f hf).1
      omega
    · rw [hroot.2, (hperm.map _).mem_iff, List.map_append, List.mem_append]
      rintro (h | h)
      · exact hw.root h
      · obtain ⟨f, hf, hfe⟩ := List.mem_map.mp h
        have := (hnew f hf).1
        have := hw.rootBelow
        omega
    · intro e he
      rcases List.mem_append.mp (hperm.mem_iff.mp he) with h | h
      · have := hw.below e h
        omega
      · exact (hnew e h).2
    · rw [hroot.2]
      have := hw.rootBelow
      omega
    · intro e he
      rcases List.mem_append.mp (hperm.mem_iff.mp he) with h | h
      · exact hw.ok e h
      · rw [flat_eq] at h
        rcases List.mem_cons.mp h with rfl | h
        · rw [hup] at hv ⊢
          refine ⟨.inr ht, fun _ => hrtype, fun _ h => ?_⟩
          rw [hv] at h
          cases h
        · exact clean_ok (hclean e h)

theorem deleteRow_wf {T : Tree} {id : Nat} {up : List Info} {node : Node} (hw : WF T)
    (hl : locate T id = some (up, node)) :
    WF (deleteRow T node) ∧ ∃ u, up = node.info :: u ∧
      (Tree.flat T).Perm (Tree.flat (deleteRow T node) ++ flat u node) := by
  obtain ⟨hid, u, hup, hsub, hmem⟩ := locate_sound hl
  have hroot : (deleteRow T node).root.children = unlinkList node.id T.root.children ∧
      (deleteRow T node).root.id = T.root.id := by
    unfold deleteRow
    simp only
    generalize T.root = r
    obtain ⟨a, i, cs⟩ := r
    unfold unlink
    exact ⟨rfl, rfl⟩
  have hperm : (Tree.flat T).Perm (Tree.flat (deleteRow T node) ++ flat u node) := by
    unfold Tree.flat
    rw [hroot.1]
    exact flatList_unlink node.id [] _ up node u hw.nodup (by rw [hid]; exact hl) hup
  have hsubset : ∀ e ∈ Tree.flat (deleteRow T node), e ∈ Tree.flat T :=
    fun e he => hperm.mem_iff.mpr (List.mem_append_left _ he)
  refine ⟨⟨?_, ?_, ?_, ?_, ?_⟩, u, hup, hperm⟩
  · have := hw.nodup
    rw [(hperm.map _).nodup_iff, List.map_append, List.nodup_append] at this
    exact this.1
  · rw [hroot.2]
    intro h
    obtain ⟨e, he, h⟩ := List.mem_map.mp h
    exact hw.root (h ▸ List.mem_map_of_mem (hsubset e he))
  · intro e he
    exact hw.below e (hsubset e he)
  · rw [hroot.2]
    exact hw.rootBelow
  · intro e he
    exact hw.ok e (hsubset e he)

end Verif.Subs
