import Verif.Proof.RoutingConv

namespace Verif.Routing

open Verif Verif.Spec.Routing

/-! ## Routes below a topic -/

/-- `routeList2` at a path. -/
def belowAt (t : Topic) (p : Path) : List Nat := ((get p t).map (·.routes2)).getD []

theorem belowAt_cons (t : Topic) (n : Token) (p : Path) :
    belowAt t (n :: p) = ((child n t.children).map (fun c => belowAt c p)).getD [] := by
  simp only [belowAt, get]
  cases child n t.children <;> rfl

theorem belowAt_new (n : Token) (p : Path) : belowAt (newTopic n) p = [] := by
  cases p with
  | nil => rfl
  | cons m p => simp [belowAt_cons, newTopic, child]

theorem add_below (id : Nat) (dup : Bool) (ts : List Token) (created root : Bool) (path : Path)
    (t : Topic) (h : WF t) (a : Path) (hq : (add id dup ts created root path t).2 = .ok (path ++ a))
    (p : Path) :
    belowAt (add id dup ts created root path t).1 p =
      if p <+: a ∧ p ≠ a ∧ ¬ (root = true ∧ p = []) then addOnce (belowAt t p) id else belowAt t p := by
  induction ts generalizing created root path t a p with
  | nil =>
    rw [add] at hq ⊢
    split at hq
    · cases hq
    · rename_i hd
      rw [if_neg hd]
      have ha : a = [] := by
        simp only [Added.ok.injEq] at hq
        exact List.append_cancel_left (hq.symm.trans (List.append_nil path).symm)
      subst ha
      rw [if_neg (by rintro ⟨h1, h2, -⟩; exact h2 (List.prefix_nil.mp h1))]
      cases p with
      | nil => rfl
      | cons n p => simp [belowAt, get]
  | cons tok ts ih =>
    rw [add] at hq ⊢
    split at hq
    · cases hq
    · rename_i k pre c post hk hf
      obtain ⟨mid, h1, h2, h3, -⟩ := find_hit hf
      simp only [List.nil_append] at h1
      subst h1
      have hc : c ∈ t.children := by rw [h2]; simp
      have hname := add_name id dup ts false false (path ++ [c.name]) c
      have hnd := h.names
      rw [h2] at hnd
      have hcc : child c.name t.children = some c := child_of_mem h.names hc
      have hch : ∀ n, child n
          (pre ++ (add id dup ts false false (path ++ [c.name]) c).1 :: post) =
          if n = c.name then some (add id dup ts false false (path ++ [c.name]) c).1
          else child n t.children := by
        intro n
        rw [child_replace hname hnd, ← h2]
      dsimp only at hq
      cases hr : (add id dup ts false false (path ++ [c.name]) c).2 with
      | protocolError => rw [hr] at hq; cases hq
      | duplicate => rw [hr] at hq; cases hq
      | ok q0 =>
        rw [hr] at hq
        simp only [Added.ok.injEq] at hq
        subst hq
        obtain ⟨-, hs, -⟩ := add_spec id dup ts false false (path ++ [c.name]) c (h.sub c hc)
        obtain ⟨a', ha, -⟩ := hs _ hr
        have hqa : a = c.name :: a' := by
          rw [List.append_assoc] at ha
          exact List.append_cancel_left ha
        subst hqa
        have hgoal : belowAt ⟨t.name, t.isTable, t.routes,
            if root = true then t.routes2 else addOnce t.routes2 id,
            pre ++ (add id dup ts false false (path ++ [c.name]) c).1 :: post⟩ p =
            if p <+: c.name :: a' ∧ p ≠ c.name :: a' ∧ ¬(root = true ∧ p = []) then
              addOnce (belowAt t p) id else belowAt t p := by
          cases p with
          | nil =>
            by_cases hroot : root = true
            · simp [belowAt, get, hroot]
            · simp [belowAt, get, hroot]
          | cons n p =>
            rw [belowAt_cons, belowAt_cons, hch]
            by_cases e : n = c.name
            · subst e
              have := ih false false (path ++ [c.name]) c (h.sub c hc) a' (by rw [hr, ha]) p
              simp only [if_true, hcc, Option.map_some, Option.getD_some]
              rw [this]
              simp [List.cons_prefix_cons]
            · simp [e, List.cons_prefix_cons]
        cases k with
        | conflict => exact (hk rfl).elim
        | exact => dsimp only; rw [hr]; exact hgoal
        | inst => dsimp only; rw [hr]; exact hgoal
    · rename_i hf
      have hm := find_missing hf
      have hname := add_name id dup ts true false (path ++ [tok]) (newTopic tok)
      have hnn : (newTopic tok).name = tok := rfl
      have hno : child tok t.children = none := child_none.mpr (fun c hc => (hm c hc).1)
      have hch : ∀ n, child n
          (t.children ++ [(add id dup ts true false (path ++ [tok]) (newTopic tok)).1]) =
          if n = tok then some (add id dup ts true false (path ++ [tok]) (newTopic tok)).1
          else child n t.children := by
        intro n
        rw [child_append, hname, hnn]
        by_cases e : n = tok
        · subst e; simp [hno]
        · have e' : ¬ tok = n := fun x => e x.symm
          simp [e, e']
      have hr := add_new id dup ts false (path ++ [tok]) tok
      dsimp only at hq ⊢
      rw [hr] at hq
      rw [hr]
      dsimp only
      simp only [Added.ok.injEq, List.append_assoc, List.singleton_append] at hq
      have hqa : a = tok :: ts := (List.append_cancel_left hq).symm
      subst hqa
      cases p with
      | nil =>
        by_cases hroot : root = true
        · simp [belowAt, get, hroot]
        · simp [belowAt, get, hroot]
      | cons n p =>
        rw [belowAt_cons, belowAt_cons, hch]
        by_cases e : n = tok
        · subst e
          have := ih true false (path ++ [n]) (newTopic n) (wf_newTopic n) ts hr p
          simp only [if_true, hno, Option.map_some, Option.getD_some, Option.map_none, Option.getD_none]
          rw [this, belowAt_new]
          simp [List.cons_prefix_cons]
        · simp [e, List.cons_prefix_cons]

/-- `routeList2` holds the routes with an entry strictly below. -/
def Below (s : State) (G : List Ent) : Prop :=
  ∀ p c, p ≠ [] → get p s.root = some c → c.routes2.Nodup ∧
    ∀ i, i ∈ c.routes2 ↔ ∃ g ∈ G, g.id = i ∧ p <+: g.path ∧ p ≠ g.path

theorem below_init : Below init [] := by
  intro p c hp hg
  cases p with
  | nil => exact absurd rfl hp
  | cons n p => simp [get, init, child] at hg

theorem mem_addOnce {l : List Nat} {x i : Nat} : i ∈ addOnce l x ↔ i ∈ l ∨ i = x := by
  unfold addOnce
  split
  · constructor
    · exact Or.inl
    · rintro (h | rfl)
      · exact h
      · assumption
  · simp

theorem nodup_addOnce {l : List Nat} {x : Nat} (h : l.Nodup) : (addOnce l x).Nodup := by
  unfold addOnce
  split
  · exact h
  · rename_i hx
    rw [List.nodup_append]
    refine ⟨h, by simp, ?_⟩
    intro a ha b hb
    rw [List.mem_singleton] at hb
    subst hb
    rintro rfl
    exact hx ha

theorem below_add {s s' : State} {G : List Ent} (h : GInv s G) (hb : Below s G) {ts : Path} {a : Path}
    {id d : Nat} {dup : Bool} (hadd : add id dup ts false true [] s.root = (s'.root, .ok a)) :
    Below s' (G ++ [⟨a, id, d⟩]) := by
  intro p c hp hg
  have hab := add_below id dup ts false true [] s.root h.wf a (by rw [hadd]; rfl) p
  rw [hadd] at hab
  have hc : belowAt s'.root p = c.routes2 := by simp [belowAt, hg]
  dsimp only at hab
  rw [hc] at hab
  have hold : (belowAt s.root p).Nodup ∧
      ∀ i, i ∈ belowAt s.root p ↔ ∃ g ∈ G, g.id = i ∧ p <+: g.path ∧ p ≠ g.path := by
    cases hgo : get p s.root with
    | some c0 =>
      have := hb p c0 hp hgo
      simpa [belowAt, hgo] using this
    | none =>
      refine ⟨by simp [belowAt, hgo], ?_⟩
      intro i
      simp only [belowAt, hgo, Option.map_none, Option.getD_none, List.not_mem_nil, false_iff]
      rintro ⟨g, hg', -, ⟨r, hr⟩, -⟩
      have := ent_node h hg'
      rw [← hr] at this
      have := get_prefix this
      rw [hgo] at this
      cases this
  have hmem : ∀ i, (∃ g ∈ G ++ [(⟨a, id, d⟩ : Ent)], g.id = i ∧ p <+: g.path ∧ p ≠ g.path) ↔
      (∃ g ∈ G, g.id = i ∧ p <+: g.path ∧ p ≠ g.path) ∨ (i = id ∧ p <+: a ∧ p ≠ a) := by
    intro i
    constructor
    · rintro ⟨g, hg', e⟩
      rcases List.mem_append.mp hg' with hg' | hg'
      · exact Or.inl ⟨g, hg', e⟩
      · rw [List.mem_singleton] at hg'
        subst hg'
        exact Or.inr ⟨e.1.symm, e.2⟩
    · rintro (⟨g, hg', e⟩ | ⟨rfl, e⟩)
      · exact ⟨g, List.mem_append_left _ hg', e⟩
      · exact ⟨_, List.mem_append_right _ (List.mem_singleton.mpr rfl), rfl, e⟩
  rw [hab]
  split
  · rename_i hcond
    refine ⟨nodup_addOnce hold.1, ?_⟩
    intro i
    rw [mem_addOnce, hold.2, hmem]
    constructor
    · rintro (h' | rfl)
      · exact Or.inl h'
      · exact Or.inr ⟨rfl, hcond.1, hcond.2.1⟩
    · rintro (h' | ⟨rfl, -⟩)
      · exact Or.inl h'
      · exact Or.inr rfl
  · rename_i hcond
    refine ⟨hold.1, ?_⟩
    intro i
    rw [hold.2, hmem]
    constructor
    · exact Or.inl
    · rintro (h' | ⟨-, h1, h2⟩)
      · exact h'
      · exact absurd ⟨h1, h2, fun x => hp x.2⟩ hcond

theorem below_removeRoute {s : State} {G : List Ent} (h : GInv s G) (hb : Below s G) (d : Nat) :
    Below (removeRoute s d) (G.filter (fun g => g.data ≠ d)) := by
  intro p c hp hg
  unfold removeRoute at hg
  cases hf : s.routes.find? (fun r => r.data = d) with
  | none =>
    rw [hf] at hg
    have hnone : ∀ g ∈ G, g.data ≠ d := by
      intro g hg'
      rw [List.find?_eq_none] at hf
      obtain ⟨r, hr, -, e⟩ := h.rs.alive g hg'
      have := hf r hr
      simp only [decide_eq_true_eq] at this
      omega
    have : G.filter (fun g => g.data ≠ d) = G := by
      rw [List.filter_eq_self]
      intro g hg'
      simpa using hnone g hg'
    rw [this]
    exact hb p c hp hg
  | some r =>
    rw [hf] at hg
    dsimp only at hg
    have hr := List.mem_of_find?_eq_some hf
    have hd : r.data = d := by simpa using List.find?_some hf
    have hg2 : get p (eraseRoute r.id s.root) = some c := by
      cases p with
      | nil => exact absurd rfl hp
      | cons n p =>
        simp only [get] at hg ⊢
        rw [eraseRoute_children]
        exact hg
    obtain ⟨c0, h1, rfl⟩ := get_eraseRoute h.wf hg2
    obtain ⟨b1, b2⟩ := hb p c0 hp h1
    rw [eraseRoute_routes2]
    refine ⟨b1.erase _, ?_⟩
    intro i
    rw [List.Nodup.mem_erase_iff b1, b2]
    have hiff : ∀ g ∈ G, g.data ≠ d ↔ g.id ≠ r.id := by
      intro g hg'
      obtain ⟨r', hr', e1, e2⟩ := h.rs.alive g hg'
      constructor
      · intro hne e
        have := inj_of_nodup (·.id) h.rs.ids hr' hr (by omega)
        subst this
        omega
      · intro hne e
        have := inj_of_nodup (·.data) h.rs.datas hr' hr (by omega)
        subst this
        omega
    constructor
    · rintro ⟨hne, g, hg', rfl, e⟩
      exact ⟨g, List.mem_filter.mpr ⟨hg', by simpa using (hiff g hg').mpr hne⟩, rfl, e⟩
    · rintro ⟨g, hg', rfl, e⟩
      rw [List.mem_filter] at hg'
      exact ⟨(hiff g hg'.1).mp (by simpa using hg'.2), g, hg'.1, rfl, e⟩

theorem derefAll_ids {s : State} {G : List Ent} (h : GInv s G) (l : List Nat)
    (hl : ∀ i ∈ l, ∃ g ∈ G, g.id = i) :
    ∃ ds, derefAll s l = .ok ds ∧ (∀ w, w ∈ ds ↔ ∃ g ∈ G, g.id ∈ l ∧ g.data = w) ∧
      (l.Nodup → ds.Nodup) := by
  induction l with
  | nil => exact ⟨[], rfl, by simp, by simp⟩
  | cons i l ih =>
    obtain ⟨ds, e1, e2, e3⟩ := ih (fun x hx => hl x (List.mem_cons_of_mem _ hx))
    obtain ⟨g, hg, rfl⟩ := hl i (by simp)
    obtain ⟨r, hr, e4, e5⟩ := h.rs.alive g hg
    have hf := h.rs.find hr
    refine ⟨g.data :: ds, ?_, ?_, ?_⟩
    · rw [derefAll, e1, deref, ← e4, hf]
      simp [e5]
    · intro w
      rw [List.mem_cons, e2]
      constructor
      · rintro (rfl | ⟨g', hg', h1, h2⟩)
        · exact ⟨g, hg, by simp, rfl⟩
        · exact ⟨g', hg', List.mem_cons_of_mem _ h1, h2⟩
      · rintro ⟨g', hg', h1, h2⟩
        rcases List.mem_cons.mp h1 with h1 | h1
        · exact Or.inl (by rw [← h2]; exact (h.rs.id_data hg' hg).mp h1)
        · exact Or.inr ⟨g', hg', h1, h2⟩
    · intro hnd
      rw [List.nodup_cons] at hnd ⊢
      refine ⟨?_, e3 hnd.2⟩
      intro hm
      obtain ⟨g', hg', h1, h2⟩ := (e2 _).mp hm
      rw [(h.rs.id_data hg' hg).mpr h2] at h1
      exact hnd.1 h1

/-- The live names below `q`. -/
theorem lookup_below {P : List Name} (hP : Conventional P) {s : State} {G : List Ent} (h : CInv P s G)
    (hb : Below s G) {q : Name} (hq : Askable P q) :
    ∃ l, lookup s (dotted q ++ [46]) = .ok l ∧ l.Nodup ∧
      ∀ w, w ∈ l ↔ OwnsBelow (regs G) q w := by
  have hprop := hq.1
  have hmeets := h.meets hP hq
  have hlast : (dotted q ++ [46]).getLast? = some dot := by simp [dot]
  have hsplit : ∀ g ∈ G, ∀ w, g.data = w → q.length < g.path.length →
      covers (g.path.take q.length) q = true → OwnsBelow (regs G) q w := by
    intro g hg w e h1 h2
    exact ⟨g.path, List.mem_map.mpr ⟨g, hg, by rw [e]⟩, h1, h2⟩
  unfold lookup getTopicRoutes
  rw [tokenize_proper_dot hprop, Res.ok_bind, if_neg hprop.1]
  cases hwk : walk q s.root with
  | none =>
    dsimp only
    refine ⟨[], rfl, by simp, ?_⟩
    intro w
    simp only [List.not_mem_nil, false_iff]
    rintro ⟨n, hn, h1, h2⟩
    obtain ⟨g, hg, e⟩ := List.mem_map.mp hn
    simp only [Prod.mk.injEq] at e
    obtain ⟨rfl, rfl⟩ := e
    have hnode := ent_node h.g hg
    rw [← List.take_append_drop q.length g.path] at hnode
    have := get_prefix hnode
    obtain ⟨c, hc⟩ := Option.isSome_iff_exists.mp this
    have := (walk_covers q s.root h.g.wf hmeets c).mpr ⟨_, h2, hc⟩
    rw [hwk] at this
    cases this
  | some c =>
    dsimp only
    obtain ⟨p, hp, hg⟩ := (walk_covers q s.root h.g.wf hmeets c).mp hwk
    have hpl := covers_length hp
    have hpne : p ≠ [] := by
      rintro rfl
      exact hprop.1 (List.length_eq_zero_iff.mp hpl.symm)
    obtain ⟨prest, hprest⟩ : ∃ rest, p ++ rest ∈ P := by
      rcases h.nodes p (by rw [hg]; rfl) with e | e
      · exact absurd e hpne
      · exact e
    have hch : chosen (dotted q ++ [46]) c = c.routes2 := by
      unfold chosen
      rw [if_pos hlast]
    obtain ⟨b1, b2⟩ := hb p c hpne hg
    obtain ⟨ds, e1, e2, e3⟩ := derefAll_ids h.g c.routes2 (by
      intro i hi
      obtain ⟨g, hg', e, -⟩ := (b2 i).mp hi
      exact ⟨g, hg', e⟩)
    rw [Res.pure_eq, Res.ok_bind, hch]
    refine ⟨ds, e1, e3 b1, ?_⟩
    intro w
    rw [e2]
    constructor
    · rintro ⟨g, hg', hi, hw⟩
      obtain ⟨g0, hg0, e0, ⟨r, hr⟩, hne⟩ := (b2 g.id).mp hi
      have hw0 : g0.data = w := by rw [(h.g.rs.id_data hg0 hg').mp e0, hw]
      refine hsplit g0 hg0 w hw0 ?_ ?_
      · rw [← hr, List.length_append, ← hpl]
        have : r ≠ [] := by rintro rfl; rw [List.append_nil] at hr; exact hne hr
        have := List.length_pos_iff.mpr this
        omega
      · rw [← hr, ← hpl, List.take_left]
        exact hp
    · rintro ⟨n, hn, h1, h2⟩
      obtain ⟨g, hg', e⟩ := List.mem_map.mp hn
      simp only [Prod.mk.injEq] at e
      obtain ⟨rfl, rfl⟩ := e
      refine ⟨g, hg', ?_, rfl⟩
      rw [b2]
      have heq : g.path.take q.length = p :=
        covers_unique hP q [] _ p (g.path.drop q.length) prest
          (by rw [List.nil_append, List.take_append_drop]; exact h.paths g hg') (by simpa using hprest) h2 hp
      refine ⟨g, hg', rfl, ?_, ?_⟩
      · rw [← heq]; exact List.take_prefix _ _
      · rintro rfl
        omega

/-- Histories that remove no names. -/
theorem run_below {P : List Name} (hP : Conventional P) (os : List Spec.Routing.Op)
    (hnr : ∀ n, Spec.Routing.Op.remove n ∉ os) :
    ∀ (pre : List Spec.Routing.Op) {s : State} {G : List Ent}, CInv P s G → Below s G →
      (∀ x ∈ regs G, ∃ y, Spec.Routing.Op.register x.1 x.2 y ∈ pre) →
      (∀ n ∈ names os, n ∈ P) → NoRepeats (pre ++ os) →
      ∃ s' rcs G', run s (os.map call) = .ok (s', rcs) ∧ rcs.length = os.length ∧ CInv P s' G' ∧
        Below s' G' ∧ regs G' = live (regs G) (os.zip (rcs.map accepted)) := by
  induction os with
  | nil =>
    intro pre s G h hb _ _ _
    exact ⟨s, [], G, rfl, rfl, h, hb, rfl⟩
  | cons o os ih =>
    intro pre s G h hb hpre hn hrep
    have ho : ∀ n ∈ names [o], n ∈ P := by
      intro n hn'
      apply hn
      cases o with
      | register m w x => simp only [names, List.mem_singleton] at hn' ⊢; subst hn'; simp
      | forget w => simp [names] at hn'
      | remove m => simp only [names, List.mem_singleton] at hn' ⊢; subst hn'; simp
    have step : ∃ s1 rc G1, step s (call o) = .ok (s1, rc) ∧ CInv P s1 G1 ∧ Below s1 G1 ∧
        regs G1 = live1 (regs G) o (accepted rc) := by
      cases o with
      | remove n => exact absurd (by simp) (hnr n)
      | forget w =>
        refine ⟨_, .ok, _, rfl, step_forget h w, below_removeRoute h.g hb w, ?_⟩
        simp only [regs, live1, List.filter_map]
        rfl
      | register n w x =>
        have hn' : n ∈ P := ho n (by simp [names])
        obtain ⟨s', rc, e, h'⟩ := step_register hP h hn' w x (by
          intro hx hm
          obtain ⟨y, hy⟩ := hpre _ hm
          exact hrep pre n w x os rfl hx y hy)
        have htoks : tokens (dotted n) = n := tokens_dotted (hP.1 n hn').1.2.1
        obtain ⟨f1, f2⟩ := addTopicRoute_spec h.g e
        rcases h' with ⟨rfl, h'⟩ | ⟨rfl, -, id, h'⟩
        · refine ⟨s', .duplicate, G, e, h', ?_, rfl⟩
          have hroot := (f1 (by simp)).2
          intro p c hp hg
          rw [hroot] at hg
          exact hb p c hp hg
        · rcases f2 rfl with ⟨e0, -⟩ | ⟨a, id', -, hadd, -, hinv⟩
          · rw [htoks] at e0; exact absurd e0 (hP.1 n hn').1.1
          · refine ⟨s', .ok, G ++ [⟨n, id, w⟩], e, h', ?_, ?_⟩
            · have hbb := below_add (s' := s') (d := w) h.g hb hadd
              have ha : a = n := by
                rw [htoks] at hadd
                have := (add_agree id' _ n false true [] s.root h.g.wf (h.agree hP hn')).2 a (by rw [hadd])
                simpa using this
              subst ha
              have hid : id' = id := by
                have hsp := (add_spec id' (x && decide (dotted a ≠ advisory)) (tokens (dotted a)) false true []
                  s.root h.g.wf).2.1
                rw [hadd] at hsp
                obtain ⟨a', ea, hs, -⟩ := hsp a rfl
                simp only [List.nil_append] at ea
                subst ea
                have h1 := hs a
                rw [if_pos rfl, h.g.at_] at h1
                have h2 := h'.g.at_ a
                dsimp only at h1
                rw [h1, List.filter_append, List.map_append] at h2
                have := List.append_cancel_left h2
                simpa using this
              subst hid
              exact hbb
            · simp [regs, live1, accepted]
    obtain ⟨s1, rc, G1, e1, h1, hb1, hG1⟩ := step
    obtain ⟨s2, rcs, G2, e2, hl, h2, hb2, hG2⟩ := ih (fun n hn => hnr n (List.mem_cons_of_mem _ hn))
      (pre ++ [o]) h1 hb1
      (by
        intro x hx
        rw [hG1] at hx
        rcases live1_subset hx with hx | ⟨y, rfl⟩
        · obtain ⟨y, hy⟩ := hpre x hx
          exact ⟨y, List.mem_append_left _ hy⟩
        · exact ⟨y, by simp⟩)
      (by
        intro n hn'
        apply hn
        cases o with
        | register m w x => exact List.mem_cons_of_mem _ hn'
        | forget w => exact hn'
        | remove m => exact List.mem_cons_of_mem _ hn')
      (by rw [List.append_assoc]; exact hrep)
    refine ⟨s2, rc :: rcs, G2, ?_, by simp [hl], h2, hb2, ?_⟩
    · rw [List.map_cons, run, e1, Res.ok_bind]
      dsimp only
      rw [e2, Res.ok_bind]
      rfl
    · rw [hG2, hG1]
      rfl

/-! ## Any names -/

theorem walk_get {ts : Path} {t c : Topic} (hw : WF t) (h : walk ts t = some c) :
    ∃ p, p.length = ts.length ∧ get p t = some c := by
  induction ts generalizing t with
  | nil =>
    simp only [walk, Option.some.injEq] at h
    exact ⟨[], rfl, by simp [get, h]⟩
  | cons u ts ih =>
    rw [walk] at h
    split at h
    · rename_i k pre y post hf
      obtain ⟨mid, -, h2, -⟩ := find_hit hf
      have hy : y ∈ t.children := by rw [h2]; simp
      obtain ⟨p, hl, hg⟩ := ih (hw.sub y hy) h
      exact ⟨y.name :: p, by simp [hl], by simp [get, child_of_mem hw.names hy, hg]⟩
    · cases h

/-- A lookup of a name without a final '.' is safe and gives the owners of entries. -/
theorem lookup_safe {s : State} {G : List Ent} (h : GInv s G) {q : Bytes}
    (hq : tokenize q = .ok (tokens q)) (hb : q.getLast? ≠ some dot ∨ Below s G) :
    ∃ l, lookup s q = .ok l ∧ l.Nodup ∧ ∀ w ∈ l, ∃ g ∈ G, g.data = w := by
  have hids : ∀ p, (routesAt s.root p).Nodup ∧ ∀ i ∈ routesAt s.root p, ∃ g ∈ G, g.id = i := by
    intro p
    rw [h.at_]
    constructor
    · have h' := h.nodup
      rw [List.Nodup, List.pairwise_map] at h' ⊢
      have := List.Pairwise.filter (fun g => decide (g.path = p)) h'
      refine List.Pairwise.imp_of_mem ?_ this
      intro a b ha hb hab e
      rw [List.mem_filter] at ha hb
      have h1 : a.path = p := by simpa using ha.2
      have h2 : b.path = p := by simpa using hb.2
      exact hab (by rw [h1, h2, e])
    · intro i hi
      obtain ⟨g, hg, e⟩ := List.mem_map.mp hi
      exact ⟨g, (List.mem_filter.mp hg).1, e⟩
  have fin : ∀ l : List Nat, l.Nodup → (∀ i ∈ l, ∃ g ∈ G, g.id = i) →
      ∃ ds, derefAll s l = .ok ds ∧ ds.Nodup ∧ ∀ w ∈ ds, ∃ g ∈ G, g.data = w := by
    intro l h1 h2
    obtain ⟨ds, e1, e2, e3⟩ := derefAll_ids h l h2
    refine ⟨ds, e1, e3 h1, ?_⟩
    intro w hw
    obtain ⟨g, hg, -, e⟩ := (e2 w).mp hw
    exact ⟨g, hg, e⟩
  unfold lookup getTopicRoutes
  rw [hq, Res.ok_bind]
  by_cases ht : tokens q = []
  · rw [if_pos ht]
    exact ⟨[], rfl, by simp, by simp⟩
  · rw [if_neg ht]
    cases hwk : walk (tokens q) s.root with
    | none => exact ⟨[], rfl, by simp, by simp⟩
    | some c =>
      dsimp only
      obtain ⟨p, hpl, hg⟩ := walk_get h.wf hwk
      have hpne : p ≠ [] := by
        rintro rfl
        exact ht (List.length_eq_zero_iff.mp hpl.symm)
      have hcw := get_wf h.wf hg
      have hat : ∀ p', routesAt c p' = routesAt s.root (p ++ p') := by
        intro p'
        unfold routesAt
        rw [get_append, hg]
        rfl
      rw [Res.pure_eq, Res.ok_bind]
      unfold chosen
      split
      · rename_i hl
        rcases hb with hb | hb
        · exact absurd hl hb
        · obtain ⟨b1, b2⟩ := hb p c hpne hg
          apply fin _ b1
          intro i hi
          obtain ⟨g, hg', e, -⟩ := (b2 i).mp hi
          exact ⟨g, hg', e⟩
      · split
        · split
          · rename_i k pre x post hf
            obtain ⟨mid, -, h2, -⟩ := find_hit hf
            have hx : x ∈ c.children := by rw [h2]; simp
            have e : x.routes.getD [] = routesAt s.root (p ++ [x.name]) := by
              rw [← hat, routesAt_cons, child_of_mem hcw.names hx]
              rfl
            rw [e]
            exact fin _ (hids _).1 (hids _).2
          · exact ⟨[], rfl, by simp, by simp⟩
        · have e : c.routes.getD [] = routesAt s.root p := by
            rw [← routesAt_nil, hat, List.append_nil]
          rw [e]
          exact fin _ (hids _).1 (hids _).2

theorem run_any (os : List Op) : ∀ (pre : List Op) {s s' : State} {G : List Ent} {rcs : List Rc},
    GInv s G → (∀ g ∈ G, ∃ e x, Op.add e g.data x ∈ pre) → Disciplined pre os →
    run s os = .ok (s', rcs) →
    ∃ G', GInv s' G' ∧ ((∀ e, Op.removeTopic e ∉ os) → Below s G → Below s' G') ∧
      (∀ g ∈ G', (∃ g0 ∈ G, g0.data = g.data) ∨ ∃ e x, Op.add e g.data x ∈ os) := by
  induction os with
  | nil =>
    intro pre s s' G rcs h _ _ hr
    cases hr
    exact ⟨G, h, fun _ hb => hb, fun g hg => Or.inl ⟨g, hg, rfl⟩⟩
  | cons o os ih =>
    intro pre s s' G rcs h hpre hd hr
    rw [run] at hr
    cases hst : step s o with
    | fail => rw [hst] at hr; cases hr
    | ub => rw [hst] at hr; cases hr
    | ok r =>
      obtain ⟨s1, rc⟩ := r
      rw [hst, Res.ok_bind] at hr
      dsimp only at hr
      cases hrun : run s1 os with
      | fail => rw [hrun] at hr; cases hr
      | ub => rw [hrun] at hr; cases hr
      | ok r2 =>
        obtain ⟨s2, rcs2⟩ := r2
        rw [hrun, Res.ok_bind] at hr
        cases hr
        have stepinv : ∃ G1, GInv s1 G1 ∧ ((∀ e, o ≠ Op.removeTopic e) → Below s G → Below s1 G1) ∧
            (∀ g ∈ G1, (∃ g0 ∈ G, g0.data = g.data) ∨ ∃ e x, o = Op.add e g.data x) := by
          cases o with
          | add e d x =>
            obtain ⟨f1, f2⟩ := addTopicRoute_spec h hst
            by_cases hrc : rc = .ok
            · rcases f2 hrc with ⟨-, rfl⟩ | ⟨a, id, -, hadd, hexcl, hinv⟩
              · exact ⟨G, h, fun _ hb => hb, fun g hg => Or.inl ⟨g, hg, rfl⟩⟩
              · refine ⟨_, hinv ?_, ?_, ?_⟩
                · rintro g hg ⟨e1, e2⟩
                  by_cases hx : x = false ∨ e = advisory
                  · obtain ⟨e', x', hm⟩ := hpre g hg
                    rw [e2] at hm
                    exact hd pre e d x os rfl hx e' x' hm
                  · apply hexcl ?_ g hg e1
                    rw [not_or] at hx
                    cases x <;> simp_all
                · intro _ hb
                  exact below_add h hb hadd
                · intro g hg
                  rcases List.mem_append.mp hg with hg | hg
                  · exact Or.inl ⟨g, hg, rfl⟩
                  · rw [List.mem_singleton] at hg
                    subst hg
                    exact Or.inr ⟨e, x, rfl⟩
            · obtain ⟨g1, g2⟩ := f1 hrc
              refine ⟨G, g1, ?_, fun g hg => Or.inl ⟨g, hg, rfl⟩⟩
              intro _ hb p c hp hg
              rw [g2] at hg
              exact hb p c hp hg
          | removeRoute d =>
            cases hst
            exact ⟨_, removeRoute_spec h d, fun _ hb => below_removeRoute h hb d,
              fun g hg => Or.inl ⟨g, (List.mem_filter.mp hg).1, rfl⟩⟩
          | removeTopic e =>
            rw [step] at hst
            cases htk : tokenize e with
            | fail => rw [removeTopic, htk] at hst; cases hst
            | ub => rw [removeTopic, htk] at hst; cases hst
            | ok ts =>
              have : ts = tokens e := by
                unfold tokenize at htk
                split at htk
                · cases htk; rfl
                · cases htk
              subst this
              obtain ⟨s1', e1, e2⟩ := removeTopic_spec h e htk
              rw [e1, Res.ok_bind] at hst
              cases hst
              rcases e2 with ⟨-, rfl⟩ | ⟨root, a, c, -, -, hg⟩
              · exact ⟨G, h, fun hne => absurd rfl (hne e), fun g hg => Or.inl ⟨g, hg, rfl⟩⟩
              · exact ⟨_, hg, fun hne => absurd rfl (hne e),
                  fun g hg => Or.inl ⟨g, (List.mem_filter.mp hg).1, rfl⟩⟩
        obtain ⟨G1, h1, hb1, hd1⟩ := stepinv
        obtain ⟨G2, h2, hb2, hd2⟩ := ih (pre ++ [o]) h1
          (by
            intro g hg
            rcases hd1 g hg with ⟨g0, hg0, e0⟩ | ⟨e, x, rfl⟩
            · obtain ⟨e, x, hm⟩ := hpre g0 hg0
              exact ⟨e, x, List.mem_append_left _ (by rw [← e0]; exact hm)⟩
            · exact ⟨e, x, by simp⟩)
          (by
            intro a e d x b hab
            exact hd a e d x b (by rw [← hab]; simp))
          hrun
        refine ⟨G2, h2, ?_, ?_⟩
        · intro hnr hb
          exact hb2 (fun e he => hnr e (List.mem_cons_of_mem _ he))
            (hb1 (fun e he => hnr e (by rw [he]; simp)) hb)
        · intro g hg
          rcases hd2 g hg with ⟨g0, hg0, e0⟩ | ⟨e, x, hm⟩
          · rcases hd1 g0 hg0 with ⟨g00, hg00, e00⟩ | ⟨e, x, rfl⟩
            · exact Or.inl ⟨g00, hg00, by rw [e00, e0]⟩
            · exact Or.inr ⟨e, x, by rw [e0]; simp⟩
          · exact Or.inr ⟨e, x, List.mem_cons_of_mem _ hm⟩

end Verif.Routing
