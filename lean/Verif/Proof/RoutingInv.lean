import Verif.Proof.Routing

namespace Verif.Routing

open Verif

/-- An entry of the tree: where, which route, whose pointer. -/
structure Ent where
  path : Path
  id : Nat
  data : Nat
  deriving DecidableEq

/-- The list of routes agrees with the entries of the tree. -/
structure RS (rs : List TRoute) (n : Nat) (G : List Ent) : Prop where
  ids : (rs.map (·.id)).Nodup
  datas : (rs.map (·.data)).Nodup
  lt : ∀ r ∈ rs, r.id < n
  alive : ∀ g ∈ G, ∃ r ∈ rs, r.id = g.id ∧ r.data = g.data
  tops : ∀ r ∈ rs, r.topics.Nodup ∧ ∀ p, p ∈ r.topics ↔ ∃ g ∈ G, g.path = p ∧ g.id = r.id

/-- The tree holds exactly these entries. -/
structure GInv (s : State) (G : List Ent) : Prop where
  wf : WF s.root
  top : s.root.routes = none
  at_ : ∀ p, routesAt s.root p = (G.filter (fun g => g.path = p)).map (·.id)
  nodup : (G.map (fun g => (g.path, g.id))).Nodup
  rs : RS s.routes s.nextId G

theorem inj_of_nodup {α β} [DecidableEq β] (f : α → β) {l : List α} (h : (l.map f).Nodup) {a b : α}
    (ha : a ∈ l) (hb : b ∈ l) (e : f a = f b) : a = b := by
  induction l with
  | nil => cases ha
  | cons x l ih =>
    simp only [List.map_cons, List.nodup_cons] at h
    rcases List.mem_cons.mp ha with ha' | ha'
    · rcases List.mem_cons.mp hb with hb' | hb'
      · rw [ha', hb']
      · exact (h.1 (List.mem_map.mpr ⟨b, hb', by rw [← ha', e]⟩)).elim
    · rcases List.mem_cons.mp hb with hb' | hb'
      · exact (h.1 (List.mem_map.mpr ⟨a, ha', by rw [← hb', e]⟩)).elim
      · exact ih h.2 ha' hb'

theorem RS.find {rs : List TRoute} {n : Nat} {G : List Ent} (h : RS rs n G) {r : TRoute} (hr : r ∈ rs) :
    rs.find? (fun x => x.id = r.id) = some r := by
  cases hf : rs.find? (fun x => x.id = r.id) with
  | none =>
    rw [List.find?_eq_none] at hf
    exact absurd (by simp) (hf r hr)
  | some x =>
    have h1 := List.mem_of_find?_eq_some hf
    have h2 : x.id = r.id := by simpa using List.find?_some hf
    rw [inj_of_nodup (·.id) h.ids h1 hr h2]

theorem RS.id_data {rs : List TRoute} {n : Nat} {G : List Ent} (h : RS rs n G) {g g' : Ent}
    (hg : g ∈ G) (hg' : g' ∈ G) : g.id = g'.id ↔ g.data = g'.data := by
  obtain ⟨r, hr, h1, h2⟩ := h.alive g hg
  obtain ⟨r', hr', h1', h2'⟩ := h.alive g' hg'
  constructor
  · intro e
    have := inj_of_nodup (·.id) h.ids hr hr' (by omega)
    subst this
    omega
  · intro e
    have := inj_of_nodup (·.data) h.datas hr hr' (by omega)
    subst this
    omega

/-! ## Removing topics from routes -/

theorem dropTopic_spec {rs : List TRoute} {n : Nat} {G : List Ent} (h : RS rs n G) (e : Path × Nat)
    (he : ∃ g ∈ G, (g.path, g.id) = e) :
    ∃ rs', dropTopic rs e = .ok rs' ∧ RS rs' n (G.filter (fun g => (g.path, g.id) ≠ e)) := by
  obtain ⟨g, hg, rfl⟩ := he
  obtain ⟨r, hr, hid, hdat⟩ := h.alive g hg
  obtain ⟨t1, t2⟩ := h.tops r hr
  have hf : rs.find? (fun x => x.id = g.id) = some r := by rw [← hid]; exact h.find hr
  -- what remains of the topics of this route
  have hrest : ∀ p, p ∈ r.topics.erase g.path ↔
      ∃ g' ∈ G.filter (fun x => (x.path, x.id) ≠ (g.path, g.id)), g'.path = p ∧ g'.id = r.id := by
    intro p
    rw [List.Nodup.mem_erase_iff t1, t2]
    constructor
    · rintro ⟨hne, g', hg', e1, e2⟩
      refine ⟨g', ?_, e1, e2⟩
      rw [List.mem_filter]
      refine ⟨hg', ?_⟩
      simp only [ne_eq, Prod.mk.injEq, not_and, decide_eq_true_eq]
      intro e3
      exact absurd (e1.symm.trans e3) hne
    · rintro ⟨g', hg', e1, e2⟩
      rw [List.mem_filter] at hg'
      refine ⟨?_, g', hg'.1, e1, e2⟩
      rintro rfl
      have := hg'.2
      simp only [ne_eq, Prod.mk.injEq, not_and, decide_eq_true_eq] at this
      exact this e1 (by omega)
  have hother : ∀ r' ∈ rs, r'.id ≠ g.id → ∀ p, p ∈ r'.topics ↔
      ∃ g' ∈ G.filter (fun x => (x.path, x.id) ≠ (g.path, g.id)), g'.path = p ∧ g'.id = r'.id := by
    intro r' hr' hne p
    rw [(h.tops r' hr').2]
    constructor
    · rintro ⟨g', hg', e1, e2⟩
      refine ⟨g', ?_, e1, e2⟩
      rw [List.mem_filter]
      refine ⟨hg', ?_⟩
      simp only [ne_eq, Prod.mk.injEq, not_and, decide_eq_true_eq]
      intro _ e3
      exact hne (by omega)
    · rintro ⟨g', hg', e1, e2⟩
      rw [List.mem_filter] at hg'
      exact ⟨g', hg'.1, e1, e2⟩
  unfold dropTopic
  dsimp only
  rw [hf]
  dsimp only
  by_cases hemp : r.topics.erase g.path = []
  · rw [if_pos hemp]
    refine ⟨_, rfl, ?_⟩
    have hsub : (rs.eraseP (fun r => r.id = g.id)).Sublist rs := List.eraseP_sublist
    have hmem : ∀ x, x ∈ rs.eraseP (fun r => decide (r.id = g.id)) ↔ x ∈ rs ∧ x.id ≠ g.id := by
      intro x
      constructor
      · intro hx
        refine ⟨hsub.mem hx, ?_⟩
        intro e
        obtain ⟨l1, l2, l3⟩ : ∃ l1 l2, rs = l1 ++ r :: l2 := List.append_of_mem hr
        have hnd := h.ids
        rw [l3] at hnd hx
        have hl1 : ∀ y ∈ l1, ¬ y.id = g.id := by
          intro y hy e'
          rw [List.map_append, List.nodup_append] at hnd
          exact hnd.2.2 y.id (List.mem_map.mpr ⟨y, hy, rfl⟩) r.id (by simp) (by omega)
        rw [List.eraseP_append_right _ (by simpa using hl1), List.eraseP_cons_of_pos (by simpa using hid)] at hx
        rw [List.map_append, List.nodup_append] at hnd
        rcases List.mem_append.mp hx with hx | hx
        · exact hl1 x hx e
        · simp only [List.map_cons, List.nodup_cons] at hnd
          exact hnd.2.1.1 (List.mem_map.mpr ⟨x, hx, by omega⟩)
      · rintro ⟨hx, hne⟩
        rw [List.mem_eraseP_of_neg (by simpa using hne)]
        exact hx
    constructor
    · exact List.Nodup.sublist (hsub.map _) h.ids
    · exact List.Nodup.sublist (hsub.map _) h.datas
    · intro x hx
      exact h.lt x (hsub.mem hx)
    · intro g' hg'
      rw [List.mem_filter] at hg'
      obtain ⟨r', hr', e1, e2⟩ := h.alive g' hg'.1
      refine ⟨r', (hmem r').mpr ⟨hr', ?_⟩, e1, e2⟩
      intro e
      have := (hrest g'.path).mpr ⟨g', List.mem_filter.mpr hg', rfl, by omega⟩
      rw [hemp] at this
      cases this
    · intro x hx
      obtain ⟨hx1, hx2⟩ := (hmem x).mp hx
      exact ⟨(h.tops x hx1).1, hother x hx1 hx2⟩
  · rw [if_neg hemp]
    refine ⟨_, rfl, ?_⟩
    have hids : (rs.map (fun x => if x.id = g.id then { x with topics := x.topics.erase g.path } else x)).map
        (·.id) = rs.map (·.id) := by
      rw [List.map_map]
      apply List.map_congr_left
      intro x _
      simp only [Function.comp]
      split <;> rfl
    have hdatas : (rs.map (fun x => if x.id = g.id then { x with topics := x.topics.erase g.path } else x)).map
        (·.data) = rs.map (·.data) := by
      rw [List.map_map]
      apply List.map_congr_left
      intro x _
      simp only [Function.comp]
      split <;> rfl
    have hr0 : ∀ x ∈ rs, x.id = g.id → x = r := fun x hx e =>
      inj_of_nodup (·.id) h.ids hx hr (by omega)
    constructor
    · rw [hids]; exact h.ids
    · rw [hdatas]; exact h.datas
    · intro x hx
      obtain ⟨y, hy, rfl⟩ := List.mem_map.mp hx
      have := h.lt y hy
      split <;> exact this
    · intro g' hg'
      rw [List.mem_filter] at hg'
      obtain ⟨r', hr', e1, e2⟩ := h.alive g' hg'.1
      refine ⟨_, List.mem_map.mpr ⟨r', hr', rfl⟩, ?_, ?_⟩
      · split <;> exact e1
      · split <;> exact e2
    · intro x hx
      obtain ⟨y, hy, rfl⟩ := List.mem_map.mp hx
      by_cases e : y.id = g.id
      · rw [if_pos e]
        dsimp only
        rw [hr0 y hy e]
        exact ⟨t1.erase _, hrest⟩
      · rw [if_neg e]
        exact ⟨(h.tops y hy).1, hother y hy e⟩

theorem dropTopics_spec {n : Nat} (es : List (Path × Nat)) :
    ∀ {rs : List TRoute} {G : List Ent}, RS rs n G → es.Nodup →
      (∀ e ∈ es, ∃ g ∈ G, (g.path, g.id) = e) →
      ∃ rs', dropTopics es rs = .ok rs' ∧ RS rs' n (G.filter (fun g => (g.path, g.id) ∉ es)) := by
  induction es with
  | nil =>
    intro rs G h _ _
    refine ⟨rs, rfl, ?_⟩
    have : G.filter (fun g => decide ((g.path, g.id) ∉ ([] : List (Path × Nat)))) = G := by simp
    rw [this]
    exact h
  | cons e es ih =>
    intro rs G h hnd hall
    obtain ⟨rs1, e1, h1⟩ := dropTopic_spec h e (hall e (by simp))
    simp only [List.nodup_cons] at hnd
    obtain ⟨rs2, e2, h2⟩ := ih h1 hnd.2 (by
      intro e' he'
      obtain ⟨g, hg, hge⟩ := hall e' (List.mem_cons_of_mem _ he')
      refine ⟨g, ?_, hge⟩
      rw [List.mem_filter]
      refine ⟨hg, ?_⟩
      simp only [ne_eq, decide_eq_true_eq]
      rw [hge]
      rintro rfl
      exact hnd.1 he')
    refine ⟨rs2, ?_, ?_⟩
    · rw [dropTopics, e1, Res.ok_bind, e2]
    · rw [List.filter_filter] at h2
      have : (fun g : Ent => decide ((g.path, g.id) ∉ es) && decide ((g.path, g.id) ≠ e)) =
          fun g => decide ((g.path, g.id) ∉ e :: es) := by
        funext g
        simp only [List.mem_cons, not_or, ne_eq]
        rw [Bool.and_comm, ← Bool.decide_and]
      rw [this] at h2
      exact h2

/-! ## The operations -/

theorem ginv_init : GInv init [] := by
  constructor
  · constructor <;> simp [init]
  · rfl
  · intro p
    cases p with
    | nil => rfl
    | cons n p => rw [routesAt_cons]; rfl
  · simp
  · constructor <;> simp [init]

theorem getOrCreate_spec {s : State} {G : List Ent} (h : GInv s G) (d : Nat) :
    GInv (getOrCreate s d).1 G ∧ (getOrCreate s d).1.root = s.root ∧
      ∃ r ∈ (getOrCreate s d).1.routes, r.id = (getOrCreate s d).2 ∧ r.data = d := by
  unfold getOrCreate
  cases hf : s.routes.find? (fun r => r.data = d) with
  | some r =>
    dsimp only
    exact ⟨h, rfl, r, List.mem_of_find?_eq_some hf, rfl, by simpa using List.find?_some hf⟩
  | none =>
    dsimp only
    rw [List.find?_eq_none] at hf
    refine ⟨⟨h.wf, h.top, h.at_, h.nodup, ?_⟩, rfl, ⟨s.nextId, d, []⟩, by simp, rfl, rfl⟩
    constructor
    · dsimp only
      rw [List.map_append, List.nodup_append]
      refine ⟨h.rs.ids, by simp, ?_⟩
      intro a ha b hb
      obtain ⟨r, hr, rfl⟩ := List.mem_map.mp ha
      simp only [List.map_cons, List.map_nil, List.mem_singleton] at hb
      have := h.rs.lt r hr
      omega
    · dsimp only
      rw [List.map_append, List.nodup_append]
      refine ⟨h.rs.datas, by simp, ?_⟩
      intro a ha b hb
      obtain ⟨r, hr, rfl⟩ := List.mem_map.mp ha
      simp only [List.map_cons, List.map_nil, List.mem_singleton] at hb
      have := hf r hr
      simp only [decide_eq_true_eq] at this
      omega
    · intro r hr
      rcases List.mem_append.mp hr with hr | hr
      · have := h.rs.lt r hr; dsimp only; omega
      · rw [List.mem_singleton] at hr; subst hr; dsimp only; omega
    · intro g hg
      obtain ⟨r, hr, e⟩ := h.rs.alive g hg
      exact ⟨r, List.mem_append_left _ hr, e⟩
    · intro r hr
      rcases List.mem_append.mp hr with hr | hr
      · exact h.rs.tops r hr
      · rw [List.mem_singleton] at hr
        subst hr
        refine ⟨by simp, ?_⟩
        intro p
        simp only [List.not_mem_nil, false_iff, not_exists, not_and]
        intro g hg _ e
        obtain ⟨r, hr, e1, -⟩ := h.rs.alive g hg
        have := h.rs.lt r hr
        omega

/-- What adding does. -/
theorem addTopicRoute_spec {s s' : State} {G : List Ent} (h : GInv s G) {e : Bytes} {d : Nat}
    {dup : Bool} {rc : Rc} (hs : addTopicRoute s e d dup = .ok (s', rc)) :
    (rc ≠ .ok → GInv s' G ∧ s'.root = s.root) ∧
    (rc = .ok → (tokens e = [] ∧ s' = s) ∨
      ∃ a id, tokens e ≠ [] ∧
        (add id (dup && e ≠ advisory) (tokens e) false true [] s.root) = (s'.root, .ok a) ∧
        ((dup && decide (e ≠ advisory)) = true → ∀ g ∈ G, g.path ≠ a) ∧
        ((∀ g ∈ G, ¬ (g.path = a ∧ g.data = d)) → GInv s' (G ++ [⟨a, id, d⟩]))) := by
  unfold addTopicRoute at hs
  by_cases hv : validate e = false
  · rw [if_pos hv] at hs
    cases hs
    exact ⟨fun _ => ⟨h, rfl⟩, fun x => by cases x⟩
  · rw [if_neg hv] at hs
    unfold tokenize at hs
    split at hs
    · rw [Res.ok_bind] at hs
      by_cases ht : tokens e = []
      · rw [if_pos ht] at hs
        cases hs
        exact ⟨fun x => absurd rfl x, fun _ => Or.inl ⟨ht, rfl⟩⟩
      · rw [if_neg ht] at hs
        obtain ⟨g1, g2, r, hr, hid, hdat⟩ := getOrCreate_spec h d
        dsimp only at hs
        generalize hg : getOrCreate s d = g at *
        cases hadd : add g.2 (dup && decide (e ≠ advisory)) (tokens e) false true [] g.1.root with
        | mk root' res =>
          have hsp := add_spec g.2 (dup && decide (e ≠ advisory)) (tokens e) false true [] g.1.root g1.wf
          have herr := add_err g.2 (dup && decide (e ≠ advisory)) (tokens e) false true [] g.1.root
          rw [hadd] at hs hsp herr
          obtain ⟨w1, w2, w3⟩ := hsp
          cases res with
          | protocolError =>
            cases hs
            have er := herr (by intro q hq; cases hq)
            dsimp only at er
            refine ⟨fun _ => ⟨?_, ?_⟩, fun x => by cases x⟩
            · rw [er]; exact g1
            · rw [er]; exact g2
          | duplicate =>
            cases hs
            have er := herr (by intro q hq; cases hq)
            dsimp only at er
            refine ⟨fun _ => ⟨?_, ?_⟩, fun x => by cases x⟩
            · rw [er]; exact g1
            · rw [er]; exact g2
          | ok a =>
            cases hs
            obtain ⟨a', ea, at1, at2, at3⟩ := w2 a rfl
            simp only [List.nil_append] at ea
            subst ea
            dsimp only at at1 at2
            refine ⟨fun x => absurd rfl x, fun _ => Or.inr ⟨a, g.2, ht, ?_, ?_, ?_⟩⟩
            · rw [← g2]; exact hadd
            · intro hd g' hg' e'
              have := at3 hd (Or.inl rfl)
              rw [g1.at_, List.map_eq_nil_iff, List.filter_eq_nil_iff] at this
              exact this g' hg' (by simpa using e')
            · intro hnew
              have hnew' : ∀ g' ∈ G, ¬ (g'.path = a ∧ g'.id = g.2) := by
                rintro g' hg' ⟨e1, e2⟩
                obtain ⟨r', hr', e3, e4⟩ := g1.rs.alive g' hg'
                have : r' = r := inj_of_nodup (·.id) g1.rs.ids hr' hr (by omega)
                subst this
                exact hnew g' hg' ⟨e1, by omega⟩
              have hr0 : ∀ x ∈ g.1.routes, x.id = g.2 → x = r := fun x hx e =>
                inj_of_nodup (·.id) g1.rs.ids hx hr (by omega)
              have hane : a ∉ r.topics := by
                intro hm
                obtain ⟨g', hg', e1, e2⟩ := ((g1.rs.tops r hr).2 a).mp hm
                exact hnew' g' hg' ⟨e1, by omega⟩
              refine ⟨w1, ?_, ?_, ?_, ?_⟩
              · dsimp only
                have : ∀ (t' : Topic) q, (add g.2 (dup && decide (e ≠ advisory)) (tokens e) false true []
                    g.1.root) = (t', .ok q) → t'.routes = g.1.root.routes := by
                  intro t' q hq
                  cases hts : tokens e with
                  | nil => exact absurd hts ht
                  | cons tok ts =>
                    rw [hts, add] at hq
                    split at hq
                    · cases hq
                    · dsimp only at hq
                      split at hq
                      · cases hq; rfl
                      · rw [Prod.mk.injEq] at hq; rw [← hq.1]
                    · dsimp only at hq
                      split at hq
                      · cases hq; rfl
                      · rw [Prod.mk.injEq] at hq; rw [← hq.1]
                rw [this _ _ hadd]
                exact g1.top
              · intro p
                dsimp only
                rw [at1, g1.at_, List.filter_append, List.map_append]
                congr 1
                by_cases e : p = a
                · subst e; simp
                · have e' : ¬ a = p := fun z => e z.symm
                  simp [e, e']
              · rw [List.map_append, List.nodup_append]
                refine ⟨g1.nodup, by simp, ?_⟩
                intro x hx y hy
                obtain ⟨g', hg', rfl⟩ := List.mem_map.mp hx
                simp only [List.map_cons, List.map_nil, List.mem_singleton] at hy
                subst hy
                intro e'
                simp only [Prod.mk.injEq] at e'
                exact hnew' g' hg' e'
              · dsimp only
                unfold recordTopic
                constructor
                · have hids : (g.1.routes.map (fun x => if x.id = g.2 then { x with topics := addOnce x.topics a } else x)).map
                      (·.id) = g.1.routes.map (·.id) := by
                    rw [List.map_map]
                    apply List.map_congr_left
                    intro x _
                    simp only [Function.comp]
                    split <;> rfl
                  rw [hids]; exact g1.rs.ids
                · have hdatas : (g.1.routes.map (fun x => if x.id = g.2 then { x with topics := addOnce x.topics a } else x)).map
                      (·.data) = g.1.routes.map (·.data) := by
                    rw [List.map_map]
                    apply List.map_congr_left
                    intro x _
                    simp only [Function.comp]
                    split <;> rfl
                  rw [hdatas]; exact g1.rs.datas
                · intro x hx
                  obtain ⟨y, hy, rfl⟩ := List.mem_map.mp hx
                  have := g1.rs.lt y hy
                  split <;> exact this
                · intro g' hg'
                  rcases List.mem_append.mp hg' with hg' | hg'
                  · obtain ⟨r', hr', e1, e2⟩ := g1.rs.alive g' hg'
                    refine ⟨_, List.mem_map.mpr ⟨r', hr', rfl⟩, ?_, ?_⟩
                    · split <;> exact e1
                    · split <;> exact e2
                  · rw [List.mem_singleton] at hg'
                    subst hg'
                    refine ⟨_, List.mem_map.mpr ⟨r, hr, rfl⟩, ?_, ?_⟩
                    · split <;> exact hid
                    · split <;> exact hdat
                · intro x hx
                  obtain ⟨y, hy, rfl⟩ := List.mem_map.mp hx
                  obtain ⟨t1, t2⟩ := g1.rs.tops y hy
                  by_cases e : y.id = g.2
                  · rw [if_pos e]
                    have := hr0 y hy e
                    subst this
                    dsimp only
                    rw [addOnce, if_neg hane]
                    constructor
                    · rw [List.nodup_append]
                      refine ⟨t1, by simp, ?_⟩
                      intro p hp q hq
                      rw [List.mem_singleton] at hq
                      subst hq
                      rintro rfl
                      exact hane hp
                    · intro p
                      rw [List.mem_append, t2, List.mem_singleton]
                      constructor
                      · rintro (⟨g', hg', e1, e2⟩ | rfl)
                        · exact ⟨g', List.mem_append_left _ hg', e1, e2⟩
                        · exact ⟨⟨p, g.2, d⟩, by simp, rfl, hid.symm⟩
                      · rintro ⟨g', hg', e1, e2⟩
                        rcases List.mem_append.mp hg' with hg' | hg'
                        · exact Or.inl ⟨g', hg', e1, e2⟩
                        · rw [List.mem_singleton] at hg'
                          subst hg'
                          exact Or.inr e1.symm
                  · rw [if_neg e]
                    refine ⟨t1, ?_⟩
                    intro p
                    rw [t2]
                    constructor
                    · rintro ⟨g', hg', e1, e2⟩
                      exact ⟨g', List.mem_append_left _ hg', e1, e2⟩
                    · rintro ⟨g', hg', e1, e2⟩
                      rcases List.mem_append.mp hg' with hg' | hg'
                      · exact ⟨g', hg', e1, e2⟩
                      · rw [List.mem_singleton] at hg'
                        subst hg'
                        exact absurd e2.symm e
    · cases hs

/-- Taking one route out of a list without repetitions. -/
theorem filter_erase {G : List Ent} (h : (G.map (fun g => (g.path, g.id))).Nodup) (p : Path) (i : Nat) :
    ((G.filter (fun g => g.path = p)).map (·.id)).erase i =
      ((G.filter (fun g => g.id ≠ i)).filter (fun g => g.path = p)).map (·.id) := by
  have hnd : ((G.filter (fun g => g.path = p)).map (·.id)).Nodup := by
    rw [List.Nodup, List.pairwise_map] at h ⊢
    have := List.Pairwise.filter (fun g => decide (g.path = p)) h
    refine List.Pairwise.imp_of_mem ?_ this
    intro a b ha hb hab e
    rw [List.mem_filter] at ha hb
    have h1 : a.path = p := by simpa using ha.2
    have h2 : b.path = p := by simpa using hb.2
    exact hab (by rw [h1, h2, e])
  rw [List.Nodup.erase_eq_filter hnd, List.filter_map, List.filter_filter, List.filter_filter]
  congr 1
  apply List.filter_congr
  intro x _
  simp only [Function.comp]
  rw [Bool.and_comm]
  congr 1
  by_cases e : x.id = i <;> simp [e, bne]

theorem removeRoute_spec {s : State} {G : List Ent} (h : GInv s G) (d : Nat) :
    GInv (removeRoute s d) (G.filter (fun g => g.data ≠ d)) := by
  unfold removeRoute
  cases hf : s.routes.find? (fun r => r.data = d) with
  | none =>
    dsimp only
    rw [List.find?_eq_none] at hf
    have : G.filter (fun g => g.data ≠ d) = G := by
      rw [List.filter_eq_self]
      intro g hg
      obtain ⟨r, hr, -, e⟩ := h.rs.alive g hg
      have := hf r hr
      simp only [decide_eq_true_eq] at this
      simp only [ne_eq, decide_eq_true_eq]
      omega
    rw [this]
    exact h
  | some r =>
    dsimp only
    have hr := List.mem_of_find?_eq_some hf
    have hd : r.data = d := by simpa using List.find?_some hf
    have hGe : G.filter (fun g => g.data ≠ d) = G.filter (fun g => g.id ≠ r.id) := by
      apply List.filter_congr
      intro g hg
      obtain ⟨r', hr', e1, e2⟩ := h.rs.alive g hg
      rw [decide_eq_decide]
      constructor
      · intro hne e
        have := inj_of_nodup (·.id) h.rs.ids hr' hr (by omega)
        subst this
        omega
      · intro hne e
        have := inj_of_nodup (·.data) h.rs.datas hr' hr (by omega)
        subst this
        omega
    have hmem : ∀ x, x ∈ s.routes.eraseP (fun x => decide (x.data = d)) ↔ x ∈ s.routes ∧ x.data ≠ d := by
      intro x
      constructor
      · intro hx
        refine ⟨List.eraseP_sublist.mem hx, ?_⟩
        intro e
        obtain ⟨l1, l2, l3⟩ : ∃ l1 l2, s.routes = l1 ++ r :: l2 := List.append_of_mem hr
        have hnd := h.rs.datas
        rw [l3] at hnd hx
        have hl1 : ∀ y ∈ l1, ¬ y.data = d := by
          intro y hy e'
          rw [List.map_append, List.nodup_append] at hnd
          exact hnd.2.2 y.data (List.mem_map.mpr ⟨y, hy, rfl⟩) r.data (by simp) (by omega)
        rw [List.eraseP_append_right _ (by simpa using hl1), List.eraseP_cons_of_pos (by simpa using hd)] at hx
        rw [List.map_append, List.nodup_append] at hnd
        rcases List.mem_append.mp hx with hx | hx
        · exact hl1 x hx e
        · simp only [List.map_cons, List.nodup_cons] at hnd
          exact hnd.2.1.1 (List.mem_map.mpr ⟨x, hx, by omega⟩)
      · rintro ⟨hx, hne⟩
        rw [List.mem_eraseP_of_neg (by simpa using hne)]
        exact hx
    rw [hGe]
    have hw := wf_eraseRoute r.id s.root h.wf
    refine ⟨?_, h.top, ?_, ?_, ?_⟩
    · dsimp only
      constructor
      · dsimp only; rw [← eraseRoute_children]; exact hw.names
      · dsimp only; rw [← eraseRoute_children]; exact hw.alone
      · dsimp only; rw [← eraseRoute_children, ← eraseRoute_isTable r.id]; exact hw.table
      · dsimp only; rw [← eraseRoute_children]; exact hw.sub
    · intro p
      have h1 := routesAt_eraseRoute r.id s.root h.wf p
      have h2 : routesAt { s.root with children := eraseRouteL r.id s.root.children } p =
          routesAt (eraseRoute r.id s.root) p := by
        cases p with
        | nil => rw [routesAt_nil, routesAt_nil, eraseRoute_routes, h.top]; rfl
        | cons n p => rw [routesAt_cons, routesAt_cons, eraseRoute_children]
      dsimp only
      rw [h2, h1, h.at_, filter_erase h.nodup]
    · exact List.Nodup.sublist (List.filter_sublist.map _) h.nodup
    · have hsub : (s.routes.eraseP (fun x => x.data = d)).Sublist s.routes := List.eraseP_sublist
      constructor
      · exact List.Nodup.sublist (hsub.map _) h.rs.ids
      · exact List.Nodup.sublist (hsub.map _) h.rs.datas
      · intro x hx
        exact h.rs.lt x (hsub.mem hx)
      · intro g hg
        rw [List.mem_filter] at hg
        obtain ⟨r', hr', e1, e2⟩ := h.rs.alive g hg.1
        refine ⟨r', (hmem r').mpr ⟨hr', ?_⟩, e1, e2⟩
        intro e
        have := inj_of_nodup (·.data) h.rs.datas hr' hr (by omega)
        subst this
        have := hg.2
        simp only [ne_eq, decide_eq_true_eq] at this
        omega
      · intro x hx
        obtain ⟨hx1, hx2⟩ := (hmem x).mp hx
        obtain ⟨t1, t2⟩ := h.rs.tops x hx1
        refine ⟨t1, ?_⟩
        intro p
        rw [t2]
        constructor
        · rintro ⟨g, hg, e1, e2⟩
          refine ⟨g, List.mem_filter.mpr ⟨hg, ?_⟩, e1, e2⟩
          simp only [ne_eq, decide_eq_true_eq]
          intro e3
          have := inj_of_nodup (·.id) h.rs.ids hx1 hr (by omega)
          subst this
          exact hx2 hd
        · rintro ⟨g, hg, e1, e2⟩
          exact ⟨g, (List.mem_filter.mp hg).1, e1, e2⟩

theorem removeTopic_spec {s : State} {G : List Ent} (h : GInv s G) (e : Bytes)
    (ht : tokenize e = .ok (tokens e)) :
    ∃ s', removeTopic s e = .ok s' ∧
      ((detach [] (tokens e) s.root = none ∧ s' = s) ∨
        ∃ root a c, detach [] (tokens e) s.root = some (root, a, c) ∧ s'.root = root ∧
          GInv s' (G.filter (fun g => ¬ a <+: g.path))) := by
  unfold removeTopic
  rw [ht, Res.ok_bind]
  cases hd : detach [] (tokens e) s.root with
  | none => exact ⟨s, rfl, Or.inl ⟨rfl, rfl⟩⟩
  | some x =>
    obtain ⟨root, a, c⟩ := x
    dsimp only
    obtain ⟨a', e1, e2, e3, e4, e5, -, e6, e7, e8⟩ := detach_spec h.wf hd
    simp only [List.nil_append] at e1
    subst e1
    have hsub : ∀ p, routesAt c p = routesAt s.root (a ++ p) := by
      have : ∀ (a : Path) (t : Topic), get a t = some c → ∀ p, routesAt c p = routesAt t (a ++ p) := by
        intro a
        induction a with
        | nil =>
          intro t ht p
          simp only [get, Option.some.injEq] at ht
          subst ht
          rfl
        | cons n a ih =>
          intro t ht p
          simp only [get] at ht
          rw [List.cons_append, routesAt_cons]
          cases hc : child n t.children with
          | none => rw [hc] at ht; cases ht
          | some x =>
            rw [hc] at ht
            simp only [Option.map_some, Option.getD_some]
            exact ih x ht p
      exact this a s.root e3
    have hnd : ∀ p, (routesAt s.root p).Nodup := by
      intro p
      rw [h.at_]
      have h' := h.nodup
      rw [List.Nodup, List.pairwise_map] at h' ⊢
      have := List.Pairwise.filter (fun g => decide (g.path = p)) h'
      refine List.Pairwise.imp_of_mem ?_ this
      intro a b ha hb hab e
      rw [List.mem_filter] at ha hb
      have h1 : a.path = p := by simpa using ha.2
      have h2 : b.path = p := by simpa using hb.2
      exact hab (by rw [h1, h2, e])
    have hme : ∀ x, x ∈ entries a c ↔ ∃ g ∈ G, (g.path, g.id) = x ∧ a <+: g.path := by
      rintro ⟨q, i⟩
      rw [mem_entries c e5]
      constructor
      · rintro ⟨s', rfl, hi⟩
        rw [hsub, h.at_, List.mem_map] at hi
        obtain ⟨g, hg, rfl⟩ := hi
        rw [List.mem_filter] at hg
        have hp : g.path = a ++ s' := by simpa using hg.2
        exact ⟨g, hg.1, by rw [hp], by rw [hp]; exact List.prefix_append _ _⟩
      · rintro ⟨g, hg, e, s', hs'⟩
        cases e
        refine ⟨s', hs'.symm, ?_⟩
        rw [hsub, h.at_, List.mem_map]
        exact ⟨g, List.mem_filter.mpr ⟨hg, by simp [hs']⟩, rfl⟩
    obtain ⟨rs', d1, d2⟩ := dropTopics_spec (entries a c) h.rs
      (entries_nodup c e5 (fun p => by rw [hsub]; exact hnd _) a)
      (by
        intro x hx
        obtain ⟨g, hg, e, -⟩ := (hme x).mp hx
        exact ⟨g, hg, e⟩)
    rw [d1, Res.ok_bind]
    refine ⟨_, rfl, Or.inr ⟨root, a, c, rfl, rfl, ?_⟩⟩
    have hGe : G.filter (fun g => (g.path, g.id) ∉ entries a c) = G.filter (fun g => ¬ a <+: g.path) := by
      apply List.filter_congr
      intro g hg
      rw [decide_eq_decide, hme]
      constructor
      · intro hn hp
        exact hn ⟨g, hg, rfl, hp⟩
      · rintro hn ⟨g', hg', e, hp⟩
        simp only [Prod.mk.injEq] at e
        rw [e.1] at hp
        exact hn hp
    rw [hGe] at d2
    refine ⟨e4, by dsimp only; rw [e6]; exact h.top, ?_, ?_, d2⟩
    · intro p
      dsimp only
      rw [e7]
      split
      · rename_i hp
        symm
        rw [List.map_eq_nil_iff, List.filter_eq_nil_iff]
        intro g hg
        rw [List.mem_filter] at hg
        have := hg.2
        simp only [decide_not, Bool.not_eq_eq_eq_not, Bool.not_true, decide_eq_false_iff_not] at this
        simp only [decide_eq_true_eq]
        rintro rfl
        exact this hp
      · rename_i hp
        rw [h.at_, List.filter_filter]
        congr 1
        apply List.filter_congr
        intro g _
        by_cases e : g.path = p
        · subst e; simp [hp]
        · simp [e]
    · exact List.Nodup.sublist (List.filter_sublist.map _) h.nodup

end Verif.Routing
