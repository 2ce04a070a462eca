import Verif.Proof.RoutingBelow
import Verif.Proof.RoutingParse
import Verif.Spec.RouterUse

/-! # Facts about the routing tree used for the router -/

namespace Verif.Routing

open Verif

/-- Component by component the same, except where there are braces. -/
def Near : Path → Path → Prop
  | [], [] => True
  | t :: ts, u :: us => (t = u ∨ brace t = true ∨ brace u = true) ∧ Near ts us
  | _, _ => False

theorem Near.concat {ts us : Path} {t u : Token} (h : Near ts us) (h' : t = u ∨ brace t = true ∨ brace u = true) :
    Near (t :: ts) (u :: us) := ⟨h', h⟩

theorem add_near (id : Nat) (dup : Bool) (ts : List Token) (created root : Bool) (path : Path) (t : Topic)
    {q : Path} (h : (add id dup ts created root path t).2 = .ok q) :
    ∃ a, q = path ++ a ∧ Near ts a := by
  induction ts generalizing created root path t with
  | nil =>
    rw [add] at h
    split at h
    · cases h
    · cases h
      exact ⟨[], by simp, trivial⟩
  | cons tok ts ih =>
    rw [add] at h
    split at h
    · cases h
    · rename_i k pre c post hk hf
      obtain ⟨mid, -, -, -, h4, h5, -⟩ := find_hit hf
      dsimp only at h
      split at h
      · rename_i p hp
        cases h
        obtain ⟨a, e, hn⟩ := ih _ _ _ _ hp
        refine ⟨c.name :: a, by rw [e]; simp, ?_, hn⟩
        by_cases hk : k = .exact
        · exact Or.inl (h4 hk).symm
        · exact Or.inr (h5 hk).2.symm
      · rename_i e hne
        exact absurd h (hne _)
    · dsimp only at h
      split at h
      · rename_i p hp
        cases h
        obtain ⟨a, e, hn⟩ := ih _ _ _ _ hp
        exact ⟨tok :: a, by rw [e]; simp, Or.inl rfl, hn⟩
      · rename_i e hne
        exact absurd h (hne _)

theorem walk_near {ts : Path} {t c : Topic} (hw : WF t) (h : walk ts t = some c) :
    ∃ p, Near ts p ∧ get p t = some c := by
  induction ts generalizing t with
  | nil =>
    cases h
    exact ⟨[], trivial, rfl⟩
  | cons tok ts ih =>
    rw [walk] at h
    split at h
    · rename_i k pre y post hf
      obtain ⟨mid, -, h2, -, h4, h5, -⟩ := find_hit hf
      have hy : y ∈ t.children := by rw [h2]; simp
      obtain ⟨p, hl, hg⟩ := ih (hw.sub y hy) h
      refine ⟨y.name :: p, ⟨?_, hl⟩, by simp [get, child_of_mem hw.names hy, hg]⟩
      by_cases hk : k = .exact
      · exact Or.inl (h4 hk).symm
      · exact Or.inr (h5 hk).2.symm
    · cases h

/-- The entries of one name. -/
def atPath (G : List Ent) (p : Path) : List Ent := G.filter (fun g => g.path = p)

theorem getTopicRoutes_spec {s : State} {G : List Ent} (h : GInv s G) {q : Bytes}
    (hq : tokenize q = .ok (tokens q)) (hdot : q.getLast? ≠ some dot) :
    ∃ p, getTopicRoutes s q = .ok ((atPath G p).map (·.id)) ∧
      (atPath G p = [] ∨ ∃ p0, p0 <+: p ∧ Near (tokens q) p0 ∧ tokens q ≠ []) := by
  have hnone : ∃ p, (.ok [] : Res (List Nat)) = .ok ((atPath G p).map (·.id)) ∧ atPath G p = [] := by
    refine ⟨[], ?_⟩
    have h0 : (atPath G []).map (·.id) = [] := by
      have := h.at_ []
      rw [routesAt_nil, h.top] at this
      exact this.symm
    exact ⟨by rw [h0], by simpa using h0⟩
  unfold getTopicRoutes
  rw [hq, Res.ok_bind]
  by_cases ht : tokens q = []
  · rw [if_pos ht]
    obtain ⟨p, e1, e2⟩ := hnone
    exact ⟨p, e1, Or.inl e2⟩
  · rw [if_neg ht]
    cases hwk : walk (tokens q) s.root with
    | none =>
      obtain ⟨p, e1, e2⟩ := hnone
      exact ⟨p, e1, Or.inl e2⟩
    | some c =>
      dsimp only
      obtain ⟨p, hpl, hg⟩ := walk_near h.wf hwk
      have hcw := get_wf h.wf hg
      have hat : ∀ p', routesAt c p' = routesAt s.root (p ++ p') := by
        intro p'
        unfold routesAt
        rw [get_append, hg]
        rfl
      unfold chosen
      rw [if_neg hdot]
      split
      · split
        · rename_i k pre x post hf
          obtain ⟨mid, -, h2, -⟩ := find_hit hf
          have hx : x ∈ c.children := by rw [h2]; simp
          have e : x.routes.getD [] = routesAt s.root (p ++ [x.name]) := by
            rw [← hat, routesAt_cons, child_of_mem hcw.names hx]
            rfl
          refine ⟨p ++ [x.name], ?_, Or.inr ⟨p, List.prefix_append _ _, hpl, ht⟩⟩
          rw [e, h.at_]
          rfl
        · obtain ⟨p, e1, e2⟩ := hnone
          exact ⟨p, e1, Or.inl e2⟩
      · refine ⟨p, ?_, Or.inr ⟨p, List.prefix_rfl, hpl, ht⟩⟩
        have e : c.routes.getD [] = routesAt s.root p := by
          rw [← routesAt_nil, hat, List.append_nil]
        rw [e, h.at_]
        rfl

theorem apart_near {q : Path} {o p : Path} (ho : ∀ t ∈ o, brace t = false)
    (h : (q.zip o).any (fun x => x.1 ≠ x.2 && x.1.head? ≠ some 123) = true) (hn : Near q p) :
    ¬ p <+: o := by
  induction q generalizing o p with
  | nil => simp at h
  | cons t q ih =>
    cases o with
    | nil => simp at h
    | cons u o =>
      cases p with
      | nil => exact hn.elim
      | cons v p =>
        rw [List.cons_prefix_cons]
        rintro ⟨rfl, hp⟩
        obtain ⟨h1, h2⟩ := hn
        rw [List.zip_cons_cons, List.any_cons, Bool.or_eq_true] at h
        rcases h with h | h
        · simp only [ne_eq, Bool.and_eq_true, decide_not, Bool.not_eq_true',
            decide_eq_false_iff_not] at h
          rcases h1 with h1 | h1 | h1
          · exact h.1 h1
          · rw [brace, decide_eq_true_eq] at h1; exact h.2 h1
          · rw [ho v (by simp)] at h1; cases h1
        · exact ih (fun t ht => ho t (List.mem_cons_of_mem _ ht)) h h2 hp

theorem deref_ent {s : State} {G : List Ent} (h : GInv s G) {g : Ent} (hg : g ∈ G) :
    deref s g.id = .ok g.data := by
  obtain ⟨r, hr, e1, e2⟩ := h.rs.alive g hg
  have hf := h.rs.find hr
  rw [deref, ← e1, hf, ← e2]

theorem lookup_spec {s : State} {G : List Ent} (h : GInv s G) {q : Bytes}
    (hq : tokenize q = .ok (tokens q)) (hdot : q.getLast? ≠ some dot) :
    ∃ p, getTopicRoutes s q = .ok ((atPath G p).map (·.id)) ∧
      lookup s q = .ok ((atPath G p).map (·.data)) ∧
      (atPath G p = [] ∨ ∃ p0, p0 <+: p ∧ Near (tokens q) p0 ∧ tokens q ≠ []) := by
  obtain ⟨p, e1, e2⟩ := getTopicRoutes_spec h hq hdot
  refine ⟨p, e1, ?_, e2⟩
  rw [lookup, e1, Res.ok_bind]
  have : ∀ l : List Ent, (∀ g ∈ l, g ∈ G) → derefAll s (l.map (·.id)) = .ok (l.map (·.data)) := by
    intro l
    induction l with
    | nil => intro _; rfl
    | cons g l ih =>
      intro hl
      rw [List.map_cons, derefAll, deref_ent h (hl g (by simp)), Res.ok_bind,
        ih (fun x hx => hl x (List.mem_cons_of_mem _ hx))]
      rfl
  exact this _ (fun g hg => (List.mem_filter.mp hg).1)

theorem addTopicRoute_ok (s : State) {e : Bytes} (d : Nat) (dup : Bool) (h : tokenize e = .ok (tokens e)) :
    ∃ s' rc, addTopicRoute s e d dup = .ok (s', rc) := by
  unfold addTopicRoute
  split
  · exact ⟨_, _, rfl⟩
  · rw [h, Res.ok_bind]
    split
    · exact ⟨_, _, rfl⟩
    · dsimp only
      split <;> exact ⟨_, _, rfl⟩

theorem firstTopics_ok {s : State} {G : List Ent} (h : GInv s G) (l : List Nat)
    (hl : ∀ i ∈ l, ∃ g ∈ G, g.id = i) : ∃ ps, firstTopics s l = .ok ps := by
  induction l with
  | nil => exact ⟨[], rfl⟩
  | cons i l ih =>
    obtain ⟨ps, e⟩ := ih (fun x hx => hl x (List.mem_cons_of_mem _ hx))
    obtain ⟨g, hg, rfl⟩ := hl i (by simp)
    obtain ⟨r, hr, e1, e2⟩ := h.rs.alive g hg
    have hf := h.rs.find hr
    have ht : g.path ∈ r.topics := ((h.rs.tops r hr).2 _).mpr ⟨g, hg, rfl, e1.symm⟩
    rw [firstTopics, firstTopic, ← e1, hf]
    dsimp only
    cases hr' : r.topics with
    | nil => rw [hr'] at ht; cases ht
    | cons p ps' =>
      dsimp only
      rw [Res.ok_bind, e]
      exact ⟨_, rfl⟩

theorem resolvePartial_ok {s : State} {G : List Ent} (h : GInv s G) (hb : Below s G) {q : Bytes}
    (hq : tokenize q = .ok (tokens q)) : ∃ ps, resolvePartial s q = .ok ps := by
  unfold resolvePartial
  rw [hq, Res.ok_bind]
  split
  · exact ⟨_, rfl⟩
  · rename_i hne
    cases hwk : walk (tokens q) s.root with
    | none => exact ⟨_, rfl⟩
    | some c =>
      dsimp only
      obtain ⟨p, hpl, hg⟩ := walk_get h.wf hwk
      have hpne : p ≠ [] := by
        rintro rfl
        exact hne (List.length_eq_zero_iff.mp hpl.symm)
      apply firstTopics_ok h
      intro i hi
      obtain ⟨g, hg', e, -⟩ := ((hb p c hpne hg).2 i).mp hi
      exact ⟨g, hg', e⟩

end Verif.Routing
