import Verif.Proof.RoutingBelow

/-! # When a name can be registered again -/

namespace Verif.Routing

open Verif Verif.Spec.Routing

/-- The route list at a path, with NULL and empty told apart. -/
def listAt (t : Topic) (p : Path) : Option (List Nat) := (get p t).bind (·.routes)

theorem listAt_cons (t : Topic) (n : Token) (p : Path) :
    listAt t (n :: p) = (child n t.children).bind (fun c => listAt c p) := by
  simp only [listAt, get]
  cases child n t.children <;> rfl

theorem listAt_newTopic (n : Token) (p : Path) : listAt (newTopic n) p = none := by
  cases p with
  | nil => rfl
  | cons m p => rfl

/-- Adding a route changes no other list. -/
theorem add_list (id : Nat) (dup : Bool) (ts : List Token) (created root : Bool) (path : Path)
    (t : Topic) (h : WF t) (a : Path) (hq : (add id dup ts created root path t).2 = .ok (path ++ a))
    (p : Path) (hp : p ≠ a) : listAt (add id dup ts created root path t).1 p = listAt t p := by
  induction ts generalizing created root path t a p with
  | nil =>
    rw [add] at hq ⊢
    split at hq
    · cases hq
    · rename_i hd
      rw [if_neg hd]
      simp only [Added.ok.injEq] at hq
      have : a = [] := by
        have := congrArg List.length hq
        simp only [List.length_append] at this
        exact List.length_eq_zero_iff.mp (by omega)
      subst this
      cases p with
      | nil => exact absurd rfl hp
      | cons n p => rfl
  | cons tok ts ih =>
    rw [add] at hq ⊢
    split at hq
    · cases hq
    · rename_i k pre c post hk hf
      obtain ⟨mid, h1, h2, h3, -⟩ := find_hit hf
      simp only [List.nil_append] at h1
      subst h1
      have hc : c ∈ t.children := by rw [h2]; simp
      have hname := add_name id dup ts false false (path ++ [c.name]) c
      have hnd := h.names
      rw [h2] at hnd
      have hcc : child c.name t.children = some c := child_of_mem h.names hc
      have hch : ∀ n, child n
          (pre ++ (add id dup ts false false (path ++ [c.name]) c).1 :: post) =
          if n = c.name then some (add id dup ts false false (path ++ [c.name]) c).1
          else child n t.children := by
        intro n
        rw [child_replace hname hnd, ← h2]
      dsimp only at hq
      cases hr : (add id dup ts false false (path ++ [c.name]) c).2 with
      | protocolError => rw [hr] at hq; cases hq
      | duplicate => rw [hr] at hq; cases hq
      | ok q0 =>
        rw [hr] at hq
        simp only [Added.ok.injEq] at hq
        subst hq
        obtain ⟨-, hs, -⟩ := add_spec id dup ts false false (path ++ [c.name]) c (h.sub c hc)
        obtain ⟨a', ha, -⟩ := hs _ hr
        have hqa : a = c.name :: a' := by
          rw [List.append_assoc] at ha
          exact List.append_cancel_left ha
        subst hqa
        have hgoal : listAt ⟨t.name, t.isTable, t.routes,
            if root = true then t.routes2 else addOnce t.routes2 id,
            pre ++ (add id dup ts false false (path ++ [c.name]) c).1 :: post⟩ p = listAt t p := by
          cases p with
          | nil => rfl
          | cons n p =>
            rw [listAt_cons, listAt_cons, hch]
            by_cases e : n = c.name
            · subst e
              have := ih false false (path ++ [c.name]) c (h.sub c hc) a' (by rw [hr, ha]) p
                (fun e => hp (by rw [e]))
              simp only [if_true, hcc, Option.bind_some]
              exact this
            · simp [e]
        cases k with
        | conflict => exact (hk rfl).elim
        | exact => dsimp only; rw [hr]; exact hgoal
        | inst => dsimp only; rw [hr]; exact hgoal
    · rename_i hf
      have hm := find_missing hf
      have hname := add_name id dup ts true false (path ++ [tok]) (newTopic tok)
      have hnn : (newTopic tok).name = tok := rfl
      have hno : child tok t.children = none := child_none.mpr (fun c hc => (hm c hc).1)
      have hch : ∀ n, child n
          (t.children ++ [(add id dup ts true false (path ++ [tok]) (newTopic tok)).1]) =
          if n = tok then some (add id dup ts true false (path ++ [tok]) (newTopic tok)).1
          else child n t.children := by
        intro n
        rw [child_append, hname, hnn]
        by_cases e : n = tok
        · subst e; simp [hno]
        · have e' : ¬ tok = n := fun x => e x.symm
          simp [e, e']
      have hr := add_new id dup ts false (path ++ [tok]) tok
      dsimp only at hq ⊢
      rw [hr] at hq
      rw [hr]
      dsimp only
      simp only [Added.ok.injEq, List.append_assoc, List.singleton_append] at hq
      have hqa : a = tok :: ts := (List.append_cancel_left hq).symm
      subst hqa
      cases p with
      | nil => rfl
      | cons n p =>
        rw [listAt_cons, listAt_cons, hch]
        by_cases e : n = tok
        · subst e
          have := ih true false (path ++ [n]) (newTopic n) (wf_newTopic n) ts hr p
            (fun e => hp (by rw [e]))
          simp only [if_true, hno, Option.bind_some, Option.bind_none]
          rw [this, listAt_newTopic]
        · simp [e]

/-- A duplicate is reported only for a topic with a list. -/
theorem add_dup (id : Nat) (dup : Bool) (ts : List Token) (created root : Bool) (path : Path)
    (t : Topic) (h : WF t) (ha : Agree ts t)
    (hq : (add id dup ts created root path t).2 = .duplicate) : (listAt t ts).isSome = true := by
  induction ts generalizing created root path t with
  | nil =>
    rw [add] at hq
    split at hq
    · rename_i hd
      exact hd.2.2
    · cases hq
  | cons tok ts ih =>
    rw [add] at hq
    split at hq
    · cases hq
    · rename_i k pre c post hk hf
      obtain ⟨mid, h1, h2, h3, h4⟩ := find_hit hf
      have hc : c ∈ t.children := by rw [h2]; simp
      have hcc : child c.name t.children = some c := child_of_mem h.names hc
      dsimp only at hq
      have hd : (add id dup ts false false (path ++ [c.name]) c).2 = .duplicate := by
        cases hr : (add id dup ts false false (path ++ [c.name]) c).2 with
        | ok q => rw [hr] at hq; cases hq
        | protocolError => rw [hr] at hq; cases hq
        | duplicate => rfl
      have hn := (ha.find h hf).2
      rw [hn] at hcc
      rw [listAt_cons, hcc, Option.bind_some]
      exact ih false false (path ++ [c.name]) c (h.sub c hc) (ha.sub hcc) hd
    · dsimp only at hq
      rw [add_new] at hq
      cases hq

/-- Nobody's list is at this path. -/
def Clear (s : State) (n : Name) : Prop := listAt s.root n = none

theorem clear_init (n : Name) (hn : n ≠ []) : Clear init n := by
  cases n with
  | nil => exact absurd rfl hn
  | cons t n => rfl

/-- A clear name is accepted. -/
theorem clear_accepted {P : List Name} (hP : Conventional P) {s : State} {G : List Ent}
    (h : CInv P s G) {n : Name} (hn : n ∈ P) (hc : Clear s n) {w : Nat} {x : Bool} {s' : State} {rc : Rc}
    (hs : addTopicRoute s (dotted n) w x = .ok (s', rc)) : rc = .ok := by
  have hprop := (hP.1 n hn).1
  unfold addTopicRoute at hs
  rw [if_neg (by rw [validate_proper hprop]; simp), tokenize_proper hprop, Res.ok_bind,
    if_neg hprop.1] at hs
  dsimp only at hs
  have hag := h.agree hP hn
  have hroot := (getOrCreate_spec h.g w).2.1
  have h1 := (add_agree (getOrCreate s w).2 (x && decide (dotted n ≠ advisory)) n false true []
    (getOrCreate s w).1.root (by rw [hroot]; exact h.g.wf) (by rw [hroot]; exact hag)).1
  have h2 := add_dup (getOrCreate s w).2 (x && decide (dotted n ≠ advisory)) n false true []
    (getOrCreate s w).1.root (by rw [hroot]; exact h.g.wf) (by rw [hroot]; exact hag)
  split at hs
  · cases hs; rfl
  · rename_i hp; exact absurd hp h1
  · rename_i hp
    have := h2 hp
    rw [hroot, show listAt s.root n = none from hc] at this
    cases this

theorem clear_step {P : List Name} (hP : Conventional P) {s : State} {G : List Ent} (h : CInv P s G)
    {n : Name} (hc : Clear s n ) (o : Spec.Routing.Op) (ho : ∀ m ∈ names [o], m ∈ P)
    (hno : ∀ w x, o ≠ .register n w x) {s' : State} {rc : Rc}
    (hs : step s (call o) = .ok (s', rc)) : Clear s' n := by
  unfold Clear at hc ⊢
  cases o with
  | register m w x =>
    have hm := ho m (by simp [names])
    have hmn : m ≠ n := fun e => hno w x (by rw [e])
    have htoks : tokens (dotted m) = m := tokens_dotted (hP.1 m hm).1.2.1
    obtain ⟨f1, f2⟩ := addTopicRoute_spec h.g hs
    by_cases hrc : rc = .ok
    · rcases f2 hrc with ⟨e0, -⟩ | ⟨a, id', -, hadd, -, -⟩
      · rw [htoks] at e0; exact absurd e0 (hP.1 m hm).1.1
      · rw [htoks] at hadd
        have ha : a = m := by
          have := (add_agree id' _ m false true [] s.root h.g.wf (h.agree hP hm)).2 a (by rw [hadd])
          simpa using this
        subst ha
        have := add_list id' (x && decide (dotted a ≠ advisory)) a false true [] s.root h.g.wf a
          (by rw [hadd]; rfl) n (fun e => hmn e.symm)
        rw [hadd] at this
        rw [this, hc]
    · rw [(f1 hrc).2, hc]
  | forget w =>
    cases hs
    cases e : listAt (removeRoute s w).root n with
    | none => rfl
    | some l =>
      exfalso
      unfold removeRoute at e
      cases hf : s.routes.find? (fun r => r.data = w) with
      | none => rw [hf] at e; dsimp only at e; rw [hc] at e; cases e
      | some r =>
        rw [hf] at e
        dsimp only at e
        cases n with
        | nil => 
          simp only [listAt, get, Option.bind_some] at e hc
          rw [hc] at e; cases e
        | cons t n =>
          have e' : listAt (eraseRoute r.id s.root) (t :: n) = some l := by
            rw [listAt_cons] at e ⊢
            rw [eraseRoute_children]
            exact e
          unfold listAt at e' hc
          cases hg : get (t :: n) (eraseRoute r.id s.root) with
          | none => rw [hg] at e'; cases e'
          | some c =>
            obtain ⟨c0, h1, rfl⟩ := get_eraseRoute h.g.wf hg
            rw [hg, Option.bind_some, eraseRoute_routes] at e'
            rw [h1, Option.bind_some] at hc
            rw [hc] at e'
            cases e'
  | remove m =>
    have hm := ho m (by simp [names])
    have hprop := (hP.1 m hm).1
    have htoks : tokens (dotted m) = m := tokens_dotted hprop.2.1
    obtain ⟨s1, e1, e2⟩ := removeTopic_spec h.g (dotted m) (by rw [tokenize_proper hprop, htoks])
    simp only [call, step, e1, Res.ok_bind, Res.pure_eq, Res.ok.injEq, Prod.mk.injEq] at hs
    obtain ⟨rfl, -⟩ := hs
    rcases e2 with ⟨-, rfl⟩ | ⟨root, a, c, d3, e3, -⟩
    · exact hc
    · obtain ⟨a', -, -, -, -, -, -, -, -, e⟩ := detach_spec h.g.wf d3
      rw [e3]
      unfold listAt at hc ⊢
      cases hg : get n root with
      | none => rfl
      | some x =>
        obtain ⟨y, hy, -, e4, -⟩ := e n x hg
        rw [hy] at hc
        rw [Option.bind_some, e4]
        exact hc

theorem clear_removed {P : List Name} (hP : Conventional P) {s : State} {G : List Ent} (h : CInv P s G)
    {m n : Name} (hm : m ∈ P) (hmn : m <+: n) {s' : State}
    (hs : removeTopic s (dotted m) = .ok s') : Clear s' n := by
  have hprop := (hP.1 m hm).1
  have htoks : tokens (dotted m) = m := tokens_dotted hprop.2.1
  obtain ⟨s1, e1, e2⟩ := removeTopic_spec h.g (dotted m) (by rw [tokenize_proper hprop, htoks])
  rw [e1] at hs
  cases hs
  rw [htoks] at e2
  have key : get n s'.root = none := by
    rcases detach_agree [] m s.root h.g.wf (h.agree hP hm) hprop.1 with ⟨d1, d2⟩ | ⟨t', c, d1⟩
    · rcases e2 with ⟨-, rfl⟩ | ⟨root, a, c, d3, -⟩
      · obtain ⟨r, rfl⟩ := hmn
        rw [get_append, d2]
        rfl
      · rw [d1] at d3; cases d3
    · rcases e2 with ⟨d3, -⟩ | ⟨root, a, c', d3, e3, -⟩
      · rw [d1] at d3; cases d3
      · rw [d1] at d3
        simp only [Option.some.injEq, Prod.mk.injEq] at d3
        obtain ⟨rfl, rfl, rfl⟩ := d3
        obtain ⟨a', ea, -, -, -, -, -, -, -, e⟩ := detach_spec h.g.wf d1
        simp only [List.nil_append] at ea
        subst ea
        rw [e3]
        cases hg : get n t' with
        | none => rfl
        | some x =>
          obtain ⟨y, -, -, -, -, hno⟩ := e n x hg
          exact absurd hmn hno
  unfold Clear listAt
  rw [key]
  rfl

/-! ## Without removals of names, every topic has a route at or below it -/

/-- Every topic but the root has an entry at or below it. -/
def Used (s : State) (G : List Ent) : Prop :=
  ∀ p, p ≠ [] → (get p s.root).isSome = true → ∃ g ∈ G, p <+: g.path

theorem used_init : Used init [] := by
  intro p hp hg
  cases p with
  | nil => exact absurd rfl hp
  | cons n p => simp [get, init, child] at hg

theorem kept_not_bare {id : Nat} {cs : List Topic} {x : Topic} (h : x ∈ eraseRouteL id cs) : ¬ bare x := by
  induction cs with
  | nil => simp [eraseRouteL] at h
  | cons c cs ih =>
    rw [eraseRouteL_cons] at h
    split at h
    · exact ih h
    · rename_i hb
      rcases List.mem_cons.mp h with rfl | h
      · exact hb
      · exact ih h

/-- A topic that survives has a route at or below it. -/
theorem kept_used (id : Nat) (t : Topic) : WF t → ¬ bare (eraseRoute id t) →
    ∃ p i, i ∈ routesAt (eraseRoute id t) p := by
  induction t using Topic.ind with
  | h t ih =>
    intro hw hb
    by_cases hr : ((eraseRoute id t).routes.getD []).isEmpty = true
    · have hch : (eraseRoute id t).children ≠ [] := by
        intro e
        exact hb ⟨by rw [e]; rfl, hr⟩
      obtain ⟨x, hx⟩ := List.exists_mem_of_ne_nil _ hch
      have hx' := hx
      rw [eraseRoute_children] at hx'
      have hnb := kept_not_bare hx'
      obtain ⟨c, hc, rfl⟩ := mem_eraseRouteL hx'
      obtain ⟨p, i, hi⟩ := ih c hc (hw.sub c hc) hnb
      refine ⟨(eraseRoute id c).name :: p, i, ?_⟩
      rw [routesAt_cons, child_of_mem (wf_eraseRoute id t hw).names hx]
      exact hi
    · refine ⟨[], ?_⟩
      rw [routesAt_nil]
      obtain ⟨i, hi⟩ := List.exists_mem_of_ne_nil ((eraseRoute id t).routes.getD [])
        (fun e => hr (by rw [e]; rfl))
      exact ⟨i, hi⟩

theorem routesAt_append {t c : Topic} {p : Path} (h : get p t = some c) (p' : Path) :
    routesAt c p' = routesAt t (p ++ p') := by
  unfold routesAt
  rw [get_append, h]
  rfl

theorem get_not_bare {id : Nat} {t : Topic} (h : WF t) {p : Path} (hp : p ≠ []) {x : Topic}
    (hg : get p (eraseRoute id t) = some x) : ¬ bare x := by
  induction p generalizing t with
  | nil => exact absurd rfl hp
  | cons n p ih =>
    simp only [get] at hg
    cases hc : child n (eraseRoute id t).children with
    | none => rw [hc] at hg; cases hg
    | some y =>
      rw [hc, Option.bind_some] at hg
      have hy := (child_some hc).1
      rw [eraseRoute_children] at hy
      cases p with
      | nil =>
        simp only [get, Option.some.injEq] at hg
        subst hg
        exact kept_not_bare hy
      | cons m p =>
        obtain ⟨c, hc', rfl⟩ := mem_eraseRouteL hy
        exact ih (h.sub c hc') (by simp) hg

theorem used_removeRoute {s : State} {G : List Ent} (h : GInv s G) (hu : Used s G) (d : Nat) :
    Used (removeRoute s d) (G.filter (fun g => g.data ≠ d)) := by
  have hinv := removeRoute_spec h d
  intro p hp hg
  unfold removeRoute at hg
  cases hf : s.routes.find? (fun r => r.data = d) with
  | none =>
    rw [hf] at hg
    obtain ⟨g, hg1, hg2⟩ := hu p hp hg
    refine ⟨g, List.mem_filter.mpr ⟨hg1, ?_⟩, hg2⟩
    rw [List.find?_eq_none] at hf
    obtain ⟨r, hr, -, e⟩ := h.rs.alive g hg1
    have := hf r hr
    simp only [decide_eq_true_eq] at this ⊢
    omega
  | some r =>
    rw [hf] at hg
    dsimp only at hg
    have hroot : (removeRoute s d).root = { s.root with children := eraseRouteL r.id s.root.children } := by
      unfold removeRoute
      rw [hf]
    obtain ⟨x, hx⟩ := Option.isSome_iff_exists.mp hg
    have hx2 : get p (eraseRoute r.id s.root) = some x := by
      cases p with
      | nil => exact absurd rfl hp
      | cons n p =>
        simp only [get] at hx ⊢
        rw [eraseRoute_children]
        exact hx
    have hnb := get_not_bare h.wf hp hx2
    obtain ⟨c, hc, rfl⟩ := get_eraseRoute h.wf hx2
    obtain ⟨p', i, hi⟩ := kept_used r.id c (get_wf h.wf hc) hnb
    rw [routesAt_append hx, ← hroot, hinv.at_] at hi
    obtain ⟨g, hg1, -⟩ := List.mem_map.mp hi
    rw [List.mem_filter] at hg1
    refine ⟨g, hg1.1, ⟨p', ?_⟩⟩
    have := hg1.2
    simp only [decide_eq_true_eq] at this
    exact this.symm

theorem used_add {s s' : State} {G : List Ent} (h : GInv s G) (hu : Used s G) {ts : Path} {a : Path}
    {id d : Nat} {dup : Bool} (hadd : add id dup ts false true [] s.root = (s'.root, .ok a)) :
    Used s' (G ++ [⟨a, id, d⟩]) := by
  intro p hp hg
  have hsp := (add_spec id dup ts false true [] s.root h.wf).2.1
  rw [hadd] at hsp
  obtain ⟨a', ea, -, hs, -⟩ := hsp a rfl
  simp only [List.nil_append] at ea
  subst ea
  rcases (hs p).mp hg with hp' | hp'
  · obtain ⟨g, hg1, hg2⟩ := hu p hp hp'
    exact ⟨g, List.mem_append_left _ hg1, hg2⟩
  · exact ⟨⟨a, id, d⟩, by simp, hp'⟩

/-- The invariant for histories that do not remove names. -/
theorem used_step {P : List Name} (hP : Conventional P) {s s' : State} {G : List Ent} (h : CInv P s G)
    (hu : Used s G) {o : Spec.Routing.Op} (ho : ∀ m ∈ names [o], m ∈ P)
    (hfresh : ∀ n w x, o = .register n w x → (x = false ∨ n = advisoryName) → (n, w) ∉ regs G)
    (hno : ∀ n, o ≠ .remove n) {rc : Rc} (hs : step s (call o) = .ok (s', rc)) :
    ∃ G', CInv P s' G' ∧ Used s' G' ∧ regs G' = live1 (regs G) o (accepted rc) := by
  cases o with
  | remove n => exact absurd rfl (hno n)
  | forget w =>
    cases hs
    refine ⟨_, step_forget h w, used_removeRoute h.g hu w, ?_⟩
    simp only [regs, live1, List.filter_map]
    rfl
  | register n w x =>
    have hn := ho n (by simp [names])
    obtain ⟨s1, rc1, e, h'⟩ := step_register hP h hn w x (hfresh n w x rfl)
    have hs' : addTopicRoute s (dotted n) w x = .ok (s', rc) := hs
    rw [e] at hs'
    cases hs'
    obtain ⟨f1, f2⟩ := addTopicRoute_spec h.g e
    rcases h' with ⟨rfl, h'⟩ | ⟨rfl, -, id, h'⟩
    · refine ⟨G, h', ?_, rfl⟩
      intro p hp hg
      rw [(f1 (by simp)).2] at hg
      exact hu p hp hg
    · refine ⟨_, h', ?_, by simp [regs, live1, accepted]⟩
      have htoks : tokens (dotted n) = n := tokens_dotted (hP.1 n hn).1.2.1
      rcases f2 rfl with ⟨e0, -⟩ | ⟨a, id', -, hadd, -, -⟩
      · rw [htoks] at e0; exact absurd e0 (hP.1 n hn).1.1
      · have ha : a = n := by
          rw [htoks] at hadd
          have := (add_agree id' _ n false true [] s.root h.g.wf (h.agree hP hn)).2 a (by rw [hadd])
          simpa using this
        subst ha
        have := used_add (s' := s') (d := w) h.g hu hadd
        intro p hp hg
        obtain ⟨g, hg1, hg2⟩ := this p hp hg
        rcases List.mem_append.mp hg1 with hg1 | hg1
        · exact ⟨g, List.mem_append_left _ hg1, hg2⟩
        · rw [List.mem_singleton] at hg1
          subst hg1
          exact ⟨⟨a, id, w⟩, by simp, hg2⟩

theorem run_used {P : List Name} (hP : Conventional P) (os : List Spec.Routing.Op)
    (hnr : ∀ n, Spec.Routing.Op.remove n ∉ os) :
    ∀ (pre : List Spec.Routing.Op) {s s' : State} {G : List Ent} {rcs : List Rc}, CInv P s G → Used s G →
      (∀ x ∈ regs G, ∃ y, Spec.Routing.Op.register x.1 x.2 y ∈ pre) →
      (∀ n ∈ names os, n ∈ P) → NoRepeats (pre ++ os) → run s (os.map call) = .ok (s', rcs) →
      ∃ G', CInv P s' G' ∧ Used s' G' ∧ regs G' = live (regs G) (os.zip (rcs.map accepted)) := by
  induction os with
  | nil =>
    intro pre s s' G rcs h hu _ _ _ hr
    cases hr
    exact ⟨G, h, hu, rfl⟩
  | cons o os ih =>
    intro pre s s' G rcs h hu hpre hn hrep hr
    rw [List.map_cons, run] at hr
    cases hst : step s (call o) with
    | fail => rw [hst] at hr; cases hr
    | ub => rw [hst] at hr; cases hr
    | ok r =>
      obtain ⟨s1, rc⟩ := r
      rw [hst, Res.ok_bind] at hr
      dsimp only at hr
      cases hrun : run s1 (os.map call) with
      | fail => rw [hrun] at hr; cases hr
      | ub => rw [hrun] at hr; cases hr
      | ok r2 =>
        obtain ⟨s2, rcs2⟩ := r2
        rw [hrun, Res.ok_bind] at hr
        cases hr
        obtain ⟨G1, h1, hu1, hG1⟩ := used_step hP h hu
          (by
            intro n hn'
            apply hn
            cases o with
            | register m w x => simp only [names, List.mem_singleton] at hn' ⊢; subst hn'; simp
            | forget w => simp [names] at hn'
            | remove m => simp only [names, List.mem_singleton] at hn' ⊢; subst hn'; simp)
          (by
            rintro n w x rfl hx hm
            obtain ⟨y, hy⟩ := hpre _ hm
            exact hrep pre n w x os rfl hx y hy)
          (fun n e => hnr n (by rw [e]; simp)) hst
        obtain ⟨G2, h2, hu2, hG2⟩ := ih (fun n hn => hnr n (List.mem_cons_of_mem _ hn))
          (pre ++ [o]) h1 hu1
          (by
            intro x hx
            rw [hG1] at hx
            rcases live1_subset hx with hx | ⟨y, rfl⟩
            · obtain ⟨y, hy⟩ := hpre x hx
              exact ⟨y, List.mem_append_left _ hy⟩
            · exact ⟨y, by simp⟩)
          (by
            intro n hn'
            apply hn
            cases o with
            | register m w x => exact List.mem_cons_of_mem _ hn'
            | forget w => exact hn'
            | remove m => exact List.mem_cons_of_mem _ hn')
          (by rw [List.append_assoc]; exact hrep) hrun
        exact ⟨G2, h2, hu2, by rw [hG2, hG1]; rfl⟩

/-- A name that nobody has registered, nor anything below it, is clear. -/
theorem used_clear {s : State} {G : List Ent} (hu : Used s G) {n : Name} (hn : n ≠ [])
    (hfree : ∀ x ∈ regs G, ¬ n <+: x.1) : Clear s n := by
  unfold Clear listAt
  cases hg : get n s.root with
  | none => rfl
  | some c =>
    exfalso
    obtain ⟨g, hg1, hg2⟩ := hu n hn (by rw [hg]; rfl)
    exact hfree (g.path, g.data) (List.mem_map.mpr ⟨g, hg1, rfl⟩) hg2

/-- A name stays clear while nobody registers it. -/
theorem run_clear {P : List Name} (hP : Conventional P) {n : Name} (os : List Spec.Routing.Op)
    (hno : ∀ w x, Spec.Routing.Op.register n w x ∉ os) :
    ∀ (pre : List Spec.Routing.Op) {s s' : State} {G : List Ent} {rcs : List Rc}, CInv P s G → Clear s n →
      (∀ x ∈ regs G, ∃ y, Spec.Routing.Op.register x.1 x.2 y ∈ pre) →
      (∀ n ∈ names os, n ∈ P) → NoRepeats (pre ++ os) → run s (os.map call) = .ok (s', rcs) →
      Clear s' n := by
  induction os with
  | nil =>
    intro pre s s' G rcs h hu _ _ _ hr
    cases hr
    exact hu
  | cons o os ih =>
    intro pre s s' G rcs h hu hpre hn hrep hr
    have ho : ∀ n ∈ names [o], n ∈ P := by
      intro n hn'
      apply hn
      cases o with
      | register m w x => simp only [names, List.mem_singleton] at hn' ⊢; subst hn'; simp
      | forget w => simp [names] at hn'
      | remove m => simp only [names, List.mem_singleton] at hn' ⊢; subst hn'; simp
    obtain ⟨s1, rc, G1, e1, h1, hG1⟩ := step_conv hP h o ho
      (by
        rintro n w x rfl hx hm
        obtain ⟨y, hy⟩ := hpre _ hm
        exact hrep pre n w x os rfl hx y hy)
    rw [List.map_cons, run, e1, Res.ok_bind] at hr
    dsimp only at hr
    cases hrun : run s1 (os.map call) with
    | fail => rw [hrun] at hr; cases hr
    | ub => rw [hrun] at hr; cases hr
    | ok r2 =>
      obtain ⟨s2, rcs2⟩ := r2
      rw [hrun, Res.ok_bind] at hr
      cases hr
      refine ih (fun w x hm => hno w x (List.mem_cons_of_mem _ hm)) (pre ++ [o]) h1
        (clear_step hP h hu o ho (fun w x e => hno w x (by rw [e]; simp)) e1)
        (by
          intro x hx
          rw [hG1] at hx
          rcases live1_subset hx with hx | ⟨y, rfl⟩
          · obtain ⟨y, hy⟩ := hpre x hx
            exact ⟨y, List.mem_append_left _ hy⟩
          · exact ⟨y, by simp⟩)
        (by
          intro n hn'
          apply hn
          cases o with
          | register m w x => exact List.mem_cons_of_mem _ hn'
          | forget w => exact hn'
          | remove m => exact List.mem_cons_of_mem _ hn')
        (by rw [List.append_assoc]; exact hrep) hrun

theorem run_append (s : State) (a b : List Op) :
    run s (a ++ b) = (do
      let r ← run s a
      let r' ← run r.1 b
      pure (r'.1, r.2 ++ r'.2)) := by
  induction a generalizing s with
  | nil =>
    simp only [List.nil_append, run, Res.ok_bind]
    cases run s b <;> rfl
  | cons o a ih =>
    simp only [List.cons_append, run]
    cases step s o with
    | fail => rfl
    | ub => rfl
    | ok r =>
      simp only [Res.ok_bind]
      rw [ih]
      cases run r.1 a with
      | fail => rfl
      | ub => rfl
      | ok r' =>
        simp only [Res.ok_bind, Res.pure_eq]
        cases run r'.1 b <;> rfl

theorem names_append (a b : List Spec.Routing.Op) : names (a ++ b) = names a ++ names b := by
  induction a with
  | nil => rfl
  | cons o a ih => cases o <;> simp [names, ih]

theorem noRepeats_left {a b : List Spec.Routing.Op} (h : NoRepeats (a ++ b)) : NoRepeats a := by
  intro pre n w x post e hx y
  exact h pre n w x (post ++ b) (by rw [e]; simp) hx y

theorem live_subset {ops : List Spec.Routing.Op} {bs : List Bool} {R : List (Name × Nat)} {x : Name × Nat}
    (h : x ∈ live R (ops.zip bs)) : x ∈ R ∨ ∃ y, Spec.Routing.Op.register x.1 x.2 y ∈ ops := by
  induction ops generalizing R bs with
  | nil => exact Or.inl h
  | cons o ops ih =>
    cases bs with
    | nil => exact Or.inl h
    | cons b bs =>
      rw [List.zip_cons_cons, live] at h
      rcases ih h with h | ⟨y, h⟩
      · rcases live1_subset h with h | ⟨y, rfl⟩
        · exact Or.inl h
        · exact Or.inr ⟨y, by simp⟩
      · exact Or.inr ⟨y, List.mem_cons_of_mem _ h⟩

/-- The last step: a clear name is accepted. -/
theorem accept_last {P : List Name} (hP : Conventional P) {ops : List Spec.Routing.Op} {s : State}
    {G : List Ent} (h : CInv P s G) {n : Name} {w : Nat} {x : Bool} (hn : n ∈ P) (hc : Clear s n)
    (hr : NoRepeats (ops ++ [.register n w x]))
    (hreg : ∀ y ∈ regs G, ∃ z, Spec.Routing.Op.register y.1 y.2 z ∈ ops) :
    ∃ s', step s (call (.register n w x)) = .ok (s', .ok) := by
  obtain ⟨s', rc, e, -⟩ := step_register hP h hn w x (by
    intro hx hm
    obtain ⟨z, hz⟩ := hreg _ hm
    exact hr ops n w x [] rfl hx z hz)
  rw [clear_accepted hP h hn hc e] at e
  exact ⟨s', e⟩

/-! ## What removing a name can remove -/

theorem detach_last {path : Path} {ts : List Token} {t t' : Topic} {q : Path} {c : Topic}
    (hd : detach path ts t = some (t', q, c)) :
    q.length = path.length + ts.length ∧ q.getLast? = ts.getLast? := by
  induction ts generalizing path t t' q c with
  | nil => simp [detach] at hd
  | cons tok ts ih =>
    cases ts with
    | nil =>
      rw [detach] at hd
      cases hf : find tok [] t.children with
      | missing => rw [hf] at hd; cases hd
      | hit k pre x post =>
        rw [hf] at hd
        cases k with
        | exact =>
          cases hd
          have hx : ∀ (cs pre₀ : List Topic), find tok pre₀ cs = .hit .exact pre c post → c.name = tok := by
            intro cs
            induction cs with
            | nil => intro p₀ h; cases h
            | cons y cs ihc =>
              intro p₀ h
              rw [find] at h
              split at h
              · rename_i hn; cases h; exact hn
              · split at h
                · cases h
                · split at h
                  · cases h
                  · exact ihc _ h
          simp [hx _ _ hf]
        | inst => cases hd
        | conflict => cases hd
    | cons tok' ts =>
      rw [detach] at hd
      cases hf : find tok [] t.children with
      | missing => rw [hf] at hd; cases hd
      | hit k pre x post =>
        rw [hf] at hd
        dsimp only at hd
        cases hd' : detach (path ++ [x.name]) (tok' :: ts) x with
        | none => rw [hd'] at hd; cases hd
        | some r =>
          rw [hd'] at hd
          obtain ⟨r1, r2, r3⟩ := r
          cases hd
          obtain ⟨h1, h2⟩ := ih hd'
          simp only [List.length_append, List.length_cons, List.length_nil] at h1 ⊢
          refine ⟨by omega, ?_⟩
          rw [h2]
          simp

theorem topics_of {s : State} {G : List Ent} (h : GInv s G) (u : Nat) (p : Path) :
    p ∈ routeTopics s u ↔ ∃ g ∈ G, g.path = p ∧ g.data = u := by
  unfold routeTopics
  cases hf : s.routes.find? (fun r => r.data = u) with
  | none =>
    refine ⟨fun hn => (by cases hn), ?_⟩
    rintro ⟨g, hg, -, rfl⟩
    obtain ⟨r, hr, -, hd⟩ := h.rs.alive g hg
    rw [List.find?_eq_none] at hf
    exact absurd hd (by simpa using hf r hr)
  | some r =>
    have hm := List.mem_of_find?_eq_some hf
    have hd : r.data = u := by simpa using List.find?_some hf
    show p ∈ r.topics ↔ _
    rw [(h.rs.tops r hm).2]
    constructor
    · rintro ⟨g, hg, h1, h2⟩
      obtain ⟨r', hr', k1, k2⟩ := h.rs.alive g hg
      have := inj_of_nodup (·.id) h.rs.ids hr' hm (by rw [k1, h2])
      subst this
      exact ⟨g, hg, h1, by rw [← k2, hd]⟩
    · rintro ⟨g, hg, h1, h2⟩
      obtain ⟨r', hr', k1, k2⟩ := h.rs.alive g hg
      have := inj_of_nodup (·.data) h.rs.datas hr' hm (by rw [k2, h2, hd])
      subst this
      exact ⟨g, hg, h1, k1.symm⟩

theorem removeTopic_keeps {s s' : State} {G : List Ent} (h : GInv s G) {e : Bytes}
    (ht : tokenize e = .ok (tokens e)) (hr : removeTopic s e = .ok s') {u : Nat} {p : Path}
    (hp : p ∈ routeTopics s u) (hne : p[(tokens e).length - 1]? ≠ (tokens e).getLast?) : p ∈ routeTopics s' u := by
  obtain ⟨s1, e1, e2⟩ := removeTopic_spec h e ht
  rw [hr] at e1
  cases e1
  rcases e2 with ⟨-, rfl⟩ | ⟨root, a, c, d1, -, d2⟩
  · exact hp
  · obtain ⟨l1, l2⟩ := detach_last d1
    rw [topics_of h] at hp
    obtain ⟨g, hg, h1, h2⟩ := hp
    rw [topics_of d2]
    refine ⟨g, List.mem_filter.mpr ⟨hg, ?_⟩, h1, h2⟩
    simp only [decide_eq_true_eq]
    rintro ⟨r, hr'⟩
    apply hne
    rw [← h1, ← hr', ← l2, List.getLast?_eq_getElem?]
    simp only [List.length_nil, Nat.zero_add] at l1
    rw [← l1]
    have : a.length ≠ 0 := by
      intro h0
      have hts : tokens e = [] := by
        have : (tokens e).length = 0 := by omega
        exact List.length_eq_zero_iff.mp this
      rw [hts] at d1
      cases d1
    rw [List.getElem?_append_left (by omega)]

end Verif.Routing
