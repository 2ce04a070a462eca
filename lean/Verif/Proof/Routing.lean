import Verif.Model.Routing

namespace Verif.Routing

open Verif

/-! ## The tree by paths -/

/-- The child of this name. -/
def child (n : Token) (cs : List Topic) : Option Topic := cs.find? (fun c => c.name = n)

/-- The topic at a path, by exact names. -/
def get : Path → Topic → Option Topic
  | [], t => some t
  | n :: p, t => (child n t.children).bind (get p)

/-- The routes at a path. -/
def routesAt (t : Topic) (p : Path) : List Nat := ((get p t).bind (·.routes)).getD []

/-- Distinct names among siblings; a child starting with a brace is alone. -/
inductive WF : Topic → Prop
  | mk (t : Topic) (names : (t.children.map (·.name)).Nodup)
    (alone : ∀ c ∈ t.children, brace c.name = true → t.children = [c])
    (table : ∀ c ∈ t.children, brace c.name = true → t.isTable = true)
    (sub : ∀ c ∈ t.children, WF c) : WF t

theorem WF.names {t : Topic} (h : WF t) : (t.children.map (·.name)).Nodup := by cases h; assumption
theorem WF.alone {t : Topic} (h : WF t) :
    ∀ c ∈ t.children, brace c.name = true → t.children = [c] := by cases h; assumption
theorem WF.table {t : Topic} (h : WF t) :
    ∀ c ∈ t.children, brace c.name = true → t.isTable = true := by cases h; assumption
theorem WF.sub {t : Topic} (h : WF t) : ∀ c ∈ t.children, WF c := by cases h; assumption

theorem Topic.sizeOf_child {t c : Topic} (h : c ∈ t.children) : sizeOf c < sizeOf t := by
  cases t with
  | mk n b r r2 cs =>
    have := List.sizeOf_lt_of_mem h
    simp only [Topic.mk.sizeOf_spec]
    simp only at this
    omega

/-- Induction over trees. -/
theorem Topic.ind {P : Topic → Prop} (h : ∀ t : Topic, (∀ c ∈ t.children, P c) → P t) (t : Topic) :
    P t := by
  have : ∀ n (t : Topic), sizeOf t < n → P t := by
    intro n
    induction n with
    | zero => intro t ht; omega
    | succ n ih =>
      intro t ht
      apply h
      intro c hc
      apply ih
      have := Topic.sizeOf_child hc
      omega
  exact this (sizeOf t + 1) t (Nat.lt_succ_self _)

theorem child_some {n : Token} {cs : List Topic} {c : Topic} (h : child n cs = some c) :
    c ∈ cs ∧ c.name = n :=
  ⟨List.mem_of_find?_eq_some h, by simpa using List.find?_some h⟩

theorem child_none {n : Token} {cs : List Topic} : child n cs = none ↔ ∀ c ∈ cs, c.name ≠ n := by
  simp [child]

theorem child_of_mem {cs : List Topic} (h : (cs.map (·.name)).Nodup) {c : Topic} (hc : c ∈ cs) :
    child c.name cs = some c := by
  induction cs with
  | nil => cases hc
  | cons x cs ih =>
    simp only [List.map_cons, List.nodup_cons] at h
    rcases List.mem_cons.mp hc with rfl | hc
    · simp [child]
    · have hne : ¬ x.name = c.name := fun e => h.1 (List.mem_map.mpr ⟨c, hc, e.symm⟩)
      simp only [child, List.find?_cons, hne, decide_false]
      exact ih h.2 hc

theorem child_replace {pre post : List Topic} {c c' : Topic} (hn : c'.name = c.name)
    (h : ((pre ++ c :: post).map (·.name)).Nodup) (n : Token) :
    child n (pre ++ c' :: post) = if n = c.name then some c' else child n (pre ++ c :: post) := by
  induction pre with
  | nil =>
    simp only [List.nil_append, child, List.find?_cons, hn]
    by_cases e : c.name = n
    · simp [e]
    · have e' : ¬ n = c.name := fun x => e x.symm
      simp [e, e']
  | cons x pre ih =>
    simp only [List.cons_append, List.map_cons, List.nodup_cons] at h
    simp only [List.cons_append, child, List.find?_cons]
    by_cases e : x.name = n
    · have : ¬ n = c.name := by
        rintro rfl
        exact h.1 (List.mem_map.mpr ⟨c, by simp, e.symm⟩)
      simp [e, this]
    · simp only [e, decide_false]
      exact ih h.2

theorem child_append {cs : List Topic} {c : Topic} (n : Token) :
    child n (cs ++ [c]) = (child n cs).or (if c.name = n then some c else none) := by
  simp only [child, List.find?_append, List.find?_cons, List.find?_nil]
  congr 1
  by_cases e : c.name = n <;> simp [e]

theorem child_erase {pre post : List Topic} {c : Topic}
    (h : ((pre ++ c :: post).map (·.name)).Nodup) (n : Token) :
    child n (pre ++ post) = if n = c.name then none else child n (pre ++ c :: post) := by
  simp only [List.map_append, List.map_cons] at h
  rw [List.nodup_append] at h
  obtain ⟨h1, h2, h3⟩ := h
  simp only [List.nodup_cons] at h2
  by_cases e : n = c.name
  · subst e
    rw [if_pos rfl, child_none]
    intro x hx
    rcases List.mem_append.mp hx with hx | hx
    · exact h3 x.name (List.mem_map.mpr ⟨x, hx, rfl⟩) c.name (by simp)
    · intro e
      exact h2.1 (List.mem_map.mpr ⟨x, hx, e⟩)
  · rw [if_neg e]
    have e' : ¬ c.name = n := fun x => e x.symm
    simp [child, List.find?_append, e']

/-! ## `find` -/

theorem find_hit {name : Token} {pre cs : List Topic} {k : Kind} {pre' : List Topic} {c : Topic}
    {post : List Topic} (h : find name pre cs = .hit k pre' c post) :
    ∃ mid, pre' = pre ++ mid ∧ cs = mid ++ c :: post ∧ (∀ x ∈ mid, x.name ≠ name) ∧
      (k = .exact → c.name = name) ∧
      (k ≠ .exact → c.name ≠ name ∧ (brace c.name = true ∨ brace name = true)) ∧
      (k = .inst → brace c.name = true ∧ instLike name = true) := by
  induction cs generalizing pre with
  | nil => cases h
  | cons x cs ih =>
    rw [find] at h
    split at h
    · rename_i e
      cases h
      exact ⟨[], by simp, by simp, by simp, fun _ => e, by simp, by simp⟩
    · rename_i e
      split at h
      · rename_i e1
        cases h
        exact ⟨[], by simp, by simp, by simp, by simp, fun _ => ⟨e, Or.inl e1.1⟩, fun _ => e1⟩
      · split at h
        · rename_i e2
          cases h
          exact ⟨[], by simp, by simp, by simp, by simp, fun _ => ⟨e, e2⟩, by simp⟩
        · obtain ⟨mid, h1, h2, h3, h4⟩ := ih h
          refine ⟨x :: mid, by rw [h1]; simp, by rw [h2]; simp, ?_, h4⟩
          intro y hy
          rcases List.mem_cons.mp hy with rfl | hy
          · exact e
          · exact h3 y hy

theorem find_missing {name : Token} {pre cs : List Topic} (h : find name pre cs = .missing) :
    ∀ c ∈ cs, c.name ≠ name ∧ brace c.name = false ∧ brace name = false := by
  induction cs generalizing pre with
  | nil => simp
  | cons x cs ih =>
    rw [find] at h
    split at h
    · cases h
    · rename_i e
      split at h
      · cases h
      · split at h
        · cases h
        · rename_i e2
          simp only [not_or, Bool.not_eq_true] at e2
          intro c hc
          rcases List.mem_cons.mp hc with rfl | hc
          · exact ⟨e, e2⟩
          · exact ih h c hc

/-- The search finds an exact match if there is one. -/
theorem find_exact {t : Topic} (h : WF t) {c : Topic} (hc : c ∈ t.children) :
    ∃ pre post, find c.name [] t.children = .hit .exact pre c post ∧ t.children = pre ++ c :: post := by
  cases hf : find c.name [] t.children with
  | missing => exact absurd rfl (find_missing hf c hc).1
  | hit k pre x post =>
    obtain ⟨mid, h1, h2, h3, h4, h5, h6⟩ := find_hit hf
    simp only [List.nil_append] at h1
    subst h1
    by_cases hk : k = .exact
    · subst hk
      have hx : x ∈ t.children := by rw [h2]; simp
      have e := child_of_mem h.names hx
      rw [h4 rfl, child_of_mem h.names hc] at e
      cases e
      exact ⟨_, _, rfl, h2⟩
    · exfalso
      obtain ⟨hne, hb⟩ := h5 hk
      have hx : x ∈ t.children := by rw [h2]; simp
      rcases hb with hb | hb
      · have := h.alone x hx hb
        rw [this, List.mem_singleton] at hc
        exact hne (by rw [hc])
      · have := h.alone c hc hb
        rw [this, List.mem_singleton] at hx
        exact hne (by rw [hx])

/-! ## Adding -/

theorem add_name (id : Nat) (dup : Bool) (ts : List Token) (created root : Bool) (path : Path)
    (t : Topic) : (add id dup ts created root path t).1.name = t.name := by
  cases ts with
  | nil => rw [add]; split <;> rfl
  | cons tok ts =>
    rw [add]
    split
    · rfl
    · dsimp only; split <;> rfl
    · dsimp only; split <;> rfl

/-- Appending at a path. -/
def routesPlus (f : Path → List Nat) (a : Path) (id : Nat) (p : Path) : List Nat :=
  f p ++ if p = a then [id] else []

theorem routesAt_nil (t : Topic) : routesAt t [] = t.routes.getD [] := rfl

theorem routesAt_cons (t : Topic) (n : Token) (p : Path) :
    routesAt t (n :: p) = ((child n t.children).map (fun c => routesAt c p)).getD [] := by
  simp only [routesAt, get]
  cases child n t.children <;> rfl

theorem routesAt_newTopic (n : Token) (p : Path) : routesAt (newTopic n) p = [] := by
  cases p with
  | nil => rfl
  | cons m p => simp [routesAt_cons, newTopic, child]

theorem wf_newTopic (n : Token) : WF (newTopic n) := by
  constructor <;> simp [newTopic]

/-- What adding does to the routes at each path, and to the shape of the tree. -/
theorem add_spec (id : Nat) (dup : Bool) (ts : List Token) (created root : Bool) (path : Path)
    (t : Topic) (h : WF t) :
    let r := add id dup ts created root path t
    WF r.1 ∧
    (∀ q, r.2 = .ok q → ∃ a, q = path ++ a ∧
      (∀ p, routesAt r.1 p = routesAt t p ++ if p = a then [id] else []) ∧
      (∀ p, (get p r.1).isSome = true ↔ (get p t).isSome = true ∨ p <+: a) ∧
      (dup = true → (created = false ∨ t.routes = none) → routesAt t a = [])) ∧
    ((∀ q, r.2 ≠ .ok q) → ∀ p, routesAt r.1 p = routesAt t p) := by
  induction ts generalizing created root path t with
  | nil =>
    simp only [add]
    split
    · refine ⟨h, ?_, fun _ _ => rfl⟩
      intro q hq; cases hq
    · rename_i hd
      refine ⟨⟨_, h.names, h.alone, h.table, h.sub⟩, ?_, ?_⟩
      · intro q hq
        cases hq
        refine ⟨[], by simp, ?_, ?_, ?_⟩
        · intro p
          cases p with
          | nil => simp [routesAt, get]
          | cons n p => simp [routesAt, get]
        · intro p
          cases p with
          | nil => simp [get]
          | cons n p => simp [get]
        · intro hdup hc
          rw [routesAt_nil]
          rcases hc with hc | hc
          · cases hr : t.routes with
            | none => rfl
            | some l => exact absurd ⟨hdup, hc, by simp [hr]⟩ hd
          · rw [hc]; rfl
      · intro hn; exact absurd rfl (hn _)
  | cons tok ts ih =>
    simp only [add]
    split
    · refine ⟨h, ?_, fun _ _ => rfl⟩
      intro q hq; cases hq
    · rename_i k pre c post hk hf
      obtain ⟨mid, h1, h2, h3, -⟩ := find_hit hf
      simp only [List.nil_append] at h1
      subst h1
      have hc : c ∈ t.children := by rw [h2]; simp
      obtain ⟨i1, i2, i3⟩ := ih false false (path ++ [c.name]) c (h.sub c hc)
      have hname := add_name id dup ts false false (path ++ [c.name]) c
      have hnd := h.names
      rw [h2] at hnd
      -- the tree with the child replaced
      have hch : ∀ n, child n
          (pre ++ (add id dup ts false false (path ++ [c.name]) c).1 :: post) =
          if n = c.name then some (add id dup ts false false (path ++ [c.name]) c).1
          else child n t.children := by
        intro n
        rw [child_replace hname hnd, ← h2]
      have hcc : child c.name t.children = some c := child_of_mem h.names hc
      have wf' : ∀ (r2 : List Nat), WF ⟨t.name, t.isTable, t.routes, r2,
          pre ++ (add id dup ts false false (path ++ [c.name]) c).1 :: post⟩ := by
        intro r2
        constructor
        · dsimp only
          have := hnd
          simp only [List.map_append, List.map_cons, hname] at this ⊢
          exact this
        · dsimp only
          intro x hx hb
          rcases List.mem_append.mp hx with hx | hx
          · have := h.alone x (by rw [h2]; simp [hx]) hb
            rw [h2] at this
            have hl := congrArg List.length this
            simp only [List.length_append, List.length_cons, List.length_nil] at hl
            have := List.length_pos_of_mem hx
            omega
          · rcases List.mem_cons.mp hx with rfl | hx
            · rw [hname] at hb
              have := h.alone c hc hb
              rw [h2] at this
              have hl := congrArg List.length this
              simp only [List.length_append, List.length_cons, List.length_nil] at hl
              have e1 : pre = [] := List.length_eq_zero_iff.mp (by omega)
              have e2 : post = [] := List.length_eq_zero_iff.mp (by omega)
              subst e1 e2
              rfl
            · have := h.alone x (by rw [h2]; simp [hx]) hb
              rw [h2] at this
              have hl := congrArg List.length this
              simp only [List.length_append, List.length_cons, List.length_nil] at hl
              have := List.length_pos_of_mem hx
              omega
        · dsimp only
          intro x hx hb
          rcases List.mem_append.mp hx with hx | hx
          · exact h.table x (by rw [h2]; simp [hx]) hb
          · rcases List.mem_cons.mp hx with rfl | hx
            · rw [hname] at hb
              exact h.table c hc hb
            · exact h.table x (by rw [h2]; simp [hx]) hb
        · dsimp only
          intro x hx
          rcases List.mem_append.mp hx with hx | hx
          · exact h.sub x (by rw [h2]; simp [hx])
          · rcases List.mem_cons.mp hx with rfl | hx
            · exact i1
            · exact h.sub x (by rw [h2]; simp [hx])
      cases hr : (add id dup ts false false (path ++ [c.name]) c).2 with
      | ok q =>
        dsimp only
        obtain ⟨a, ha1, ha2, ha3, ha4⟩ := i2 q hr
        refine ⟨wf' _, ?_, ?_⟩
        · intro q' hq'
          cases hq'
          refine ⟨c.name :: a, by rw [ha1]; simp, ?_, ?_, ?_⟩
          · intro p
            cases p with
            | nil => simp [routesAt, get]
            | cons n p =>
              rw [routesAt_cons, routesAt_cons, hch]
              by_cases e : n = c.name
              · subst e
                simp only [if_true, hcc, Option.map_some, Option.getD_some, List.cons.injEq, true_and]
                exact ha2 p
              · simp [e]
          · intro p
            cases p with
            | nil => simp [get]
            | cons n p =>
              simp only [get]
              rw [hch]
              by_cases e : n = c.name
              · subst e
                simp only [if_true, hcc, Option.bind_some]
                rw [ha3 p, List.cons_prefix_cons]
                simp
              · simp [e, List.cons_prefix_cons]
          · intro hd _
            rw [routesAt_cons, hcc]
            exact ha4 hd (Or.inl rfl)
        · intro hn; exact absurd rfl (hn _)
      | protocolError =>
        dsimp only
        refine ⟨wf' _, (by intro q' hq'; cases hq'), ?_⟩
        intro _ p
        cases p with
        | nil => rfl
        | cons n p =>
          rw [routesAt_cons, routesAt_cons, hch]
          by_cases e : n = c.name
          · subst e
            simp only [if_true, hcc, Option.map_some, Option.getD_some]
            exact i3 (by rw [hr]; intro q hq; cases hq) p
          · simp [e]
      | duplicate =>
        dsimp only
        refine ⟨wf' _, (by intro q' hq'; cases hq'), ?_⟩
        intro _ p
        cases p with
        | nil => rfl
        | cons n p =>
          rw [routesAt_cons, routesAt_cons, hch]
          by_cases e : n = c.name
          · subst e
            simp only [if_true, hcc, Option.map_some, Option.getD_some]
            exact i3 (by rw [hr]; intro q hq; cases hq) p
          · simp [e]
    · rename_i hf
      have hm := find_missing hf
      obtain ⟨i1, i2, i3⟩ := ih true false (path ++ [tok]) (newTopic tok) (wf_newTopic tok)
      have hname := add_name id dup ts true false (path ++ [tok]) (newTopic tok)
      have hnn : (newTopic tok).name = tok := rfl
      have hno : child tok t.children = none := child_none.mpr (fun c hc => (hm c hc).1)
      have hch : ∀ n, child n
          (t.children ++ [(add id dup ts true false (path ++ [tok]) (newTopic tok)).1]) =
          if n = tok then some (add id dup ts true false (path ++ [tok]) (newTopic tok)).1
          else child n t.children := by
        intro n
        rw [child_append, hname, hnn]
        by_cases e : n = tok
        · subst e; simp [hno]
        · have e' : ¬ tok = n := fun x => e x.symm
          simp [e, e']
      have wf' : ∀ (r2 : List Nat), WF ⟨t.name, t.isTable || brace tok, t.routes, r2,
          t.children ++ [(add id dup ts true false (path ++ [tok]) (newTopic tok)).1]⟩ := by
        intro r2
        constructor
        · dsimp only
          rw [List.map_append, List.nodup_append]
          refine ⟨h.names, by simp, ?_⟩
          intro x hx y hy
          simp only [List.map_cons, List.map_nil, List.mem_singleton] at hy
          obtain ⟨c, hc, rfl⟩ := List.mem_map.mp hx
          rw [hy, hname]
          exact (hm c hc).1
        · dsimp only
          intro x hx hb
          rcases List.mem_append.mp hx with hx | hx
          · rw [(hm x hx).2.1] at hb; cases hb
          · rw [List.mem_singleton] at hx
            subst hx
            rw [hname] at hb
            cases hcs : t.children with
            | nil => rfl
            | cons y ys =>
              have := (hm y (by rw [hcs]; simp)).2.2
              rw [show (newTopic tok).name = tok from rfl] at hb
              rw [this] at hb; cases hb
        · dsimp only
          intro x hx hb
          rcases List.mem_append.mp hx with hx | hx
          · rw [(hm x hx).2.1] at hb; cases hb
          · rw [List.mem_singleton] at hx
            subst hx
            rw [hname, hnn] at hb
            simp [hb]
        · dsimp only
          intro x hx
          rcases List.mem_append.mp hx with hx | hx
          · exact h.sub x hx
          · rw [List.mem_singleton] at hx
            subst hx
            exact i1
      cases hr : (add id dup ts true false (path ++ [tok]) (newTopic tok)).2 with
      | ok q =>
        dsimp only
        obtain ⟨a, ha1, ha2, ha3, ha4⟩ := i2 q hr
        refine ⟨wf' _, ?_, ?_⟩
        · intro q' hq'
          cases hq'
          refine ⟨tok :: a, by rw [ha1]; simp, ?_, ?_, ?_⟩
          · intro p
            cases p with
            | nil => simp [routesAt, get]
            | cons n p =>
              rw [routesAt_cons, routesAt_cons, hch]
              by_cases e : n = tok
              · subst e
                have := ha2 p
                rw [routesAt_newTopic] at this
                simp only [if_true, hno, Option.map_some, Option.getD_some, List.cons.injEq, true_and,
                  Option.map_none, Option.getD_none]
                exact this
              · simp [e]
          · intro p
            cases p with
            | nil => simp [get]
            | cons n p =>
              simp only [get]
              rw [hch]
              by_cases e : n = tok
              · subst e
                have := ha3 p
                simp only [if_true, hno, Option.bind_some, Option.bind_none]
                rw [this, List.cons_prefix_cons]
                cases p with
                | nil => simp [get]
                | cons m p => simp [get, newTopic, child]
              · simp [e, List.cons_prefix_cons]
          · intro hd _
            rw [routesAt_cons, hno]
            rfl
        · intro hn; exact absurd rfl (hn _)
      | protocolError =>
        dsimp only
        refine ⟨wf' _, (by intro q' hq'; cases hq'), ?_⟩
        intro _ p
        cases p with
        | nil => rfl
        | cons n p =>
          rw [routesAt_cons, routesAt_cons, hch]
          by_cases e : n = tok
          · subst e
            simp only [if_true, hno, Option.map_some, Option.getD_some, Option.map_none,
              Option.getD_none]
            rw [i3 (by rw [hr]; intro q hq; cases hq) p, routesAt_newTopic]
          · simp [e]
      | duplicate =>
        dsimp only
        refine ⟨wf' _, (by intro q' hq'; cases hq'), ?_⟩
        intro _ p
        cases p with
        | nil => rfl
        | cons n p =>
          rw [routesAt_cons, routesAt_cons, hch]
          by_cases e : n = tok
          · subst e
            simp only [if_true, hno, Option.map_some, Option.getD_some, Option.map_none,
              Option.getD_none]
            rw [i3 (by rw [hr]; intro q hq; cases hq) p, routesAt_newTopic]
          · simp [e]

/-- Into a new topic, adding always succeeds. -/
theorem add_new (id : Nat) (dup : Bool) (ts : List Token) (root : Bool) (path : Path) (n : Token) :
    (add id dup ts true root path (newTopic n)).2 = .ok (path ++ ts) := by
  induction ts generalizing root path n with
  | nil => simp [add]
  | cons tok ts ih =>
    rw [add]
    have hf : find tok [] (newTopic n).children = .missing := rfl
    rw [hf]
    dsimp only
    rw [ih]
    simp

/-- Adding with an error changes nothing in the tree. -/
theorem add_err (id : Nat) (dup : Bool) (ts : List Token) (created root : Bool) (path : Path)
    (t : Topic) (h : ∀ q, (add id dup ts created root path t).2 ≠ .ok q) :
    (add id dup ts created root path t).1 = t := by
  induction ts generalizing created root path t with
  | nil =>
    rw [add] at h ⊢
    split
    · rfl
    · rename_i hd
      rw [if_neg hd] at h
      exact absurd rfl (h path)
  | cons tok ts ih =>
    rw [add] at h ⊢
    split
    · rfl
    · rename_i k pre c post hk hf
      rw [hf] at h
      obtain ⟨mid, h1, h2, h3, -⟩ := find_hit hf
      simp only [List.nil_append] at h1
      subst h1
      have key : ∀ q, (add id dup ts false false (path ++ [c.name]) c).2 ≠ .ok q := by
        intro q hq
        cases k with
        | conflict => exact (hk rfl).elim
        | exact => dsimp only at h; rw [hq] at h; exact h q rfl
        | inst => dsimp only at h; rw [hq] at h; exact h q rfl
      have e := ih false false (path ++ [c.name]) c key
      dsimp only
      cases hr : (add id dup ts false false (path ++ [c.name]) c).2 with
      | ok q => exact absurd hr (key q)
      | protocolError => dsimp only; rw [e, ← h2]; cases t; rfl
      | duplicate => dsimp only; rw [e, ← h2]; cases t; rfl
    · rename_i hf
      rw [hf] at h
      dsimp only at h
      rw [add_new] at h
      exact absurd rfl (h _)

/-- A topic that is a table after adding was one before, or got the child of the path added. -/
theorem add_table (id : Nat) (dup : Bool) (ts : List Token) (created root : Bool) (path : Path)
    (t : Topic) (h : WF t) (q : Path) (hq : (add id dup ts created root path t).2 = .ok (path ++ q))
    (p : Path) (c' : Topic) (hc' : get p (add id dup ts created root path t).1 = some c')
    (ht : c'.isTable = true) :
    (∃ c, get p t = some c ∧ c.isTable = true) ∨
      ∃ tok rest, q = p ++ tok :: rest ∧ brace tok = true := by
  induction ts generalizing created root path t q p with
  | nil =>
    rw [add] at hq hc'
    split at hq
    · cases hq
    · rename_i hd
      rw [if_neg hd] at hc'
      left
      cases p with
      | nil =>
        simp only [get, Option.some.injEq] at hc' ⊢
        subst hc'
        exact ⟨t, rfl, ht⟩
      | cons n p =>
        simp only [get] at hc' ⊢
        exact ⟨c', hc', ht⟩
  | cons tok ts ih =>
    rw [add] at hq hc'
    split at hq
    · cases hq
    · rename_i k pre c post hk hf
      rw [hf] at hc'
      obtain ⟨mid, h1, h2, h3, -⟩ := find_hit hf
      simp only [List.nil_append] at h1
      subst h1
      have hc : c ∈ t.children := by rw [h2]; simp
      have hname := add_name id dup ts false false (path ++ [c.name]) c
      have hnd := h.names
      rw [h2] at hnd
      have hcc : child c.name t.children = some c := child_of_mem h.names hc
      have hch : ∀ n, child n
          (pre ++ (add id dup ts false false (path ++ [c.name]) c).1 :: post) =
          if n = c.name then some (add id dup ts false false (path ++ [c.name]) c).1
          else child n t.children := by
        intro n
        rw [child_replace hname hnd, ← h2]
      dsimp only at hq
      cases hr : (add id dup ts false false (path ++ [c.name]) c).2 with
      | protocolError => rw [hr] at hq; cases hq
      | duplicate => rw [hr] at hq; cases hq
      | ok q0 =>
        rw [hr] at hq
        simp only [Added.ok.injEq] at hq
        subst hq
        have hc'2 : get p ⟨t.name, t.isTable, t.routes,
            if root = true then t.routes2 else addOnce t.routes2 id,
            pre ++ (add id dup ts false false (path ++ [c.name]) c).1 :: post⟩ = some c' := by
          cases k with
          | conflict => exact (hk rfl).elim
          | exact => dsimp only at hc'; rw [hr] at hc'; exact hc'
          | inst => dsimp only at hc'; rw [hr] at hc'; exact hc'
        obtain ⟨-, hs, -⟩ := add_spec id dup ts false false (path ++ [c.name]) c (h.sub c hc)
        obtain ⟨a, ha, -⟩ := hs _ hr
        have hqa : q = c.name :: a := by
          rw [List.append_assoc] at ha
          exact List.append_cancel_left ha
        cases p with
        | nil =>
          simp only [get, Option.some.injEq] at hc'2
          subst hc'2
          exact Or.inl ⟨t, rfl, ht⟩
        | cons n p =>
          simp only [get] at hc'2 ⊢
          rw [hch] at hc'2
          by_cases e : n = c.name
          · subst e
            simp only [if_true, Option.bind_some, hcc] at hc'2 ⊢
            rcases ih false false (path ++ [c.name]) c (h.sub c hc) a (by rw [hr, ha]) p hc'2 with h' | ⟨tk, rest, h', hb⟩
            · exact Or.inl h'
            · exact Or.inr ⟨tk, rest, by rw [hqa, h']; rfl, hb⟩
          · rw [if_neg e] at hc'2
            exact Or.inl ⟨c', hc'2, ht⟩
    · rename_i hf
      rw [hf] at hc'
      have hm := find_missing hf
      have hname := add_name id dup ts true false (path ++ [tok]) (newTopic tok)
      have hnn : (newTopic tok).name = tok := rfl
      have hno : child tok t.children = none := child_none.mpr (fun c hc => (hm c hc).1)
      have hch : ∀ n, child n
          (t.children ++ [(add id dup ts true false (path ++ [tok]) (newTopic tok)).1]) =
          if n = tok then some (add id dup ts true false (path ++ [tok]) (newTopic tok)).1
          else child n t.children := by
        intro n
        rw [child_append, hname, hnn]
        by_cases e : n = tok
        · subst e; simp [hno]
        · have e' : ¬ tok = n := fun x => e x.symm
          simp [e, e']
      have hr := add_new id dup ts false (path ++ [tok]) tok
      dsimp only at hq hc'
      rw [hr] at hq hc'
      dsimp only at hc'
      simp only [Added.ok.injEq, List.append_assoc, List.singleton_append] at hq
      have hqa : q = tok :: ts := (List.append_cancel_left hq).symm
      cases p with
      | nil =>
        simp only [get, Option.some.injEq] at hc'
        subst hc'
        simp only [Bool.or_eq_true] at ht
        rcases ht with ht | ht
        · exact Or.inl ⟨t, rfl, ht⟩
        · exact Or.inr ⟨tok, ts, hqa, ht⟩
      | cons n p =>
        simp only [get] at hc' ⊢
        rw [hch] at hc'
        by_cases e : n = tok
        · subst e
          simp only [if_true, Option.bind_some] at hc'
          rcases ih true false (path ++ [n]) (newTopic n) (wf_newTopic n) ts hr p hc' with
            ⟨c, h', hb⟩ | ⟨tk, rest, h', hb⟩
          · exfalso
            cases p with
            | nil =>
              simp only [get, Option.some.injEq] at h'
              subst h'
              cases hb
            | cons m p => simp [get, newTopic, child] at h'
          · exact Or.inr ⟨tk, rest, by rw [hqa, h']; rfl, hb⟩
        · rw [if_neg e] at hc'
          exact Or.inl ⟨c', hc', ht⟩

/-! ## Removing a route -/

theorem eraseRoute_name (id : Nat) (t : Topic) : (eraseRoute id t).name = t.name := by
  cases t; rw [eraseRoute]

theorem eraseRoute_children (id : Nat) (t : Topic) :
    (eraseRoute id t).children = eraseRouteL id t.children := by
  cases t; rw [eraseRoute]

theorem eraseRoute_isTable (id : Nat) (t : Topic) : (eraseRoute id t).isTable = t.isTable := by
  cases t; rw [eraseRoute]

theorem eraseRoute_routes (id : Nat) (t : Topic) :
    (eraseRoute id t).routes = t.routes.map (·.erase id) := by
  cases t; rw [eraseRoute]

theorem eraseRoute_routes2 (id : Nat) (t : Topic) :
    (eraseRoute id t).routes2 = t.routes2.erase id := by
  cases t; rw [eraseRoute]

/-- A topic without children and routes. -/
def bare (t : Topic) : Prop := t.children.isEmpty = true ∧ (t.routes.getD []).isEmpty = true

instance (t : Topic) : Decidable (bare t) := inferInstanceAs (Decidable (_ ∧ _))

theorem eraseRouteL_cons (id : Nat) (c : Topic) (cs : List Topic) :
    eraseRouteL id (c :: cs) =
      if bare (eraseRoute id c) then eraseRouteL id cs else eraseRoute id c :: eraseRouteL id cs := by
  rw [eraseRouteL]; rfl

theorem mem_eraseRouteL {id : Nat} {cs : List Topic} {x : Topic} (h : x ∈ eraseRouteL id cs) :
    ∃ c ∈ cs, x = eraseRoute id c := by
  induction cs with
  | nil => simp [eraseRouteL] at h
  | cons c cs ih =>
    rw [eraseRouteL_cons] at h
    split at h
    · obtain ⟨y, hy, e⟩ := ih h
      exact ⟨y, List.mem_cons_of_mem _ hy, e⟩
    · rcases List.mem_cons.mp h with rfl | h
      · exact ⟨c, by simp, rfl⟩
      · obtain ⟨y, hy, e⟩ := ih h
        exact ⟨y, List.mem_cons_of_mem _ hy, e⟩

theorem eraseRouteL_names (id : Nat) (cs : List Topic) :
    ((eraseRouteL id cs).map (·.name)).Sublist (cs.map (·.name)) := by
  induction cs with
  | nil => simp [eraseRouteL]
  | cons c cs ih =>
    rw [eraseRouteL_cons]
    split
    · exact ih.cons _
    · simp only [List.map_cons, eraseRoute_name]
      exact ih.cons_cons _

theorem eraseRouteL_length (id : Nat) (cs : List Topic) :
    (eraseRouteL id cs).length ≤ cs.length := by
  have := (eraseRouteL_names id cs).length_le
  simpa using this

theorem child_eraseRouteL (id : Nat) {cs : List Topic} (h : (cs.map (·.name)).Nodup) (n : Token) :
    child n (eraseRouteL id cs) =
      (child n cs).bind (fun c => if bare (eraseRoute id c) then none else some (eraseRoute id c)) := by
  induction cs with
  | nil => simp [eraseRouteL, child]
  | cons c cs ih =>
    simp only [List.map_cons, List.nodup_cons] at h
    rw [eraseRouteL_cons]
    by_cases e : c.name = n
    · have hn : child n cs = none := by
        rw [child_none]
        intro x hx ex
        exact h.1 (List.mem_map.mpr ⟨x, hx, by rw [ex, e]⟩)
      have h1 : child n (c :: cs) = some c := by simp [child, e]
      rw [h1]
      split
      · rename_i hb
        rw [ih h.2, hn]
        simp [hb]
      · rename_i hb
        simp [child, eraseRoute_name, e, hb]
    · have h1 : child n (c :: cs) = child n cs := by simp [child, e]
      rw [h1, ← ih h.2]
      split
      · rfl
      · simp [child, eraseRoute_name, e]

theorem wf_eraseRoute (id : Nat) (t : Topic) (h : WF t) : WF (eraseRoute id t) := by
  induction t using Topic.ind with
  | h t ih =>
    constructor
    · rw [eraseRoute_children]
      exact List.Nodup.sublist (eraseRouteL_names id t.children) h.names
    · rw [eraseRoute_children]
      intro x hx hb
      obtain ⟨c, hc, rfl⟩ := mem_eraseRouteL hx
      rw [eraseRoute_name] at hb
      have := h.alone c hc hb
      rw [this] at hx ⊢
      rw [eraseRouteL_cons] at hx ⊢
      split
      · rename_i hb; rw [if_pos hb] at hx; simp [eraseRouteL] at hx
      · rw [eraseRouteL]
    · rw [eraseRoute_children, eraseRoute_isTable]
      intro x hx hb
      obtain ⟨c, hc, rfl⟩ := mem_eraseRouteL hx
      rw [eraseRoute_name] at hb
      exact h.table c hc hb
    · rw [eraseRoute_children]
      intro x hx
      obtain ⟨c, hc, rfl⟩ := mem_eraseRouteL hx
      exact ih c hc (h.sub c hc)

theorem routesAt_bare {t : Topic} (h : bare t) (p : Path) : routesAt t p = [] := by
  cases p with
  | nil => rw [routesAt_nil]; simpa using h.2
  | cons n p =>
    have hc : t.children = [] := by simpa using h.1
    rw [routesAt_cons, hc]
    rfl

theorem routesAt_eraseRoute (id : Nat) (t : Topic) (h : WF t) (p : Path) :
    routesAt (eraseRoute id t) p = (routesAt t p).erase id := by
  induction p generalizing t with
  | nil =>
    rw [routesAt_nil, routesAt_nil, eraseRoute_routes]
    cases t.routes <;> simp
  | cons n p ih =>
    rw [routesAt_cons, routesAt_cons, eraseRoute_children, child_eraseRouteL id h.names]
    cases hc : child n t.children with
    | none => simp
    | some c =>
      have := ih c (h.sub c (child_some hc).1)
      simp only [Option.bind_some, Option.map_some, Option.getD_some]
      split
      · rename_i hb
        rw [← this, routesAt_bare hb]
        rfl
      · simp only [Option.map_some, Option.getD_some]
        exact this

theorem get_eraseRoute {id : Nat} {t : Topic} (h : WF t) {p : Path} {x : Topic}
    (hg : get p (eraseRoute id t) = some x) : ∃ c, get p t = some c ∧ x = eraseRoute id c := by
  induction p generalizing t with
  | nil =>
    simp only [get, Option.some.injEq] at hg
    exact ⟨t, rfl, hg.symm⟩
  | cons n p ih =>
    simp only [get] at hg ⊢
    rw [eraseRoute_children, child_eraseRouteL id h.names] at hg
    cases hc : child n t.children with
    | none => rw [hc] at hg; simp at hg
    | some c =>
      rw [hc] at hg
      simp only [Option.bind_some] at hg ⊢
      split at hg
      · simp at hg
      · simp only [Option.bind_some] at hg
        exact ih (h.sub c (child_some hc).1) hg

/-! ## Removing a topic -/

theorem detach_spec {path : Path} {ts : List Token} {t t' : Topic} {q : Path} {c : Topic}
    (h : WF t) (hd : detach path ts t = some (t', q, c)) :
    ∃ a, q = path ++ a ∧ a ≠ [] ∧ get a t = some c ∧ WF t' ∧ WF c ∧ t'.name = t.name ∧
      t'.routes = t.routes ∧
      (∀ p, routesAt t' p = if a <+: p then [] else routesAt t p) ∧
      (∀ p x, get p t' = some x → ∃ y, get p t = some y ∧ x.isTable = y.isTable ∧
        x.routes = y.routes ∧ x.routes2 = y.routes2 ∧ ¬ a <+: p) := by
  induction ts generalizing path t t' q c with
  | nil => simp [detach] at hd
  | cons tok ts ih =>
    cases ts with
    | nil =>
      rw [detach] at hd
      split at hd
      · rename_i pre x post hf
        simp only [Option.some.injEq, Prod.mk.injEq] at hd
        obtain ⟨rfl, rfl, rfl⟩ := hd
        obtain ⟨mid, h1, h2, h3, h4, -⟩ := find_hit hf
        simp only [List.nil_append] at h1
        subst h1
        have hx : x ∈ t.children := by rw [h2]; simp
        have hnd := h.names
        rw [h2] at hnd
        have hch : ∀ n, child n (pre ++ post) = if n = x.name then none else child n t.children := by
          intro n; rw [child_erase hnd, ← h2]
        have hsub : ∀ y ∈ pre ++ post, y ∈ t.children := by
          intro y hy
          rw [h2]
          rcases List.mem_append.mp hy with hy | hy <;> simp [hy]
        refine ⟨[x.name], rfl, by simp, ?_, ?_, h.sub x hx, rfl, rfl, ?_, ?_⟩
        · simp [get, child_of_mem h.names hx]
        · constructor
          · dsimp only
            refine List.Nodup.sublist ?_ hnd
            simp only [List.map_append, List.map_cons]
            exact List.Sublist.append_left (List.sublist_cons_self _ _) _
          · dsimp only
            intro y hy hb
            have := h.alone y (hsub y hy) hb
            rw [h2] at this
            have hl := congrArg List.length this
            simp only [List.length_append, List.length_cons, List.length_nil] at hl
            have := List.length_pos_of_mem hy
            simp only [List.length_append] at this
            omega
          · dsimp only
            intro y hy hb
            exact h.table y (hsub y hy) hb
          · dsimp only
            intro y hy
            exact h.sub y (hsub y hy)
        · intro p
          cases p with
          | nil => simp [routesAt, get]
          | cons n p =>
            rw [routesAt_cons, routesAt_cons, hch]
            by_cases e : n = x.name
            · subst e; simp [List.cons_prefix_cons]
            · have e' : ¬ x.name = n := fun z => e z.symm
              simp [e, e', List.cons_prefix_cons]
        · intro p y hy
          cases p with
          | nil =>
            simp only [get, Option.some.injEq] at hy
            subst hy
            exact ⟨t, rfl, rfl, rfl, rfl, by simp⟩
          | cons n p =>
            simp only [get] at hy ⊢
            rw [hch] at hy
            by_cases e : n = x.name
            · subst e; simp at hy
            · rw [if_neg e] at hy
              have e' : ¬ x.name = n := fun z => e z.symm
              exact ⟨y, hy, rfl, rfl, rfl, by simp [List.cons_prefix_cons, e']⟩
      · cases hd
    | cons tok' ts =>
      rw [detach] at hd
      split at hd
      · rename_i k pre x post hf
        obtain ⟨mid, h1, h2, h3, -⟩ := find_hit hf
        simp only [List.nil_append] at h1
        subst h1
        have hx : x ∈ t.children := by rw [h2]; simp
        have hnd := h.names
        rw [h2] at hnd
        cases hd' : detach (path ++ [x.name]) (tok' :: ts) x with
        | none => rw [hd'] at hd; cases hd
        | some r =>
          obtain ⟨x', q', c'⟩ := r
          rw [hd'] at hd
          simp only [Option.map_some, Option.some.injEq, Prod.mk.injEq] at hd
          obtain ⟨rfl, rfl, rfl⟩ := hd
          obtain ⟨a, e1, e2, e3, e4, e5, e6, e7, e8, e9⟩ := ih (h.sub x hx) hd'
          have hcc : child x.name t.children = some x := child_of_mem h.names hx
          have hch : ∀ n, child n (pre ++ x' :: post) =
              if n = x.name then some x' else child n t.children := by
            intro n; rw [child_replace e6 hnd, ← h2]
          refine ⟨x.name :: a, by rw [e1]; simp, by simp, ?_, ?_, e5, rfl, rfl, ?_, ?_⟩
          · simp only [get, hcc, Option.bind_some]; exact e3
          · constructor
            · dsimp only
              have := hnd
              simp only [List.map_append, List.map_cons, e6] at this ⊢
              exact this
            · dsimp only
              intro y hy hb
              have hl : t.children.length = 1 := by
                rcases List.mem_append.mp hy with hy | hy
                · have := h.alone y (by rw [h2]; simp [hy]) hb
                  rw [this]; rfl
                · rcases List.mem_cons.mp hy with rfl | hy
                  · rw [e6] at hb
                    rw [h.alone x hx hb]; rfl
                  · have := h.alone y (by rw [h2]; simp [hy]) hb
                    rw [this]; rfl
              rw [h2] at hl
              simp only [List.length_append, List.length_cons] at hl
              have e1 : pre = [] := List.length_eq_zero_iff.mp (by omega)
              have e2 : post = [] := List.length_eq_zero_iff.mp (by omega)
              subst e1 e2
              simp only [List.nil_append, List.mem_singleton] at hy ⊢
              rw [hy]
            · dsimp only
              intro y hy hb
              rcases List.mem_append.mp hy with hy | hy
              · exact h.table y (by rw [h2]; simp [hy]) hb
              · rcases List.mem_cons.mp hy with rfl | hy
                · rw [e6] at hb
                  exact h.table x hx hb
                · exact h.table y (by rw [h2]; simp [hy]) hb
            · dsimp only
              intro y hy
              rcases List.mem_append.mp hy with hy | hy
              · exact h.sub y (by rw [h2]; simp [hy])
              · rcases List.mem_cons.mp hy with rfl | hy
                · exact e4
                · exact h.sub y (by rw [h2]; simp [hy])
          · intro p
            cases p with
            | nil => simp [routesAt, get]
            | cons n p =>
              rw [routesAt_cons, routesAt_cons, hch]
              by_cases e : n = x.name
              · subst e
                simp only [if_true, hcc, Option.map_some, Option.getD_some, List.cons_prefix_cons,
                  true_and]
                exact e8 p
              · have e' : ¬ x.name = n := fun z => e z.symm
                simp [e, e', List.cons_prefix_cons]
          · intro p y hy
            cases p with
            | nil =>
              simp only [get, Option.some.injEq] at hy
              subst hy
              exact ⟨t, rfl, rfl, rfl, rfl, by simp⟩
            | cons n p =>
              simp only [get] at hy ⊢
              rw [hch] at hy
              by_cases e : n = x.name
              · subst e
                simp only [if_true, hcc, Option.bind_some] at hy ⊢
                obtain ⟨z, z1, z2, z3, z3', z4⟩ := e9 p y hy
                exact ⟨z, z1, z2, z3, z3', by simpa [List.cons_prefix_cons] using z4⟩
              · rw [if_neg e] at hy
                have e' : ¬ x.name = n := fun z => e z.symm
                exact ⟨y, hy, rfl, rfl, rfl, by simp [List.cons_prefix_cons, e']⟩
      · cases hd

theorem mem_entries (t : Topic) : WF t → ∀ (p q : Path) (i : Nat),
    ((q, i) ∈ entries p t ↔ ∃ s, q = p ++ s ∧ i ∈ routesAt t s) := by
  induction t using Topic.ind with
  | h t ih =>
    intro h p q i
    have hL : ∀ cs : List Topic, (∀ c ∈ cs, c ∈ t.children) →
        ((q, i) ∈ entriesL p cs ↔ ∃ c ∈ cs, ∃ s, q = p ++ c.name :: s ∧ i ∈ routesAt c s) := by
      intro cs hcs
      induction cs with
      | nil => simp [entriesL]
      | cons c cs ihL =>
        rw [entriesL, List.mem_append, ihL (fun x hx => hcs x (List.mem_cons_of_mem _ hx)),
          ih c (hcs c (by simp)) (h.sub c (hcs c (by simp)))]
        simp
    cases t with
    | mk n b r r2 cs =>
      rw [entries, List.mem_append, hL cs (fun c hc => hc)]
      constructor
      · rintro (hm | ⟨c, hc, s, hq, hi⟩)
        · simp only [List.mem_map, Prod.mk.injEq] at hm
          obtain ⟨j, hj, rfl, rfl⟩ := hm
          exact ⟨[], by simp, hj⟩
        · refine ⟨c.name :: s, hq, ?_⟩
          rw [routesAt_cons, child_of_mem h.names hc]
          exact hi
      · rintro ⟨s, hq, hi⟩
        cases s with
        | nil =>
          left
          rw [routesAt_nil] at hi
          simp only [List.mem_map, Prod.mk.injEq]
          exact ⟨i, hi, by simpa using hq.symm, rfl⟩
        | cons m s =>
          right
          rw [routesAt_cons] at hi
          cases hc : child m cs with
          | none => simp [hc] at hi
          | some c =>
            simp only [hc, Option.map_some, Option.getD_some] at hi
            obtain ⟨h1, h2⟩ := child_some hc
            exact ⟨c, h1, s, by rw [h2]; exact hq, hi⟩

theorem entries_nodup (t : Topic) : WF t → (∀ p, (routesAt t p).Nodup) → ∀ p, (entries p t).Nodup := by
  induction t using Topic.ind with
  | h t ih =>
    intro h hr p
    have hsub : ∀ c ∈ t.children, ∀ s, routesAt c s = routesAt t (c.name :: s) := by
      intro c hc s
      rw [routesAt_cons, child_of_mem h.names hc]; rfl
    have hL : ∀ cs : List Topic, (∀ c ∈ cs, c ∈ t.children) → (cs.map (·.name)).Nodup →
        (entriesL p cs).Nodup ∧
          ∀ q i, (q, i) ∈ entriesL p cs → ∃ c ∈ cs, ∃ s, q = p ++ c.name :: s := by
      intro cs hcs hnd
      induction cs with
      | nil => simp [entriesL]
      | cons c cs ihL =>
        simp only [List.map_cons, List.nodup_cons] at hnd
        obtain ⟨l1, l2⟩ := ihL (fun x hx => hcs x (List.mem_cons_of_mem _ hx)) hnd.2
        have hc := hcs c (by simp)
        rw [entriesL]
        constructor
        · rw [List.nodup_append]
          refine ⟨ih c hc (h.sub c hc) (fun s => by rw [hsub c hc]; exact hr _) _, l1, ?_⟩
          rintro ⟨q, i⟩ hm ⟨q', i'⟩ hm' e
          cases e
          obtain ⟨s, hs, -⟩ := (mem_entries c (h.sub c hc) _ _ _).mp hm
          obtain ⟨c', hc', s', hs'⟩ := l2 _ _ hm'
          rw [hs, List.append_assoc] at hs'
          have := List.append_cancel_left hs'
          simp only [List.cons_append, List.nil_append, List.cons.injEq] at this
          exact hnd.1 (List.mem_map.mpr ⟨c', hc', this.1.symm⟩)
        · intro q i hm
          rcases List.mem_append.mp hm with hm | hm
          · obtain ⟨s, hs, -⟩ := (mem_entries c (h.sub c hc) _ _ _).mp hm
            exact ⟨c, by simp, s, by rw [hs]; simp⟩
          · obtain ⟨c', hc', s', hs'⟩ := l2 _ _ hm
            exact ⟨c', List.mem_cons_of_mem _ hc', s', hs'⟩
    obtain ⟨l1, l2⟩ := hL t.children (fun c hc => hc) h.names
    cases t with
    | mk n b r r2 cs =>
      rw [entries, List.nodup_append]
      refine ⟨?_, l1, ?_⟩
      · have := hr []
        rw [routesAt_nil] at this
        rw [List.Nodup, List.pairwise_map]
        refine this.imp ?_
        intro a b hab e
        cases e
        exact hab rfl
      · rintro ⟨q, i⟩ hm ⟨q', i'⟩ hm' e
        cases e
        simp only [List.mem_map, Prod.mk.injEq] at hm
        obtain ⟨j, -, rfl, rfl⟩ := hm
        obtain ⟨c', hc', s', hs'⟩ := l2 _ _ hm'
        have := congrArg List.length hs'
        simp at this

end Verif.Routing
