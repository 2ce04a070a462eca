import Verif.Proof.RoutingInv
import Verif.Spec.RoutingCall

namespace Verif.Routing

open Verif Verif.Spec.Routing

/-! ## Names and tokens -/

theorem split_append {t : Bytes} (ht : (46 : UInt8) ∉ t) (cs : Bytes) :
    split (t ++ 46 :: cs) = (t, if cs = [] then [] else (split cs).1 :: (split cs).2) := by
  induction t with
  | nil => simp [split, dot]
  | cons c t ih =>
    simp only [List.mem_cons, not_or] at ht
    have hc : ¬ c = dot := by unfold dot; exact fun e => ht.1 e.symm
    rw [List.cons_append, split, if_neg hc, ih ht.2]

theorem split_noDot {t : Bytes} (ht : (46 : UInt8) ∉ t) : split t = (t, []) := by
  induction t with
  | nil => rfl
  | cons c t ih =>
    simp only [List.mem_cons, not_or] at ht
    have hc : ¬ c = dot := by unfold dot; exact fun e => ht.1 e.symm
    rw [split, if_neg hc, ih ht.2]

theorem dotted_ne {n : Name} (hn : n ≠ []) (h : ∀ t ∈ n, t ≠ []) : dotted n ≠ [] := by
  match n, hn with
  | [t], _ => simpa [dotted] using h t (by simp)
  | t :: u :: ts, _ => simp [dotted]

theorem tokens_dotted {n : Name} (h : ∀ t ∈ n, t ≠ [] ∧ (46 : UInt8) ∉ t) : tokens (dotted n) = n := by
  induction n with
  | nil => rfl
  | cons t n ih =>
    cases n with
    | nil =>
      have := h t (by simp)
      simp [tokens, dotted, this.1, split_noDot this.2]
    | cons u ts =>
      have h1 := h t (by simp)
      have h2 := ih (fun x hx => h x (List.mem_cons_of_mem _ hx))
      have hne : dotted (u :: ts) ≠ [] := dotted_ne (by simp) (fun x hx => (h x (List.mem_cons_of_mem _ hx)).1)
      unfold tokens at h2 ⊢
      rw [if_neg hne] at h2
      rw [if_neg (by simp [dotted])]
      rw [dotted, split_append h1.2, if_neg hne]
      dsimp only
      rw [h2]

theorem tokens_dotted_dot {n : Name} (h : ∀ t ∈ n, t ≠ [] ∧ (46 : UInt8) ∉ t) (hn : n ≠ []) :
    tokens (dotted n ++ [46]) = n := by
  induction n with
  | nil => exact absurd rfl hn
  | cons t n ih =>
    cases n with
    | nil =>
      have := h t (by simp)
      unfold tokens
      rw [if_neg (by simp)]
      rw [dotted, split_append this.2]
      rfl
    | cons u ts =>
      have h1 := h t (by simp)
      have h2 := ih (fun x hx => h x (List.mem_cons_of_mem _ hx)) (by simp)
      unfold tokens at h2 ⊢
      rw [if_neg (by simp)] at h2
      rw [if_neg (by simp)]
      rw [dotted, List.append_assoc, List.cons_append, split_append h1.2, if_neg (by simp)]
      dsimp only
      rw [h2]

theorem dotted_sum {n : Name} (hn : n ≠ []) :
    (n.map (fun t => t.length + 1)).sum = (dotted n).length + 1 := by
  induction n with
  | nil => exact absurd rfl hn
  | cons t n ih =>
    cases n with
    | nil => simp [dotted]
    | cons u ts =>
      have := ih (by simp)
      rw [List.map_cons, List.sum_cons, this, dotted]
      simp only [List.length_append, List.length_cons]
      omega

theorem tokenize_proper {n : Name} (h : Proper n) : tokenize (dotted n) = .ok n := by
  obtain ⟨h1, h2, h3, h4⟩ := h
  unfold tokenize
  rw [tokens_dotted h2, if_pos]
  refine ⟨h3, ?_⟩
  rw [dotted_sum h1]
  exact h4

theorem tokenize_proper_dot {n : Name} (h : Proper n) : tokenize (dotted n ++ [46]) = .ok n := by
  obtain ⟨h1, h2, h3, h4⟩ := h
  unfold tokenize
  rw [tokens_dotted_dot h2 h1, if_pos]
  refine ⟨h3, ?_⟩
  rw [dotted_sum h1]
  exact h4

theorem count_noDot {t : Bytes} (ht : (46 : UInt8) ∉ t) : t.count dot = 0 :=
  List.count_eq_zero.mpr ht

theorem dotted_count {n : Name} (h : ∀ t ∈ n, t ≠ [] ∧ (46 : UInt8) ∉ t) :
    (dotted n).count dot ≤ n.length := by
  induction n with
  | nil => simp [dotted]
  | cons t n ih =>
    cases n with
    | nil => rw [dotted, count_noDot (h t (by simp)).2]; omega
    | cons u ts =>
      have := ih (fun x hx => h x (List.mem_cons_of_mem _ hx))
      rw [dotted, List.count_append, count_noDot (h t (by simp)).2]
      have : (46 :: dotted (u :: ts)).count dot = (dotted (u :: ts)).count dot + 1 := by
        unfold dot; simp
      rw [this]
      simp only [List.length_cons] at *
      omega

theorem hasDotDot_append {t : Bytes} (ht : t ≠ [] ∧ (46 : UInt8) ∉ t) (cs : Bytes) :
    hasDotDot (t ++ cs) = hasDotDot cs := by
  obtain ⟨h1, h2⟩ := ht
  clear h1
  induction t with
  | nil => rfl
  | cons c t ih =>
    simp only [List.mem_cons, not_or] at h2
    have hc : ¬ c = dot := by unfold dot; exact fun e => h2.1 e.symm
    have h3 := ih h2.2
    rw [List.cons_append]
    cases hx : t ++ cs with
    | nil =>
      rw [hx] at h3
      rw [← h3]
      simp [hasDotDot]
    | cons x xs =>
      rw [hasDotDot, ← hx, h3]
      simp [hc]

theorem hasDotDot_dotted {n : Name} (h : ∀ t ∈ n, t ≠ [] ∧ (46 : UInt8) ∉ t) :
    hasDotDot (dotted n) = false := by
  induction n with
  | nil => rfl
  | cons t n ih =>
    cases n with
    | nil =>
      rw [dotted, ← List.append_nil t, hasDotDot_append (h t (by simp))]
      rfl
    | cons u ts =>
      have h2 := ih (fun x hx => h x (List.mem_cons_of_mem _ hx))
      rw [dotted, hasDotDot_append (h t (by simp))]
      have hu := h u (by simp)
      cases hd : dotted (u :: ts) with
      | nil => rfl
      | cons x xs =>
        rw [hasDotDot, ← hd, h2]
        have hx : x ∈ u := by
          cases u with
          | nil => exact absurd rfl hu.1
          | cons y ys =>
            cases ts with
            | nil => simp only [dotted, List.cons.injEq] at hd; rw [← hd.1]; simp
            | cons v vs => simp only [dotted, List.cons_append, List.cons.injEq] at hd; rw [← hd.1]; simp
        have : ¬ x = dot := by
          unfold dot
          rintro rfl
          exact hu.2 hx
        simp [this]

theorem validate_proper {n : Name} (h : Proper n) : validate (dotted n) = true := by
  obtain ⟨h1, h2, h3, h4⟩ := h
  unfold validate maxBuffer maxTokens
  rw [hasDotDot_dotted h2]
  have := dotted_count h2
  simp only [Bool.not_false, Bool.true_and, Bool.and_eq_true, decide_eq_true_eq]
  omega

theorem dotted_getLast {n : Name} (h : ∀ t ∈ n, t ≠ [] ∧ (46 : UInt8) ∉ t) :
    (dotted n).getLast? ≠ some dot := by
  induction n with
  | nil => simp [dotted]
  | cons t n ih =>
    cases n with
    | nil =>
      rw [dotted]
      intro hl
      exact (h t (by simp)).2 (List.mem_of_getLast? hl)
    | cons u ts =>
      have h2 := ih (fun x hx => h x (List.mem_cons_of_mem _ hx))
      have hne : dotted (u :: ts) ≠ [] := dotted_ne (by simp) (fun x hx => (h x (List.mem_cons_of_mem _ hx)).1)
      obtain ⟨x, hx⟩ : ∃ x, (dotted (u :: ts)).getLast? = some x := by
        cases hl : (dotted (u :: ts)).getLast? with
        | none => exact absurd (List.getLast?_eq_none_iff.mp hl) hne
        | some x => exact ⟨x, rfl⟩
      rw [hx] at h2
      rw [dotted, List.getLast?_append, List.getLast?_cons, hx]
      simpa using h2

theorem advisory_dotted : dotted advisoryName = advisory := by decide

theorem rows_eq : rows = curlyI := rfl

theorem rowLike_eq (t : Bytes) : rowLike t = instLike t := rfl

theorem brace_rows : brace rows = true := by decide

theorem brace_iff (t : Bytes) : brace t = true ↔ t.head? = some 123 := by simp [brace]

/-! ## Descending -/

theorem get_append (a b : Path) (t : Topic) : get (a ++ b) t = (get a t).bind (get b) := by
  induction a generalizing t with
  | nil => rfl
  | cons n a ih =>
    simp only [List.cons_append, get]
    cases child n t.children with
    | none => rfl
    | some c => exact ih c

theorem get_prefix {a b : Path} {t : Topic} (h : (get (a ++ b) t).isSome = true) :
    (get a t).isSome = true := by
  rw [get_append] at h
  cases hg : get a t with
  | none => rw [hg] at h; cases h
  | some c => rfl

theorem get_wf {p : Path} {t c : Topic} (h : WF t) (hg : get p t = some c) : WF c := by
  induction p generalizing t with
  | nil =>
    simp only [get, Option.some.injEq] at hg
    subst hg
    exact h
  | cons n p ih =>
    simp only [get] at hg
    cases hc : child n t.children with
    | none => rw [hc] at hg; cases hg
    | some x =>
      rw [hc] at hg
      exact ih (h.sub x (child_some hc).1) hg

theorem routesAt_isSome {p : Path} {t : Topic} {i : Nat} (h : i ∈ routesAt t p) :
    (get p t).isSome = true := by
  unfold routesAt at h
  cases hg : get p t with
  | none => rw [hg] at h; simp at h
  | some c => rfl

/-- The paths in the tree agree with a path to add: where a brace comes up, they are the same. -/
def Agree (ts : Path) (t : Topic) : Prop :=
  ∀ π tok rest, ts = π ++ tok :: rest → ∀ x, (get (π ++ [x]) t).isSome = true →
    (brace x = true ∨ brace tok = true) → x = tok

theorem Agree.sub {tok : Token} {ts : Path} {t c : Topic} (h : Agree (tok :: ts) t)
    (hc : child tok t.children = some c) : Agree ts c := by
  intro π tk rest e x hx hb
  refine h (tok :: π) tk rest (by rw [e]; rfl) x ?_ hb
  simp only [List.cons_append, get, hc, Option.bind_some]
  exact hx

theorem Agree.find {tok : Token} {ts : Path} {t : Topic} (hw : WF t) (h : Agree (tok :: ts) t)
    {k : Kind} {pre : List Topic} {c : Topic} {post : List Topic}
    (hf : find tok [] t.children = .hit k pre c post) : k = .exact ∧ c.name = tok := by
  obtain ⟨mid, h1, h2, h3, h4, h5, -⟩ := find_hit hf
  have hc : c ∈ t.children := by rw [h2]; simp
  by_cases hk : k = .exact
  · exact ⟨hk, h4 hk⟩
  · obtain ⟨hne, hb⟩ := h5 hk
    exact absurd (h [] tok ts rfl c.name (by
      simp [get, child_of_mem hw.names hc]) hb) hne

theorem add_agree (id : Nat) (dup : Bool) (ts : List Token) (created root : Bool) (path : Path)
    (t : Topic) (h : WF t) (ha : Agree ts t) :
    (add id dup ts created root path t).2 ≠ .protocolError ∧
      ∀ q, (add id dup ts created root path t).2 = .ok q → q = path ++ ts := by
  induction ts generalizing created root path t with
  | nil =>
    rw [add]
    split
    · simp
    · refine ⟨by simp, ?_⟩
      intro q hq
      cases hq
      simp
  | cons tok ts ih =>
    rw [add]
    split
    · rename_i hf
      have := (ha.find h hf).1
      cases this
    · rename_i k pre c post hk hf
      obtain ⟨-, hname⟩ := ha.find h hf
      obtain ⟨mid, h1, h2, -⟩ := find_hit hf
      have hc : c ∈ t.children := by rw [h2]; simp
      have hcc := child_of_mem h.names hc
      rw [hname] at hcc
      obtain ⟨i1, i2⟩ := ih false false (path ++ [c.name]) c (h.sub c hc) (ha.sub hcc)
      dsimp only
      cases hr : (add id dup ts false false (path ++ [c.name]) c).2 with
      | protocolError => exact absurd hr i1
      | duplicate => simp
      | ok q =>
        refine ⟨by simp, ?_⟩
        intro q' hq'
        cases hq'
        rw [i2 q hr, hname]
        simp
    · dsimp only
      rw [add_new]
      refine ⟨by simp, ?_⟩
      intro q' hq'
      cases hq'
      simp

theorem detach_agree (path : Path) (ts : List Token) (t : Topic) (h : WF t) (ha : Agree ts t)
    (hne : ts ≠ []) :
    (detach path ts t = none ∧ get ts t = none) ∨
      ∃ t' c, detach path ts t = some (t', path ++ ts, c) := by
  induction ts generalizing path t with
  | nil => exact absurd rfl hne
  | cons tok ts ih =>
    cases hf : find tok [] t.children with
    | missing =>
      left
      have hno : child tok t.children = none := child_none.mpr (fun c hc => (find_missing hf c hc).1)
      refine ⟨?_, by simp [get, hno]⟩
      cases ts with
      | nil => rw [detach, hf]
      | cons u ts => rw [detach, hf]
    | hit k pre c post =>
      obtain ⟨rfl, hname⟩ := ha.find h hf
      obtain ⟨mid, h1, h2, -⟩ := find_hit hf
      have hc : c ∈ t.children := by rw [h2]; simp
      have hcc := child_of_mem h.names hc
      rw [hname] at hcc
      cases ts with
      | nil =>
        right
        rw [detach, hf]
        exact ⟨_, c, by dsimp only; rw [hname]⟩
      | cons u ts =>
        rcases ih (path ++ [c.name]) c (h.sub c hc) (ha.sub hcc) (by simp) with ⟨i1, i2⟩ | ⟨t', x, i1⟩
        · left
          rw [detach, hf]
          dsimp only
          rw [i1]
          refine ⟨rfl, ?_⟩
          rw [get, hcc]
          exact i2
        · right
          rw [detach, hf]
          dsimp only
          rw [i1]
          refine ⟨{ t with children := pre ++ t' :: post }, x, ?_⟩
          simp only [Option.map_some, hname]
          simp

/-! ## The invariant for conventional names -/

/-- The tree has only topics on the way to names in use. -/
structure CInv (P : List Name) (s : State) (G : List Ent) : Prop where
  g : GInv s G
  nodes : ∀ p, (get p s.root).isSome = true → p = [] ∨ ∃ rest, p ++ rest ∈ P
  table : ∀ p c, get p s.root = some c → c.isTable = true → ∃ rest, p ++ rows :: rest ∈ P
  paths : ∀ g ∈ G, g.path ∈ P

theorem cinv_init (P : List Name) : CInv P init [] := by
  refine ⟨ginv_init, ?_, ?_, by simp⟩
  · intro p hp
    cases p with
    | nil => exact Or.inl rfl
    | cons n p => simp [get, init, child] at hp
  · intro p c hc ht
    cases p with
    | nil =>
      simp only [get, Option.some.injEq] at hc
      subst hc
      cases ht
    | cons n p => simp [get, init, child] at hc

theorem CInv.agree {P : List Name} (hP : Conventional P) {s : State} {G : List Ent} (h : CInv P s G)
    {ts : Name} (hts : ts ∈ P) : Agree ts s.root := by
  intro π tok rest e x hx hb
  rcases h.nodes _ hx with h0 | ⟨r, hr⟩
  · simp at h0
  · rw [List.append_assoc, List.singleton_append] at hr
    rw [e] at hts
    rcases hb with hb | hb
    · have hxr : x = rows := (hP.1 _ hr).2 x (by simp) ((brace_iff x).mp hb)
      subst hxr
      exact (hP.2 π tok rest r hts hr).symm
    · have htr : tok = rows := (hP.1 _ hts).2 tok (by simp) ((brace_iff tok).mp hb)
      subst htr
      exact hP.2 π x r rest hr hts

theorem get_detach_mono {path : Path} {ts : List Token} {t t' : Topic} {q : Path} {c : Topic}
    (h : WF t) (hd : detach path ts t = some (t', q, c)) {p : Path}
    (hp : (get p t').isSome = true) : (get p t).isSome = true := by
  obtain ⟨a, -, -, -, -, -, -, -, -, e⟩ := detach_spec h hd
  obtain ⟨x, hx⟩ := Option.isSome_iff_exists.mp hp
  obtain ⟨y, hy, -⟩ := e p x hx
  rw [hy]; rfl

/-- The entries, seen from outside. -/
def regs (G : List Ent) : List (Name × Nat) := G.map (fun g => (g.path, g.data))

theorem dup_cond {n : Name} (hn : Proper n) (x : Bool) :
    (x && decide (dotted n ≠ advisory)) = true ↔ ¬ (x = false ∨ n = advisoryName) := by
  have hadv : dotted n = advisory ↔ n = advisoryName := by
    constructor
    · intro e
      rw [← advisory_dotted] at e
      have h1 := tokens_dotted hn.2.1
      rw [e, tokens_dotted (by decide)] at h1
      exact h1.symm
    · rintro rfl; exact advisory_dotted
  cases x <;> simp [hadv]

theorem step_register {P : List Name} (hP : Conventional P) {s : State} {G : List Ent}
    (h : CInv P s G) {n : Name} (hn : n ∈ P) (w : Nat) (x : Bool)
    (hfresh : (x = false ∨ n = advisoryName) → (n, w) ∉ regs G) :
    ∃ s' rc, addTopicRoute s (dotted n) w x = .ok (s', rc) ∧
      ((rc = .duplicate ∧ CInv P s' G) ∨
       (rc = .ok ∧ (x = true → n ≠ advisoryName → ∀ g ∈ G, g.path ≠ n) ∧
         ∃ id, CInv P s' (G ++ [⟨n, id, w⟩]))) := by
  have hprop := (hP.1 n hn).1
  have htoks : tokens (dotted n) = n := tokens_dotted hprop.2.1
  cases hres : addTopicRoute s (dotted n) w x with
  | fail =>
    exfalso
    unfold addTopicRoute at hres
    rw [if_neg (by rw [validate_proper hprop]; simp), tokenize_proper hprop, Res.ok_bind,
      if_neg hprop.1] at hres
    dsimp only at hres
    split at hres <;> cases hres
  | ub =>
    exfalso
    unfold addTopicRoute at hres
    rw [if_neg (by rw [validate_proper hprop]; simp), tokenize_proper hprop, Res.ok_bind,
      if_neg hprop.1] at hres
    dsimp only at hres
    split at hres <;> cases hres
  | ok r =>
    obtain ⟨s', rc⟩ := r
    refine ⟨s', rc, rfl, ?_⟩
    obtain ⟨f1, f2⟩ := addTopicRoute_spec h.g hres
    have hag := h.agree hP hn
    by_cases hrc : rc = .ok
    · right
      refine ⟨hrc, ?_⟩
      rcases f2 hrc with ⟨e, -⟩ | ⟨a, id, hne, hadd, hexcl, hinv⟩
      · rw [htoks] at e; exact absurd e hprop.1
      · rw [htoks] at hadd
        have ha : a = n := by
          have := (add_agree id _ n false true [] s.root h.g.wf hag).2 a (by rw [hadd])
          simpa using this
        subst ha
        have hnew : ∀ g ∈ G, ¬ (g.path = a ∧ g.data = w) := by
          rintro g hg ⟨e1, e2⟩
          by_cases hx : x = false ∨ a = advisoryName
          · exact hfresh hx (List.mem_map.mpr ⟨g, hg, by rw [e1, e2]⟩)
          · exact hexcl ((dup_cond hprop x).mpr hx) g hg e1
        refine ⟨fun hx ha => hexcl ((dup_cond hprop x).mpr (by simp [hx, ha])), id, hinv hnew, ?_, ?_, ?_⟩
        · intro p hp
          have hsp := (add_spec id (x && decide (dotted a ≠ advisory)) a false true [] s.root h.g.wf).2.1
          rw [hadd] at hsp
          obtain ⟨a', ea, -, hs, -⟩ := hsp a rfl
          simp only [List.nil_append] at ea
          subst ea
          rcases (hs p).mp hp with hp | hp
          · exact h.nodes p hp
          · obtain ⟨rest, hr⟩ := hp
            exact Or.inr ⟨rest, by rw [hr]; exact hn⟩
        · intro p c hc ht
          have := add_table id (x && decide (dotted a ≠ advisory)) a false true [] s.root h.g.wf a
            (by rw [hadd]; rfl) p c (by rw [hadd]; exact hc) ht
          rcases this with ⟨c', h1, h2⟩ | ⟨tok, rest, e, hb⟩
          · exact h.table p c' h1 h2
          · have : tok = rows := (hP.1 a hn).2 tok (by rw [e]; simp) ((brace_iff tok).mp hb)
            subst this
            exact ⟨rest, by rw [← e]; exact hn⟩
        · intro g hg
          rcases List.mem_append.mp hg with hg | hg
          · exact h.paths g hg
          · rw [List.mem_singleton] at hg
            subst hg
            exact hn
    · left
      obtain ⟨g1, g2⟩ := f1 hrc
      have hno : rc = .duplicate := by
        unfold addTopicRoute at hres
        rw [if_neg (by rw [validate_proper hprop]; simp), tokenize_proper hprop, Res.ok_bind,
          if_neg hprop.1] at hres
        dsimp only at hres
        have hroot := (getOrCreate_spec h.g w).2.1
        have := (add_agree (getOrCreate s w).2 (x && decide (dotted n ≠ advisory)) n false true []
          (getOrCreate s w).1.root (by rw [hroot]; exact h.g.wf) (by rw [hroot]; exact hag)).1
        split at hres
        · cases hres; exact absurd rfl hrc
        · rename_i hp; exact absurd hp this
        · cases hres; rfl
      refine ⟨hno, g1, ?_, ?_, h.paths⟩
      · rw [g2]; exact h.nodes
      · rw [g2]; exact h.table

theorem step_forget {P : List Name} {s : State} {G : List Ent} (h : CInv P s G) (w : Nat) :
    CInv P (removeRoute s w) (G.filter (fun g => g.data ≠ w)) := by
  have hg := removeRoute_spec h.g w
  have key : ∀ p c, get p (removeRoute s w).root = some c →
      ∃ c', get p s.root = some c' ∧ c.isTable = c'.isTable := by
    intro p c hc
    unfold removeRoute at hc
    cases hf : s.routes.find? (fun r => r.data = w) with
    | none => rw [hf] at hc; exact ⟨c, hc, rfl⟩
    | some r =>
      rw [hf] at hc
      dsimp only at hc
      cases p with
      | nil =>
        simp only [get, Option.some.injEq] at hc
        subst hc
        exact ⟨s.root, rfl, rfl⟩
      | cons n p =>
        have hc' : get (n :: p) (eraseRoute r.id s.root) = some c := by
          simp only [get] at hc ⊢
          rw [eraseRoute_children]
          exact hc
        obtain ⟨c', h1, h2⟩ := get_eraseRoute h.g.wf hc'
        exact ⟨c', h1, by rw [h2, eraseRoute_isTable]⟩
  refine ⟨hg, ?_, ?_, ?_⟩
  · intro p hp
    obtain ⟨c, hc⟩ := Option.isSome_iff_exists.mp hp
    obtain ⟨c', hc', -⟩ := key p c hc
    exact h.nodes p (by rw [hc']; rfl)
  · intro p c hc ht
    obtain ⟨c', hc', e⟩ := key p c hc
    exact h.table p c' hc' (by rw [← e]; exact ht)
  · intro g hg'
    exact h.paths g (List.mem_filter.mp hg').1

theorem step_remove {P : List Name} (hP : Conventional P) {s : State} {G : List Ent} (h : CInv P s G)
    {n : Name} (hn : n ∈ P) :
    ∃ s', removeTopic s (dotted n) = .ok s' ∧ CInv P s' (G.filter (fun g => ¬ n <+: g.path)) := by
  have hprop := (hP.1 n hn).1
  have htoks : tokens (dotted n) = n := tokens_dotted hprop.2.1
  obtain ⟨s', e1, e2⟩ := removeTopic_spec h.g (dotted n) (by rw [tokenize_proper hprop, htoks])
  refine ⟨s', e1, ?_⟩
  rw [htoks] at e2
  have hag := h.agree hP hn
  rcases detach_agree [] n s.root h.g.wf hag hprop.1 with ⟨d1, d2⟩ | ⟨t', c, d1⟩
  · rcases e2 with ⟨-, rfl⟩ | ⟨root, a, c, d3, -⟩
    · have : G.filter (fun g => ¬ n <+: g.path) = G := by
        rw [List.filter_eq_self]
        intro g hg
        simp only [decide_eq_true_eq]
        rintro ⟨rest, hr⟩
        have hm : g.id ∈ routesAt s'.root g.path := by
          rw [h.g.at_, List.mem_map]
          exact ⟨g, List.mem_filter.mpr ⟨hg, by simp⟩, rfl⟩
        have := routesAt_isSome hm
        rw [← hr] at this
        have := get_prefix this
        rw [d2] at this
        cases this
      rw [this]
      exact h
    · rw [d1] at d3; cases d3
  · simp only [List.nil_append] at d1
    rcases e2 with ⟨d3, -⟩ | ⟨root, a, c', d3, e3, e4⟩
    · rw [d1] at d3; cases d3
    · rw [d1] at d3
      simp only [Option.some.injEq, Prod.mk.injEq] at d3
      obtain ⟨rfl, rfl, rfl⟩ := d3
      refine ⟨e4, ?_, ?_, ?_⟩
      · intro p hp
        rw [e3] at hp
        exact h.nodes p (get_detach_mono h.g.wf d1 hp)
      · intro p x hx ht
        rw [e3] at hx
        obtain ⟨a, -, -, -, -, -, -, -, -, e⟩ := detach_spec h.g.wf d1
        obtain ⟨y, hy, e5, -⟩ := e p x hx
        exact h.table p y hy (by rw [← e5]; exact ht)
      · intro g hg'
        exact h.paths g (List.mem_filter.mp hg').1

/-! ## Histories -/

theorem step_conv {P : List Name} (hP : Conventional P) {s : State} {G : List Ent} (h : CInv P s G)
    (o : Spec.Routing.Op) (ho : ∀ n ∈ names [o], n ∈ P)
    (hfresh : ∀ n w x, o = .register n w x → (x = false ∨ n = advisoryName) → (n, w) ∉ regs G) :
    ∃ s' rc G', step s (call o) = .ok (s', rc) ∧ CInv P s' G' ∧
      regs G' = live1 (regs G) o (accepted rc) := by
  cases o with
  | register n w x =>
    obtain ⟨s', rc, e, h'⟩ := step_register hP h (ho n (by simp [names])) w x (hfresh n w x rfl)
    rcases h' with ⟨rfl, h'⟩ | ⟨rfl, -, id, h'⟩
    · exact ⟨s', .duplicate, G, e, h', rfl⟩
    · refine ⟨s', .ok, _, e, h', ?_⟩
      simp [regs, live1, accepted]
  | forget w =>
    refine ⟨_, .ok, _, rfl, step_forget h w, ?_⟩
    simp only [regs, live1, List.filter_map]
    rfl
  | remove n =>
    obtain ⟨s', e, h'⟩ := step_remove hP h (ho n (by simp [names]))
    refine ⟨s', .ok, _, ?_, h', ?_⟩
    · simp [call, step, e]
    · simp only [regs, live1, List.filter_map]
      rfl

theorem live1_subset {R : List (Name × Nat)} {o : Spec.Routing.Op} {b : Bool} {x : Name × Nat}
    (h : x ∈ live1 R o b) : x ∈ R ∨ ∃ y, o = .register x.1 x.2 y := by
  cases o with
  | register n w y =>
    simp only [live1] at h
    split at h
    · rcases List.mem_append.mp h with h | h
      · exact Or.inl h
      · rw [List.mem_singleton] at h
        subst h
        exact Or.inr ⟨y, rfl⟩
    · exact Or.inl h
  | forget w => exact Or.inl (List.mem_filter.mp h).1
  | remove n => exact Or.inl (List.mem_filter.mp h).1

theorem run_conv {P : List Name} (hP : Conventional P) (os : List Spec.Routing.Op) :
    ∀ (pre : List Spec.Routing.Op) {s : State} {G : List Ent}, CInv P s G →
      (∀ x ∈ regs G, ∃ y, Spec.Routing.Op.register x.1 x.2 y ∈ pre) →
      (∀ n ∈ names os, n ∈ P) → NoRepeats (pre ++ os) →
      ∃ s' rcs G', run s (os.map call) = .ok (s', rcs) ∧ rcs.length = os.length ∧ CInv P s' G' ∧
        regs G' = live (regs G) (os.zip (rcs.map accepted)) := by
  induction os with
  | nil =>
    intro pre s G h _ _ _
    exact ⟨s, [], G, rfl, rfl, h, rfl⟩
  | cons o os ih =>
    intro pre s G h hpre hn hrep
    obtain ⟨s1, rc, G1, e1, h1, hG1⟩ := step_conv hP h o
      (by
        intro n hn'
        apply hn
        cases o with
        | register m w x => simp only [names, List.mem_singleton] at hn' ⊢; subst hn'; simp
        | forget w => simp [names] at hn'
        | remove m => simp only [names, List.mem_singleton] at hn' ⊢; subst hn'; simp)
      (by
        rintro n w x rfl hx hm
        obtain ⟨y, hy⟩ := hpre _ hm
        exact hrep pre n w x os rfl hx y hy)
    obtain ⟨s2, rcs, G2, e2, hl, h2, hG2⟩ := ih (pre ++ [o]) h1
      (by
        intro x hx
        rw [hG1] at hx
        rcases live1_subset hx with hx | ⟨y, rfl⟩
        · obtain ⟨y, hy⟩ := hpre x hx
          exact ⟨y, List.mem_append_left _ hy⟩
        · exact ⟨y, by simp⟩)
      (by
        intro n hn'
        apply hn
        cases o with
        | register m w x => exact List.mem_cons_of_mem _ hn'
        | forget w => exact hn'
        | remove m => exact List.mem_cons_of_mem _ hn')
      (by rw [List.append_assoc]; exact hrep)
    refine ⟨s2, rc :: rcs, G2, ?_, by simp [hl], h2, ?_⟩
    · rw [List.map_cons, run, e1, Res.ok_bind]
      dsimp only
      rw [e2, Res.ok_bind]
      rfl
    · rw [hG2, hG1]
      rfl

/-! ## Looking up -/

theorem find_conflict {name : Token} {pre cs : List Topic} {pre' : List Topic} {c : Topic}
    {post : List Topic} (h : find name pre cs = .hit .conflict pre' c post) :
    ¬ (brace c.name = true ∧ instLike name = true) := by
  induction cs generalizing pre with
  | nil => cases h
  | cons x cs ih =>
    rw [find] at h
    split at h
    · cases h
    · split at h
      · cases h
      · split at h
        · rename_i e1 e2
          cases h
          exact e1
        · exact ih h

theorem covers_append {a b c d : Name} (h : a.length = c.length) :
    covers (a ++ b) (c ++ d) = (covers a c && covers b d) := by
  induction a generalizing c with
  | nil =>
    cases c with
    | nil => simp [covers]
    | cons x c => simp at h
  | cons x a ih =>
    cases c with
    | nil => simp at h
    | cons y c =>
      simp only [List.length_cons, Nat.add_right_cancel_iff] at h
      simp only [List.cons_append, covers]
      rw [ih h, Bool.and_assoc]

theorem covers_length {a b : Name} (h : covers a b = true) : a.length = b.length := by
  induction a generalizing b with
  | nil =>
    cases b with
    | nil => rfl
    | cons y b => simp [covers] at h
  | cons x a ih =>
    cases b with
    | nil => simp [covers] at h
    | cons y b =>
      simp only [covers, Bool.and_eq_true] at h
      simp [ih h.2]

/-- What is asked of a query at every place it meets the tree. -/
def Meets (q : Name) (t : Topic) : Prop :=
  ∀ a u b, q = a ++ u :: b → ∀ π x, covers π a = true → (get (π ++ [x]) t).isSome = true →
    (x = rows → u = rows ∨ rowLike u = true) ∧ (brace u = true → u = x) ∧ (brace x = true → x = rows)

theorem Meets.sub {u : Token} {q : Name} {t c : Topic} (h : Meets (u :: q) t)
    (hc : child c.name t.children = some c) (hcov : u = c.name ∨ (c.name = rows ∧ rowLike u = true)) :
    Meets q c := by
  intro a v b e π x hπ hx
  refine h (u :: a) v b (by rw [e]; rfl) (c.name :: π) x ?_ ?_
  · simp only [covers, Bool.and_eq_true, decide_eq_true_eq]
    exact ⟨hcov, hπ⟩
  · simp only [List.cons_append, get, hc, Option.bind_some]
    exact hx

theorem walk_covers (q : Name) (t : Topic) (hw : WF t) (h : Meets q t) (c : Topic) :
    walk q t = some c ↔ ∃ p, covers p q = true ∧ get p t = some c := by
  induction q generalizing t with
  | nil =>
    simp only [walk, Option.some.injEq]
    constructor
    · rintro rfl
      exact ⟨[], rfl, rfl⟩
    · rintro ⟨p, hp, hg⟩
      cases p with
      | nil => simpa [get] using hg
      | cons x p => simp [covers] at hp
  | cons u q ih =>
    have hroot : ∀ x ∈ t.children, (x.name = rows → u = rows ∨ rowLike u = true) ∧
        (brace u = true → u = x.name) ∧ (brace x.name = true → x.name = rows) := by
      intro x hx
      exact h [] u q rfl [] x.name rfl (by simp [get, child_of_mem hw.names hx])
    rw [walk]
    split
    · rename_i k pre y post hf
      obtain ⟨mid, h1, h2, h3, h4, h5, h6⟩ := find_hit hf
      have hy : y ∈ t.children := by rw [h2]; simp
      obtain ⟨r1, r2, r3⟩ := hroot y hy
      have hcov : u = y.name ∨ (y.name = rows ∧ rowLike u = true) := by
        cases k with
        | exact => exact Or.inl (h4 rfl).symm
        | inst => exact Or.inr ⟨r3 (h6 rfl).1, (h6 rfl).2⟩
        | conflict =>
          obtain ⟨hne, hb⟩ := h5 (by simp)
          have hnc := find_conflict hf
          rcases hb with hb | hb
          · have hr := r3 hb
            rcases r1 hr with e | e
            · exact absurd (hr.trans e.symm) hne
            · exact absurd ⟨hb, e⟩ hnc
          · exact absurd (r2 hb).symm hne
      have hyy := child_of_mem hw.names hy
      rw [ih y (hw.sub y hy) (h.sub hyy hcov)]
      constructor
      · rintro ⟨p, hp, hg⟩
        refine ⟨y.name :: p, ?_, ?_⟩
        · simp only [covers, Bool.and_eq_true, decide_eq_true_eq]
          exact ⟨hcov, hp⟩
        · simp only [get, hyy, Option.bind_some]; exact hg
      · rintro ⟨p, hp, hg⟩
        cases p with
        | nil => simp [covers] at hp
        | cons x p =>
          simp only [covers, Bool.and_eq_true, decide_eq_true_eq] at hp
          simp only [get] at hg
          cases hx : child x t.children with
          | none => rw [hx] at hg; cases hg
          | some z =>
            rw [hx] at hg
            simp only [Option.bind_some] at hg
            obtain ⟨hz, hzn⟩ := child_some hx
            have hzy : z = y := by
              by_cases hbz : brace z.name = true
              · have := hw.alone z hz hbz
                rw [this, List.mem_singleton] at hy
                exact hy.symm
              · have hxu : u = x := by
                  rcases hp.1 with e | ⟨e, -⟩
                  · exact e
                  · rw [hzn, e, brace_rows] at hbz; exact absurd rfl hbz
                by_cases hby : brace y.name = true
                · have := hw.alone y hy hby
                  rw [this, List.mem_singleton] at hz
                  exact hz
                · have hyu : u = y.name := by
                    rcases hcov with e | ⟨e, -⟩
                    · exact e
                    · rw [e, brace_rows] at hby; exact absurd rfl hby
                  rw [← hxu, hyu, hyy] at hx
                  cases hx
                  rfl
            subst hzy
            exact ⟨p, hp.2, hg⟩
    · rename_i hf
      have hm := find_missing hf
      simp only [reduceCtorEq, false_iff, not_exists, not_and]
      intro p hp hg
      cases p with
      | nil => simp [covers] at hp
      | cons x p =>
        simp only [covers, Bool.and_eq_true, decide_eq_true_eq] at hp
        simp only [get] at hg
        cases hx : child x t.children with
        | none => rw [hx] at hg; cases hg
        | some z =>
          obtain ⟨hz, hzn⟩ := child_some hx
          obtain ⟨m1, m2, -⟩ := hm z hz
          rcases hp.1 with e | ⟨e, -⟩
          · rw [hzn] at m1; exact m1 e.symm
          · rw [hzn, e, brace_rows] at m2; cases m2

theorem covers_unique {P : List Name} (hP : Conventional P) (q : Name) :
    ∀ (π p p' r r' : Name), π ++ (p ++ r) ∈ P → π ++ (p' ++ r') ∈ P → covers p q = true →
      covers p' q = true → p = p' := by
  induction q with
  | nil =>
    intro π p p' r r' _ _ h1 h2
    cases p with
    | cons x p => simp [covers] at h1
    | nil =>
      cases p' with
      | cons x p => simp [covers] at h2
      | nil => rfl
  | cons u q ih =>
    intro π p p' r r' hm hm' h1 h2
    cases p with
    | nil => simp [covers] at h1
    | cons x p =>
      cases p' with
      | nil => simp [covers] at h2
      | cons x' p' =>
        simp only [covers, Bool.and_eq_true, decide_eq_true_eq] at h1 h2
        have hxx : x = x' := by
          rcases h1.1 with e1 | ⟨e1, -⟩
          · rcases h2.1 with e2 | ⟨e2, -⟩
            · rw [← e1, ← e2]
            · subst e2
              exact hP.2 π x (p ++ r) (p' ++ r') hm hm'
          · subst e1
            exact (hP.2 π x' (p' ++ r') (p ++ r) hm' hm).symm
        subst hxx
        have := ih (π ++ [x]) p p' r r' (by simpa using hm) (by simpa using hm') h1.2 h2.2
        rw [this]

theorem CInv.meets {P : List Name} (hP : Conventional P) {s : State} {G : List Ent} (h : CInv P s G)
    {q : Name} (hq : Askable P q) : Meets q s.root := by
  intro a u b e π x hπ hx
  rcases h.nodes _ hx with h0 | ⟨rest, hr⟩
  · simp at h0
  · rw [List.append_assoc, List.singleton_append] at hr
    obtain ⟨k1, k2⟩ := hq.2.1 π x rest a u b hr e hπ
    refine ⟨k1, ?_, ?_⟩
    · intro hb; exact k2 ((brace_iff u).mp hb)
    · intro hb; exact (hP.1 _ hr).2 x (by simp) ((brace_iff x).mp hb)

theorem derefAll_ents {s : State} {G : List Ent} (h : GInv s G) (l : List Ent) (hl : ∀ g ∈ l, g ∈ G) :
    derefAll s (l.map (·.id)) = .ok (l.map (·.data)) := by
  induction l with
  | nil => rfl
  | cons g l ih =>
    obtain ⟨r, hr, e1, e2⟩ := h.rs.alive g (hl g (by simp))
    have hf := h.rs.find hr
    rw [List.map_cons, derefAll, ih (fun x hx => hl x (List.mem_cons_of_mem _ hx)), deref, ← e1, hf]
    simp [e2]

theorem ent_node {s : State} {G : List Ent} (h : GInv s G) {g : Ent} (hg : g ∈ G) :
    (get g.path s.root).isSome = true := by
  apply routesAt_isSome (i := g.id)
  rw [h.at_, List.mem_map]
  exact ⟨g, List.mem_filter.mpr ⟨hg, by simp⟩, rfl⟩

theorem lookup_conv {P : List Name} (hP : Conventional P) {s : State} {G : List Ent} (h : CInv P s G)
    {q : Name} (hq : Askable P q) :
    lookup s (dotted q) = .ok (owners (regs G) q) := by
  have hprop := hq.1
  have hmeets := h.meets hP hq
  unfold lookup getTopicRoutes
  rw [tokenize_proper hprop, Res.ok_bind, if_neg hprop.1]
  have hown : owners (regs G) q =
      (G.filter (fun g => covers g.path q || covers g.path (q ++ [rows]))).map (·.data) := by
    unfold owners regs
    rw [List.filter_map, List.map_map]
    rfl
  rw [hown]
  -- covering the rows of `q`
  have hrow : ∀ p : Name, covers p (q ++ [rows]) = true ↔ ∃ p', p = p' ++ [rows] ∧ covers p' q = true := by
    intro p
    constructor
    · intro hc
      have hl := covers_length hc
      rw [List.length_append, List.length_singleton] at hl
      have hne : p ≠ [] := by rintro rfl; simp at hl
      refine ⟨p.dropLast, ?_, ?_⟩
      · have h1 := List.dropLast_concat_getLast hne
        rw [← h1] at hc
        rw [covers_append (by simp; omega)] at hc
        simp only [covers, Bool.and_eq_true, Bool.and_true, decide_eq_true_eq] at hc
        rcases hc.2 with e | ⟨e, -⟩
        · rw [← e] at h1; exact h1.symm
        · rw [e] at h1; exact h1.symm
      · have h1 := List.dropLast_concat_getLast hne
        rw [← h1] at hc
        rw [covers_append (by simp; omega)] at hc
        simp only [Bool.and_eq_true] at hc
        exact hc.1
    · rintro ⟨p', rfl, hc⟩
      rw [covers_append (covers_length hc), hc]
      simp [covers]
  cases hwk : walk q s.root with
  | none =>
    dsimp only
    have : ∀ p, covers p q = true → get p s.root = none := by
      intro p hp
      cases hg : get p s.root with
      | none => rfl
      | some c =>
        have := (walk_covers q s.root h.g.wf hmeets c).mpr ⟨p, hp, hg⟩
        rw [hwk] at this
        cases this
    have he : G.filter (fun g => covers g.path q || covers g.path (q ++ [rows])) = [] := by
      rw [List.filter_eq_nil_iff]
      intro g hg
      have hnode := ent_node h.g hg
      rw [Bool.or_eq_true, not_or]
      constructor
      · intro hc
        rw [this _ hc] at hnode; cases hnode
      · intro hc
        obtain ⟨p', e, hc'⟩ := (hrow _).mp hc
        rw [e] at hnode
        have := get_prefix hnode
        rw [‹∀ p, covers p q = true → get p s.root = none› p' hc'] at this
        cases this
    rw [he]
    rfl
  | some c =>
    dsimp only
    obtain ⟨p, hp, hg⟩ := (walk_covers q s.root h.g.wf hmeets c).mp hwk
    have hpne : p ≠ [] := by
      rintro rfl
      have := covers_length hp
      have hq0 : q ≠ [] := hprop.1
      cases q with
      | nil => exact hq0 rfl
      | cons x q => simp at this
    have hpP : ∃ rest, p ++ rest ∈ P := by
      rcases h.nodes p (by rw [hg]; rfl) with e | e
      · exact absurd e hpne
      · exact e
    obtain ⟨prest, hprest⟩ := hpP
    -- which entries count
    have hcov1 : ∀ g ∈ G, covers g.path q = true ↔ g.path = p := by
      intro g hg'
      constructor
      · intro hc
        exact covers_unique hP q [] g.path p [] prest (by simpa using h.paths g hg') (by simpa using hprest) hc hp
      · intro e; rw [e]; exact hp
    have hcov2 : ∀ g ∈ G, covers g.path (q ++ [rows]) = true ↔ g.path = p ++ [rows] := by
      intro g hg'
      rw [hrow]
      constructor
      · rintro ⟨p', e, hc⟩
        have := covers_unique hP q [] p' p [rows] prest (by simpa [← e] using h.paths g hg') (by simpa using hprest) hc hp
        rw [e, this]
      · intro e; exact ⟨p, e, hp⟩
    have hlast : ¬ (dotted q).getLast? = some dot := dotted_getLast hprop.2.1
    have hcw := get_wf h.g.wf hg
    have hat : ∀ p', routesAt c p' = routesAt s.root (p ++ p') := by
      intro p'
      unfold routesAt
      rw [get_append, hg]
      rfl
    have hchosen : chosen (dotted q) c =
        (G.filter (fun g => covers g.path q || covers g.path (q ++ [rows]))).map (·.id) := by
      unfold chosen
      rw [if_neg hlast]
      by_cases ht : c.isTable = true
      · rw [if_pos ht]
        obtain ⟨rest, hrest⟩ := h.table p c hg ht
        have hnone : ∀ g ∈ G, g.path ≠ p := by
          intro g hg' e
          exact hq.2.2 g.path (h.paths g hg') ((hcov1 g hg').mpr e) rest (by rw [e]; exact hrest)
        have hkids : ∀ x ∈ c.children, x.name = rows := by
          intro x hx
          have : (get (p ++ [x.name]) s.root).isSome = true := by
            rw [get_append, hg]
            simp [get, child_of_mem hcw.names hx]
          rcases h.nodes _ this with e | ⟨r, hr⟩
          · simp at e
          · rw [List.append_assoc, List.singleton_append] at hr
            exact hP.2 p x.name r rest hr hrest
        have hfind : (match find curlyI [] c.children with
            | .hit _ _ x _ => x.routes.getD []
            | .missing => []) = routesAt c [rows] := by
          rw [routesAt_cons]
          cases hf : find curlyI [] c.children with
          | missing =>
            have : child rows c.children = none :=
              child_none.mpr (fun x hx => (find_missing hf x hx).1)
            rw [this]; rfl
          | hit k pre x post =>
            obtain ⟨mid, e1, e2, -⟩ := find_hit hf
            have hx : x ∈ c.children := by rw [e2]; simp
            have := child_of_mem hcw.names hx
            rw [hkids x hx] at this
            rw [this]
            rfl
        refine Eq.trans hfind ?_
        rw [hat, h.g.at_]
        congr 1
        apply List.filter_congr
        intro g hg'
        rw [Bool.eq_iff_iff, Bool.or_eq_true, hcov1 g hg', hcov2 g hg', decide_eq_true_eq]
        constructor
        · intro e; exact Or.inr e
        · rintro (e | e)
          · exact absurd e (hnone g hg')
          · exact e
      · rw [if_neg ht]
        have hnone : ∀ g ∈ G, g.path ≠ p ++ [rows] := by
          intro g hg' e
          have hnode := ent_node h.g hg'
          rw [e, get_append, hg] at hnode
          simp only [Option.bind_some, get] at hnode
          cases hch : child rows c.children with
          | none => rw [hch] at hnode; cases hnode
          | some x =>
            obtain ⟨hx, hxn⟩ := child_some hch
            exact ht (hcw.table x hx (by rw [hxn]; exact brace_rows))
        have : c.routes.getD [] = routesAt c [] := (routesAt_nil c).symm
        rw [this, hat, List.append_nil, h.g.at_]
        congr 1
        apply List.filter_congr
        intro g hg'
        rw [Bool.eq_iff_iff, Bool.or_eq_true, hcov1 g hg', hcov2 g hg', decide_eq_true_eq]
        constructor
        · intro e; exact Or.inl e
        · rintro (e | e)
          · exact e
          · exact absurd e (hnone g hg')
    rw [Res.pure_eq, Res.ok_bind, hchosen]
    exact derefAll_ents h.g _ (fun g hg => (List.mem_filter.mp hg).1)

end Verif.Routing
