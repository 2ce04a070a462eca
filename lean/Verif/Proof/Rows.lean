import Verif.Spec.Rows
import Verif.Proof.Life

/-!
# Proofs about tables: changes at the end of a path
-/

namespace Verif.RowsProof

open Verif Verif.Element Verif.Subs Verif.Rows Verif.Spec.Provider Verif.Spec.Rows

/-! ### Changing the node at the end of a path -/

/-- Change the first node with a name. -/
def modFirst (t : Element.Token) (g : Node → Node) : List Node → List Node
  | [] => []
  | c :: cs => if c.info.name = t then g c :: cs else c :: modFirst t g cs

/-- Change the node at the end of a path. -/
def modAt : Path → (Node → Node) → Node → Node
  | [], f, n => f n
  | t :: ts, f, n => { n with children := modFirst t (modAt ts f) n.children }

theorem modFirst_none {t : Element.Token} {g : Node → Node} : ∀ {cs : List Node},
    cs.find? (fun c => c.info.name = t) = none → modFirst t g cs = cs := by
  intro cs
  induction cs with
  | nil => intro _; rfl
  | cons c cs ih =>
    intro h
    rw [List.find?_cons] at h
    by_cases hc : c.info.name = t
    · simp [hc] at h
    · simp only [hc, decide_false] at h
      simp only [modFirst, if_neg hc, ih h]

theorem find_split {t : Element.Token} : ∀ {cs : List Node} {c : Node},
    cs.find? (fun c => c.info.name = t) = some c →
    ∃ a b, cs = a ++ c :: b ∧ (∀ x ∈ a, x.info.name ≠ t) ∧ c.info.name = t := by
  intro cs
  induction cs with
  | nil => intro c h; simp at h
  | cons d cs ih =>
    intro c h
    rw [List.find?_cons] at h
    by_cases hd : d.info.name = t
    · simp only [hd, decide_true, Option.some.injEq] at h
      subst h
      exact ⟨[], cs, rfl, by simp, hd⟩
    · simp only [hd, decide_false] at h
      obtain ⟨a, b, h1, h2, h3⟩ := ih h
      refine ⟨d :: a, b, by rw [h1]; rfl, ?_, h3⟩
      intro x hx
      rcases List.mem_cons.mp hx with rfl | hx
      · exact hd
      · exact h2 x hx

theorem modFirst_split {t : Element.Token} {g : Node → Node} : ∀ {a b : List Node} {c : Node},
    (∀ x ∈ a, x.info.name ≠ t) → c.info.name = t → modFirst t g (a ++ c :: b) = a ++ g c :: b := by
  intro a
  induction a with
  | nil => intro b c _ hc; simp only [List.nil_append, modFirst, if_pos hc]
  | cons d a ih =>
    intro b c ha hc
    simp only [List.cons_append, modFirst, if_neg (ha d (by simp)), ih (fun x hx => ha x (by simp [hx])) hc]

theorem modFirst_names {t : Element.Token} {g : Node → Node} (hg : ∀ x, (g x).info = x.info) (cs : List Node) :
    (modFirst t g cs).map (·.info.name) = cs.map (·.info.name) := by
  induction cs with
  | nil => rfl
  | cons c cs ih =>
    by_cases hc : c.info.name = t
    · simp only [modFirst, if_pos hc, List.map_cons, hg]
    · simp only [modFirst, if_neg hc, List.map_cons, ih]

theorem modFirst_find {t : Element.Token} {g : Node → Node} (hg : ∀ x, (g x).info = x.info) (u : Element.Token)
    (cs : List Node) :
    (modFirst t g cs).find? (fun c => c.info.name = u) =
      if u = t then (cs.find? (fun c => c.info.name = u)).map g else cs.find? (fun c => c.info.name = u) := by
  induction cs with
  | nil => simp [modFirst]
  | cons c cs ih =>
    by_cases hc : c.info.name = t
    · by_cases hu : u = t
      · subst hu
        simp [modFirst, hc, hg]
      · have : ¬ t = u := fun h => hu h.symm
        simp [modFirst, hc, hg, hu, this]
    · simp only [modFirst, if_neg hc, List.find?_cons]
      by_cases hu : u = t
      · rw [if_pos hu] at ih ⊢
        have : ¬ c.info.name = u := fun h => hc (h.trans hu)
        simp only [this, decide_false, ih]
      · rw [if_neg hu] at ih ⊢
        by_cases hcu : c.info.name = u
        · simp only [hcu, decide_true]
        · simp only [hcu, decide_false, ih]

theorem modFirst_mem {t : Element.Token} {g : Node → Node} {x : Node} : ∀ {cs : List Node}, x ∈ modFirst t g cs →
    x ∈ cs ∨ ∃ c, cs.find? (fun c => c.info.name = t) = some c ∧ x = g c := by
  intro cs
  induction cs with
  | nil => intro h; cases h
  | cons c cs ih =>
    intro h
    by_cases hc : c.info.name = t
    · simp only [modFirst, if_pos hc] at h
      rcases List.mem_cons.mp h with h | h
      · exact .inr ⟨c, by simp [hc], h⟩
      · exact .inl (by simp [h])
    · simp only [modFirst, if_neg hc] at h
      rcases List.mem_cons.mp h with h | h
      · exact .inl (by simp [h])
      · rcases ih h with h | ⟨d, hd, he⟩
        · exact .inl (by simp [h])
        · exact .inr ⟨d, by simp [hc, hd], he⟩

theorem modAt_info {f : Node → Node} (hf : ∀ x, (f x).info = x.info) (P : Path) (n : Node) :
    (modAt P f n).info = n.info := by
  cases P with
  | nil => exact hf n
  | cons t ts => rfl

theorem child_modAt {f : Node → Node} (hf : ∀ x, (f x).info = x.info) (t u : Element.Token) (ts : Path) (n : Node) :
    child (modAt (t :: ts) f n) u = if u = t then (child n u).map (modAt ts f) else child n u :=
  modFirst_find (modAt_info hf ts) u n.children

/-- At and below the place of the change. -/
theorem nodeOf_modAt {f : Node → Node} (hf : ∀ x, (f x).info = x.info) (q : Path) : ∀ (P : Path) (n m : Node),
    nodeOf P n = some m → nodeOf (P ++ q) (modAt P f n) = nodeOf q (f m) := by
  intro P
  induction P with
  | nil =>
    intro n m h
    simp only [nodeOf, Option.some.injEq] at h
    subst h
    rfl
  | cons t P ih =>
    intro n m h
    simp only [nodeOf] at h
    cases hc : child n t with
    | none => simp only [hc] at h; cases h
    | some c =>
      simp only [hc] at h
      simp only [List.cons_append, nodeOf, child_modAt hf, if_pos, hc, Option.map_some]
      exact ih c m h

/-- Elsewhere. -/
theorem nodeOf_modAt_other {f : Node → Node} (hf : ∀ x, (f x).info = x.info) : ∀ (P p : Path) (n : Node),
    ¬ P <+: p → (nodeOf p (modAt P f n)).map entry = (nodeOf p n).map entry := by
  intro P
  induction P with
  | nil => intro p n h; exact absurd List.nil_prefix h
  | cons t P ih =>
    intro p n h
    cases p with
    | nil =>
      simp only [nodeOf, Option.map_some, Option.some.injEq, entry, modAt]
      rw [modFirst_names (modAt_info hf P)]
    | cons u p =>
      simp only [nodeOf, child_modAt hf]
      by_cases hu : u = t
      · subst hu
        rw [if_pos rfl]
        cases child n u with
        | none => rfl
        | some c =>
          refine ih p c ?_
          rintro ⟨r, hr⟩
          exact h ⟨r, by rw [List.cons_append, hr]⟩
      · rw [if_neg hu]

/-! ### Registration nodes look alike -/

def kind (n : Node) : Nat × Cb := (n.info.type, n.info.cb)

/-- The same kinds are found below two nodes by their registered names. -/
def Like (a b : Node) : Prop := ∀ q, (retrieveFrom q a).map kind = (retrieveFrom q b).map kind

theorem Like.refl (a : Node) : Like a a := fun _ => rfl

theorem Like.trans {a b c : Node} (h : Like a b) (h' : Like b c) : Like a c := fun q => (h q).trans (h' q)

theorem Like.symm {a b : Node} (h : Like a b) : Like b a := fun q => (h q).symm

theorem Like.kind {a b : Node} (h : Like a b) : kind a = kind b := by
  have := h []
  simpa [retrieveFrom] using this

theorem like_modAt {f : Node → Node} (hf : ∀ x, (f x).info = x.info) : ∀ (P : Path) (n : Node),
    (∀ m, nodeOf P n = some m → Like m (f m)) → Like n (modAt P f n) := by
  intro P
  induction P with
  | nil => intro n h; exact h n rfl
  | cons t P ih =>
    intro n h q
    cases q with
    | nil => rfl
    | cons u q =>
      have hi : (modAt (t :: P) f n).info = n.info := rfl
      simp only [retrieveFrom, hi, child_modAt hf]
      by_cases hu : (if n.info.type = tTable then template else u) = t
      · rw [if_pos hu, hu]
        cases hc : child n t with
        | none => rfl
        | some c =>
          refine ih c ?_ q
          intro m hm
          refine h m ?_
          simp only [nodeOf, hc, hm]
      · rw [if_neg hu]

/-! ### Trees as they should be -/

/-- One node: the names below are different; below a table are the row template and rows that look like it. -/
structure OkNode (n : Node) : Prop where
  nodup : (n.children.map (·.info.name)).Nodup
  table : n.info.type = tTable → n.info.cb.get = none ∧ ∃ tm rs, n.children = tm :: rs ∧ tm.info.name = template ∧
    ∀ r ∈ rs, (∃ i, i < 2 ^ 32 ∧ r.info.name = decimal i) ∧ Like tm r

/-- All nodes. -/
inductive Neat : Node → Prop where
  | node {n : Node} : OkNode n → (∀ c ∈ n.children, Neat c) → Neat n

theorem Neat.ok {n : Node} (h : Neat n) : OkNode n := by cases h with | node h _ => exact h

theorem Neat.sub {n : Node} (h : Neat n) : ∀ c ∈ n.children, Neat c := by cases h with | node _ h => exact h

theorem Neat.nodeOf : ∀ {p : Path} {n m : Node}, Neat n → nodeOf p n = some m → Neat m := by
  intro p
  induction p with
  | nil => intro n m h hm; simp only [Subs.nodeOf, Option.some.injEq] at hm; exact hm ▸ h
  | cons t p ih =>
    intro n m h hm
    simp only [Subs.nodeOf] at hm
    cases hc : child n t with
    | none => simp only [hc] at hm; cases hm
    | some c => simp only [hc] at hm; exact ih (h.sub c (child_mem hc).1) hm

theorem neat_modAt {f : Node → Node} (hf : ∀ x, (f x).info = x.info) : ∀ (P : Path) (n : Node), Neat n →
    (∀ m, nodeOf P n = some m → Neat (f m) ∧ Like m (f m)) → Neat (modAt P f n) := by
  intro P
  induction P with
  | nil => intro n _ h; exact (h n rfl).1
  | cons t P ih =>
    intro n hn h
    have hsub : ∀ c, child n t = some c → ∀ m, nodeOf P c = some m → Neat (f m) ∧ Like m (f m) := by
      intro c hc m hm
      exact h m (by simp only [nodeOf, hc, hm])
    have hlike : ∀ c, n.children.find? (fun c => c.info.name = t) = some c → Like c (modAt P f c) := by
      intro c hc
      exact like_modAt hf P c (fun m hm => (hsub c hc m hm).2)
    refine .node ⟨?_, ?_⟩ ?_
    · simp only [modAt]
      rw [modFirst_names (modAt_info hf P)]
      exact hn.ok.nodup
    · intro ht
      obtain ⟨hg, tm, rs, hcs, htm, hrs⟩ := hn.ok.table ht
      refine ⟨hg, ?_⟩
      simp only [modAt]
      rw [hcs] at hlike ⊢
      by_cases hc : tm.info.name = t
      · refine ⟨modAt P f tm, rs, by simp only [modFirst, if_pos hc], by rw [modAt_info hf]; exact htm, ?_⟩
        intro r hr
        exact ⟨(hrs r hr).1, ((hlike tm (by simp [hc])).symm).trans (hrs r hr).2⟩
      · refine ⟨tm, modFirst t (modAt P f) rs, by simp only [modFirst, if_neg hc], htm, ?_⟩
        intro r hr
        rcases modFirst_mem hr with hr | ⟨c, hc', rfl⟩
        · exact hrs r hr
        · have hm := List.mem_of_find?_eq_some hc'
          refine ⟨by rw [modAt_info hf]; exact (hrs c hm).1, (hrs c hm).2.trans (hlike c ?_)⟩
          simp [hc, hc']
    · intro x hx
      rcases modFirst_mem hx with hx | ⟨c, hc, rfl⟩
      · exact hn.sub x hx
      · exact ih c (hn.sub c (List.mem_of_find?_eq_some hc)) (hsub c hc)

/-! ### The two changes -/

/-- Without the first child of a name. -/
def dropChild (x : Element.Token) (n : Node) : Node :=
  { n with children := n.children.eraseP (fun c => c.info.name = x) }

theorem child_add {row m : Node} {u : Element.Token} :
    child (addChild row m) u = (child m u).or (if row.info.name = u then some row else none) := by
  unfold child addChild
  rw [List.find?_append]
  congr 1
  by_cases h : row.info.name = u <;> simp [h]

theorem like_add {m row : Node} (hm : OkNode m) (ht : m.info.type = tTable) : Like m (addChild row m) := by
  intro q
  cases q with
  | nil => rfl
  | cons u q =>
    have hi : (addChild row m).info = m.info := rfl
    simp only [retrieveFrom, hi, if_pos ht, child_add]
    obtain ⟨_, tm, rs, hcs, htm, _⟩ := hm.table ht
    have : child m template = some tm := by unfold child; rw [hcs]; simp [htm]
    rw [this]
    rfl

theorem neat_add {m row : Node} (hm : Neat m) (hr : Neat row) {i : Nat} (hi : i < 2 ^ 32)
    (hn : row.info.name = decimal i) (hnew : decimal i ∉ m.children.map (·.info.name))
    (hlike : ∀ tm, child m template = some tm → Like tm row) : Neat (addChild row m) := by
  refine .node ⟨?_, ?_⟩ ?_
  · simp only [addChild, List.map_append, List.map_cons, List.map_nil, hn]
    rw [List.nodup_append]
    refine ⟨hm.ok.nodup, by simp, ?_⟩
    intro a ha b hb
    rw [List.mem_singleton] at hb
    rintro rfl
    exact hnew (hb ▸ ha)
  · intro ht
    obtain ⟨hg, tm, rs, hcs, htm, hrs⟩ := hm.ok.table ht
    refine ⟨hg, tm, rs ++ [row], by simp only [addChild, hcs, List.cons_append], htm, ?_⟩
    intro r hr'
    rcases List.mem_append.mp hr' with hr' | hr'
    · exact hrs r hr'
    · rw [List.mem_singleton] at hr'
      subst hr'
      exact ⟨⟨i, hi, hn⟩, hlike tm (by unfold child; rw [hcs]; simp [htm])⟩
  · intro c hc
    rcases List.mem_append.mp hc with hc | hc
    · exact hm.sub c hc
    · rw [List.mem_singleton] at hc
      exact hc ▸ hr

theorem eraseP_names (x : Element.Token) (cs : List Node) :
    (cs.eraseP (fun c => c.info.name = x)).map (·.info.name) = (cs.map (·.info.name)).erase x := by
  induction cs with
  | nil => rfl
  | cons c cs ih =>
    by_cases hc : c.info.name = x
    · simp [hc]
    · rw [List.eraseP_cons, List.map_cons, List.erase_cons]
      simp only [hc, decide_false, cond_false, List.map_cons, ih, beq_iff_eq, if_false]

theorem find_eraseP_ne {x u : Element.Token} (h : u ≠ x) (cs : List Node) :
    (cs.eraseP (fun c => c.info.name = x)).find? (fun c => c.info.name = u) = cs.find? (fun c => c.info.name = u) := by
  induction cs with
  | nil => rfl
  | cons c cs ih =>
    rw [List.eraseP_cons, List.find?_cons]
    by_cases hc : c.info.name = x
    · have : ¬ c.info.name = u := fun h' => h (h'.symm.trans hc)
      simp only [hc, decide_true, cond_true]
      rw [hc] at this
      simp only [this, decide_false]
    · simp only [hc, decide_false, cond_false, List.find?_cons, ih]

theorem find_eraseP_self {x : Element.Token} {cs : List Node} (h : (cs.map (·.info.name)).Nodup) :
    (cs.eraseP (fun c => c.info.name = x)).find? (fun c => c.info.name = x) = none := by
  rw [List.find?_eq_none]
  intro c hc hx
  have : c.info.name ∈ (cs.map (·.info.name)).erase x := by
    rw [← eraseP_names]
    exact List.mem_map_of_mem hc
  have hx : c.info.name = x := by simpa using hx
  rw [hx] at this
  exact (List.Nodup.not_mem_erase h) this

theorem like_drop {m : Node} {x : Element.Token} (ht : m.info.type = tTable) (hx : x ≠ template) :
    Like m (dropChild x m) := by
  intro q
  cases q with
  | nil => rfl
  | cons u q =>
    have hi : (dropChild x m).info = m.info := rfl
    simp only [retrieveFrom, hi, if_pos ht]
    have : child (dropChild x m) template = child m template := find_eraseP_ne (Ne.symm hx) m.children
    rw [this]

theorem neat_drop {m : Node} {x : Element.Token} (hm : Neat m) (hx : x ≠ template) : Neat (dropChild x m) := by
  refine .node ⟨?_, ?_⟩ ?_
  · simp only [dropChild, eraseP_names]
    exact hm.ok.nodup.erase x
  · intro ht
    obtain ⟨hg, tm, rs, hcs, htm, hrs⟩ := hm.ok.table ht
    refine ⟨hg, tm, rs.eraseP (fun c => c.info.name = x), ?_, htm, fun r hr => hrs r (List.mem_of_mem_eraseP hr)⟩
    have : ¬ tm.info.name = x := fun h => hx (h.symm.trans htm)
    simp only [dropChild, hcs, List.eraseP_cons, this, decide_false, cond_false]
  · intro c hc
    exact hm.sub c (List.mem_of_mem_eraseP hc)

end Verif.RowsProof
