import Verif.Proof.Retain

/-!
# Lemmas about the properties of an object
-/

namespace Verif.Retain

open Verif Verif.Spec.Retain

/-- The way along `next` from `t` over the properties of the list to `u`. -/
inductive Seg (g : Graph) : Option Nat → List Entry → Option Nat → Prop where
  | nil {t} : Seg g t [] t
  | cons {p m es u} : g.name p = some m → Seg g (g.link p .next) es u → Seg g (some p) (⟨p, m, g.link p .value⟩ :: es) u

theorem seg_append {g : Graph} {a b : List Entry} : ∀ {t u}, Seg g t (a ++ b) u ↔ ∃ v, Seg g t a v ∧ Seg g v b u := by
  induction a with
  | nil =>
    intro t u
    constructor
    · intro h; exact ⟨t, .nil, h⟩
    · rintro ⟨v, h1, h2⟩; cases h1; exact h2
  | cons e a ih =>
    intro t u
    constructor
    · intro h
      cases h with
      | cons h1 h2 =>
        obtain ⟨v, h3, h4⟩ := ih.1 h2
        exact ⟨v, .cons h1 h3, h4⟩
    · rintro ⟨v, h1, h2⟩
      cases h1 with
      | cons h3 h4 => exact .cons h3 (ih.2 ⟨v, h4, h2⟩)

/-- An entry that was read again. -/
def reread (g : Graph) (e : Entry) : Entry := { e with value := g.link e.prop .value }

theorem seg_congr {g g' : Graph} : ∀ {es t u}, Seg g t es u →
    (∀ e ∈ es, g'.name e.prop = g.name e.prop ∧ g'.link e.prop .next = g.link e.prop .next) →
    Seg g' t (es.map (reread g')) u := by
  intro es
  induction es with
  | nil => intro t u h _; cases h; exact .nil
  | cons e es ih =>
    intro t u h hg
    cases h with
    | cons h1 h2 =>
      obtain ⟨h3, h4⟩ := hg _ (List.mem_cons_self ..)
      refine .cons (by rw [h3]; exact h1) ?_
      rw [h4]
      exact ih h2 fun e he => hg e (List.mem_cons_of_mem _ he)

theorem reread_id {g g' : Graph} : ∀ {es t u}, Seg g t es u →
    (∀ e ∈ es, g'.link e.prop .value = g.link e.prop .value) → es.map (reread g') = es := by
  intro es
  induction es with
  | nil => intro t u _ _; rfl
  | cons e es ih =>
    intro t u h hg
    cases h with
    | cons h1 h2 =>
      rw [List.map_cons, ih h2 fun e he => hg e (List.mem_cons_of_mem _ he)]
      have := hg _ (List.mem_cons_self ..)
      simp only [reread, this]

theorem seg_det {g : Graph} : ∀ {es es' t}, Seg g t es none → Seg g t es' none → es = es' := by
  intro es
  induction es with
  | nil => intro es' t h h'; cases h; cases h'; rfl
  | cons e es ih =>
    intro es' t h h'
    cases h with
    | cons h1 h2 =>
      cases h' with
      | cons h3 h4 =>
        rw [ih h2 h4]
        rw [h1] at h3
        cases h3
        rfl

theorem seg_nodup {g : Graph} : ∀ {es t}, Seg g t es none → (es.map (·.prop)).Nodup := by
  intro es
  induction es with
  | nil => intro t _; simp
  | cons e es ih =>
    intro t h
    rw [List.map_cons, List.nodup_cons]
    have h0 := h
    cases h with
    | @cons p m _ _ h1 h2 =>
      refine ⟨?_, ih h2⟩
      intro hm
      obtain ⟨e, he, hp⟩ := List.mem_map.1 hm
      obtain ⟨a, b, rfl⟩ := List.append_of_mem he
      obtain ⟨v, h3, h4⟩ := seg_append.1 h2
      cases h4 with
      | cons h5 h6 =>
        simp only at hp
        subst hp
        have := congrArg List.length (seg_det h0 (Seg.cons h5 h6))
        simp only [List.length_cons, List.length_append] at this
        omega

theorem seg_reach {g : Graph} : ∀ {es t u}, Seg g t es u → (∀ p, t = some p → Reach g p) →
    (∀ e ∈ es, Reach g e.prop) ∧ ∀ p, u = some p → Reach g p := by
  intro es
  induction es with
  | nil => intro t u h ht; cases h; exact ⟨by simp, ht⟩
  | cons e es ih =>
    intro t u h ht
    cases h with
    | @cons p m _ _ h1 h2 =>
      have hp := ht p rfl
      obtain ⟨h3, h4⟩ := ih h2 (fun q hq => .link hp hq)
      refine ⟨?_, h4⟩
      intro e he
      rcases List.mem_cons.1 he with rfl | he
      · exact hp
      · exact h3 e he

theorem seg_kind {g : Graph} (hf : ∀ y k x, g.link y k = some x → Fits g y k x ∧ x < g.made ∧ y < g.made) :
    ∀ {es t u}, Seg g t es u → (∀ p, t = some p → g.kind p = .property) → ∀ e ∈ es, g.kind e.prop = .property := by
  intro es
  induction es with
  | nil => intro t u _ _; simp
  | cons e es ih =>
    intro t u h ht
    cases h with
    | @cons p m _ _ h1 h2 =>
      have hp := ht p rfl
      have h3 := ih h2 (fun q hq => by rw [← hp]; exact (hf _ _ _ hq).1)
      intro e he
      rcases List.mem_cons.1 he with rfl | he
      · exact hp
      · exact h3 e he

theorem seg_of_chain {g : Graph} {s : State} {w} (hi : Inv g s w) : ∀ {es t}, Chain s t es → Seg g t es none := by
  intro es
  induction es with
  | nil => intro t h; cases h; exact .nil
  | cons e es ih =>
    intro t h
    cases h with
    | @cons p n m _ h1 h2 h3 =>
      obtain ⟨_, a2, _, a4⟩ := hi.agree p n h1
      rw [a4] at h3 ⊢
      exact .cons (by rw [← a2]; exact h2) (ih h3)

theorem chain_of_seg {g : Graph} {s : State} {w} (hi : Inv g s w) : ∀ {es t}, Seg g t es none →
    (∀ p, t = some p → Reach g p) → Chain s t es := by
  intro es
  induction es with
  | nil => intro t h _; cases h; exact .nil
  | cons e es ih =>
    intro t h ht
    cases h with
    | @cons p m _ _ h1 h2 =>
      obtain ⟨n, hn⟩ := reach_alive hi (ht p rfl)
      obtain ⟨_, a2, _, a4⟩ := hi.agree p n hn
      have h3 := ih h2 (fun q hq => .link (ht p rfl) hq)
      rw [← a4] at h3 ⊢
      exact .cons hn (by rw [a2]; exact h1) h3

theorem lists_iff {g : Graph} {s : State} {w} (hi : Inv g s w) {o : Nat} (ho : Reach g o) (es : List Entry) :
    Lists s o es ↔ Seg g (g.link o .properties) es none := by
  obtain ⟨n, hn⟩ := reach_alive hi ho
  have a4 := (hi.agree o n hn).2.2.2
  constructor
  · rintro ⟨n', hn', h⟩
    rw [hn] at hn'
    cases hn'
    rw [a4] at h
    exact seg_of_chain hi h
  · intro h
    refine ⟨n, hn, ?_⟩
    rw [a4]
    exact chain_of_seg hi h (fun p hp => .link ho hp)

theorem seg_length {g : Graph} (hb : Bounded g)
    (hf : ∀ y k x, g.link y k = some x → Fits g y k x ∧ x < g.made ∧ y < g.made) {es t} (h : Seg g t es none)
    (ht : ∀ p, t = some p → Reach g p) : es.length ≤ g.made := by
  have h1 := seg_nodup h
  have h2 := (seg_reach h ht).1
  have := h1.length_le_of_subset (l₂ := List.range g.made) (by
    intro x hx
    obtain ⟨e, he, rfl⟩ := List.mem_map.1 hx
    exact List.mem_range.2 (reach_lt hb hf (h2 e he)))
  simpa using this

/-! ## The loops -/

theorem find_chain {s : State} (nm : Bytes) : ∀ {es t} f, Chain s t es → es.length ≤ f →
    find s f t nm = .ok ((es.find? fun e => e.name = nm).map (·.prop)) := by
  intro es
  induction es with
  | nil => intro t f h _; cases h; cases f <;> simp [find]
  | cons e es ih =>
    intro t f h hf
    cases h with
    | @cons p n m _ h1 h2 h3 =>
      cases f with
      | zero => simp at hf
      | succ f =>
        unfold find
        simp only [get_ok h1, Res.ok_bind, h2]
        by_cases hm : m = nm
        · simp [hm]
        · rw [if_neg hm, ih f h3 (by simpa using hf)]
          simp [List.find?_cons, hm]

theorem last_chain {s : State} : ∀ {es e p} f, Chain s (some p) (es ++ [e]) → es.length < f → last s f p = .ok e.prop := by
  intro es
  induction es with
  | nil =>
    intro e p f h hf
    cases f with
    | zero => omega
    | succ f =>
      cases h with
      | @cons _ n m _ h1 h2 h3 =>
        cases hl : n.link .next with
        | some q => rw [hl] at h3; cases h3
        | none => simp [last, get_ok h1, hl]
  | cons e' es ih =>
    intro e p f h hf
    cases f with
    | zero => omega
    | succ f =>
      cases h with
      | @cons _ n m _ h1 h2 h3 =>
        cases hl : n.link .next with
        | none =>
          rw [hl] at h3
          have : ∀ l, Chain s none l → l = [] := by intro l h; cases h; rfl
          have := this _ h3
          simp at this
        | some q =>
          rw [hl] at h3
          simp only [last, get_ok h1, Res.ok_bind, hl]
          exact ih f h3 (by simpa using hf)

theorem search_chain {s : State} (nm : Bytes) : ∀ {a x b t} f bf, Chain s t (a ++ x :: b) → a.length < f →
    (∀ e ∈ a, e.name ≠ nm) → x.name = nm →
    search s f t bf nm = .ok (some x.prop, (match a.getLast? with | some l => some l.prop | none => bf)) := by
  intro a
  induction a with
  | nil =>
    intro x b t f bf h hf _ hx
    cases h with
    | @cons p n m _ h1 h2 h3 =>
      cases f with
      | zero => omega
      | succ f => simp only [search, get_ok h1, Res.ok_bind, h2]; rw [if_pos hx]; rfl
  | cons e a ih =>
    intro x b t f bf h hf ha hx
    cases h with
    | @cons p n m _ h1 h2 h3 =>
      cases f with
      | zero => omega
      | succ f =>
        simp only [search, get_ok h1, Res.ok_bind, h2]
        rw [if_neg (ha _ (List.mem_cons_self ..)), ih f (some p) h3 (by simpa using hf)
          (fun e he => ha e (List.mem_cons_of_mem _ he)) hx]
        cases a with
        | nil => rfl
        | cons => simp [List.getLast?_cons]

theorem search_none {s : State} (nm : Bytes) : ∀ {es t} f bf, Chain s t es → es.length ≤ f → (∀ e ∈ es, e.name ≠ nm) →
    search s f t bf nm = .ok (none, (match es.getLast? with | some l => some l.prop | none => bf)) := by
  intro es
  induction es with
  | nil => intro t f bf h _ _; cases h; cases f <;> simp [search]
  | cons e es ih =>
    intro t f bf h hf ha
    cases h with
    | @cons p n m _ h1 h2 h3 =>
      cases f with
      | zero => simp at hf
      | succ f =>
        simp only [search, get_ok h1, Res.ok_bind, h2]
        rw [if_neg (ha _ (List.mem_cons_self ..)), ih f (some p) h3 (by simpa using hf)
          (fun e he => ha e (List.mem_cons_of_mem _ he))]
        cases es with
        | nil => rfl
        | cons => simp [List.getLast?_cons]

/-- The first entry with the name, or none. -/
theorem split_name (nm : Bytes) (es : List Entry) : (∀ e ∈ es, e.name ≠ nm) ∨
    ∃ a x b, es = a ++ x :: b ∧ x.name = nm ∧ ∀ e ∈ a, e.name ≠ nm := by
  induction es with
  | nil => exact Or.inl (by simp)
  | cons e es ih =>
    by_cases h : e.name = nm
    · exact Or.inr ⟨[], e, es, rfl, h, by simp⟩
    · rcases ih with ih | ⟨a, x, b, rfl, h1, h2⟩
      · exact Or.inl (by simpa [h] using ih)
      · exact Or.inr ⟨e :: a, x, b, rfl, h1, by simpa [h] using h2⟩

theorem upsert_none {nm : Bytes} {v : Option Nat} : ∀ {es : List Entry}, (∀ e ∈ es, e.name ≠ nm) →
    upsert (asMap es) nm v = asMap es ++ [(nm, v)] := by
  intro es
  induction es with
  | nil => intro _; rfl
  | cons e es ih =>
    intro h
    simp only [asMap, List.map_cons, upsert, List.cons_append]
    rw [if_neg (h e (List.mem_cons_self ..))]
    exact congrArg _ (ih fun e he => h e (List.mem_cons_of_mem _ he))

theorem upsert_some {nm : Bytes} {v : Option Nat} {x : Entry} {b : List Entry} (hx : x.name = nm) :
    ∀ {a : List Entry}, (∀ e ∈ a, e.name ≠ nm) →
    upsert (asMap (a ++ x :: b)) nm v = asMap a ++ (nm, v) :: asMap b := by
  intro a
  induction a with
  | nil => intro _; simp only [asMap, List.map_cons, upsert, List.nil_append, if_pos hx, List.map_nil]
  | cons e a ih =>
    intro h
    simp only [asMap, List.map_cons, upsert, List.cons_append]
    rw [if_neg (h e (List.mem_cons_self ..))]
    exact congrArg _ (ih fun e he => h e (List.mem_cons_of_mem _ he))

theorem link_set (g : Graph) (y : Nat) (k : Slot) (t : Option Nat) (z : Nat) (j : Slot) :
    (effect g (.set y k t)).link z j = if z = y ∧ j = k then t else g.link z j := by
  simp only [effect, change]
  by_cases hz : z = y
  · subst hz
    by_cases hj : j = k <;> simp [change, hj]
  · simp [hz]

theorem find_none {nm : Bytes} {es : List Entry} (h : ∀ e ∈ es, e.name ≠ nm) : es.find? (fun e => e.name = nm) = none := by
  rw [List.find?_eq_none]
  intro e he
  simpa using h e he

theorem find_some {nm : Bytes} {a b : List Entry} {x : Entry} (h : ∀ e ∈ a, e.name ≠ nm) (hx : x.name = nm) :
    (a ++ x :: b).find? (fun e => e.name = nm) = some x := by
  rw [List.find?_append, find_none h]
  simp [hx]

/-- A way whose last pointer is changed. -/
theorem seg_relink {g g' : Graph} {a : List Entry} {e : Entry} {t u u' : Option Nat} (h : Seg g t (a ++ [e]) u)
    (hn : ∀ x ∈ a ++ [e], g'.name x.prop = g.name x.prop ∧ g'.link x.prop .value = g.link x.prop .value)
    (hx : ∀ x ∈ a, g'.link x.prop .next = g.link x.prop .next) (he : g'.link e.prop .next = u') :
    Seg g' t (a ++ [e]) u' := by
  obtain ⟨v, h1, h2⟩ := seg_append.1 h
  refine seg_append.2 ⟨v, ?_, ?_⟩
  · have h3 := seg_congr (g' := g') h1 (fun x hm => ⟨(hn x (List.mem_append_left _ hm)).1, hx x hm⟩)
    rw [reread_id h1 (fun x hm => (hn x (List.mem_append_left _ hm)).2)] at h3
    exact h3
  · cases h2 with
    | @cons p m _ _ h3 h4 =>
      have := hn ⟨p, m, g.link p .value⟩ (by simp)
      simp only at this he
      rw [← this.2]
      refine .cons (by rw [this.1]; exact h3) ?_
      rw [he]
      exact .nil

theorem seg_same {g g' : Graph} {es : List Entry} {t u : Option Nat} (h : Seg g t es u)
    (hn : ∀ x ∈ es, g'.name x.prop = g.name x.prop ∧ g'.link x.prop .value = g.link x.prop .value ∧
      g'.link x.prop .next = g.link x.prop .next) : Seg g' t es u := by
  have h3 := seg_congr (g' := g') h (fun x hm => ⟨(hn x hm).1, (hn x hm).2.2⟩)
  rw [reread_id h (fun x hm => (hn x hm).2.1)] at h3
  exact h3

/-- What is common to all ways of setting a property: the pointers that are changed are those of the object, of the
properties of its list, and of the new property. -/
structure Sets (g : Graph) (s : State) (o : Nat) (es : List Entry) (new : Nat) (nm : Bytes) (v : Option Nat) (s' : State) : Prop where
  more : ∃ ops, Careful g ops ∧ run s ops = .ok s' ∧ (∀ x, (ops.foldl effect g).holds x = g.holds x) ∧
    (∀ x, x < g.made → (ops.foldl effect g).kind x = g.kind x ∧ (ops.foldl effect g).name x = g.name x) ∧
    (∀ x k, x < g.made → x ≠ new → x ∉ es.map (·.prop) → x ≠ o → (ops.foldl effect g).link x k = g.link x k)
  lists : ∃ es', Lists s' o es' ∧ asMap es' = upsert (asMap es) nm v ∧
    ∀ e ∈ es', e.prop = new ∨ e.prop ∈ es.map (·.prop)

theorem careful_step {g : Graph} {s s' : State} {op : Op} (hi : Inv g s []) (hb : Bounded g) (ha : Allowed g op)
    (h : step s op = .ok s') : Inv (effect g op) s' [] ∧ Bounded (effect g op) := by
  obtain ⟨s1, h1, h2, h3⟩ := step_inv hi hb ha
  rw [h] at h1
  cases h1
  exact ⟨h2, h3⟩

theorem step_set {g : Graph} {s : State} {y : Nat} {k : Slot} {t : Option Nat} (hi : Inv g s []) (hb : Bounded g)
    (ha : Allowed g (.set y k t)) : ∃ s', assign s y k t = .ok s' ∧ step s (.set y k t) = .ok s' ∧
      Inv (effect g (.set y k t)) s' [] ∧ Bounded (effect g (.set y k t)) := by
  obtain ⟨s', h1, h2, h3⟩ := step_inv hi hb ha
  refine ⟨s', ?_, h1, h2, h3⟩
  obtain ⟨n, hn⟩ := reach_alive hi ha.1
  simp only [step, get_ok hn, Res.ok_bind] at h1
  rw [if_pos (by rw [(hi.agree y n hn).1]; exact ha.2.1)] at h1
  exact h1

/-- Replacing the value of a property that is there. -/
theorem set_found {g : Graph} {s : State} {o v : Nat} {nm : Bytes} {a b : List Entry} {x : Entry} (hi : Inv g s [])
    (hb : Bounded g) (ho : 0 < g.holds o) (hok : g.kind o = .object) (hv : 0 < g.holds v) (hvk : g.kind v = .value)
    (hl : Lists s o (a ++ x :: b)) (hx : x.name = nm) (ha : ∀ e ∈ a, e.name ≠ nm) :
    ∃ s', setPropertyValue s o nm v = .ok s' ∧ Sets g s o (a ++ x :: b) g.made nm (some v) s' := by
  have hro : Reach g o := .held ho
  have hs := (lists_iff hi hro _).1 hl
  have hreach := seg_reach hs (fun p hp => .link hro hp)
  have hkind := seg_kind hi.fits hs (fun p hp => (hi.fits _ _ _ hp).1)
  have hlen := seg_length hb hi.fits hs (fun p hp => .link hro hp)
  have hnod := seg_nodup hs
  have hxm : x ∈ a ++ x :: b := by simp
  have hal : Allowed g (.set x.prop .value (some v)) := by
    refine ⟨hreach.1 x hxm, by rw [hkind x hxm]; simp [Kind.slots], ?_⟩
    intro z hz
    cases hz
    exact ⟨.held hv, hvk⟩
  obtain ⟨s', h1, h2, h3, h4⟩ := step_set hi hb hal
  obtain ⟨n, hn, hch⟩ := hl
  have hget : getProperty s o nm = .ok (some x.prop) := by
    simp only [getProperty, get_ok hn, Res.ok_bind]
    rw [find_chain nm (s.next + 1) hch (by rw [hi.made]; omega), find_some ha hx]
    rfl
  refine ⟨s', ?_, ?_⟩
  · simp only [setPropertyValue, hget, Res.ok_bind]
    exact h1
  · refine ⟨⟨[.set x.prop .value (some v)], ⟨hal, trivial⟩, by simp only [run, h2, Res.ok_bind], fun _ => rfl,
      fun _ _ => ⟨rfl, rfl⟩, ?_⟩, ?_⟩
    · intro z k _ _ hz _
      show (effect g (.set x.prop .value (some v))).link z k = _
      rw [link_set, if_neg]
      rintro ⟨rfl, _⟩
      exact hz (List.mem_map_of_mem hxm)
    · have hg' : ∀ e ∈ a ++ x :: b, (effect g (.set x.prop .value (some v))).name e.prop = g.name e.prop ∧
          (effect g (.set x.prop .value (some v))).link e.prop .next = g.link e.prop .next := by
        intro e _
        refine ⟨rfl, ?_⟩
        rw [link_set, if_neg (by simp)]
      have h5 := seg_congr hs hg'
      refine ⟨_, (lists_iff h3 (.held ho) _).2 (by rw [link_set, if_neg (by simp)]; exact h5), ?_, ?_⟩
      rotate_left
      · intro e he
        obtain ⟨e0, he0, rfl⟩ := List.mem_map.1 he
        exact Or.inr (List.mem_map_of_mem (f := (·.prop)) he0)
      rw [upsert_some hx ha]
      rw [List.map_append, List.nodup_append, List.map_cons, List.nodup_cons] at hnod
      obtain ⟨_, ⟨hnb, _⟩, hna⟩ := hnod
      have hval : ∀ l t u, Seg g t l u → x.prop ∉ l.map (·.prop) →
          l.map (reread (effect g (.set x.prop .value (some v)))) = l := by
        intro l t u hl hnx
        refine reread_id hl fun e he => ?_
        rw [link_set, if_neg]
        rintro ⟨e1, _⟩
        exact hnx (by rw [← e1]; exact List.mem_map_of_mem he)
      obtain ⟨t1, q1, q2⟩ := seg_append.1 hs
      cases q2 with
      | @cons p m _ _ q3 q4 =>
        rw [List.map_append, List.map_cons, hval a _ _ q1 (fun hm => hna _ hm _ (List.mem_cons_self ..) rfl), hval b _ _ q4 hnb]
        have hr : (reread (effect g (.set p .value (some v))) ⟨p, m, g.link p .value⟩) = ⟨p, m, some v⟩ := by
          simp only [reread, link_set, and_self, if_true]
        rw [hr]
        simp only at hx
        simp only [asMap, List.map_append, List.map_cons, hx]

/-- Adding a property at the end. -/
theorem set_new {g : Graph} {s : State} {o v : Nat} {nm : Bytes} {es : List Entry} (hi : Inv g s [])
    (hb : Bounded g) (ho : 0 < g.holds o) (hok : g.kind o = .object) (hv : 0 < g.holds v) (hvk : g.kind v = .value)
    (hl : Lists s o es) (ha : ∀ e ∈ es, e.name ≠ nm) :
    ∃ s', setPropertyValue s o nm v = .ok s' ∧ Sets g s o es g.made nm (some v) s' := by
  have hro : Reach g o := .held ho
  have hs := (lists_iff hi hro _).1 hl
  have hreach := seg_reach hs (fun p hp => .link hro hp)
  have hkind := seg_kind hi.fits hs (fun p hp => (hi.fits _ _ _ hp).1)
  have hlen := seg_length hb hi.fits hs (fun p hp => .link hro hp)
  have hnod := seg_nodup hs
  have holt := reach_lt hb hi.fits hro
  have hvlt := reach_lt hb hi.fits (.held hv)
  have hlt : ∀ e ∈ es, e.prop < g.made := fun e he => reach_lt hb hi.fits (hreach.1 e he)
  have hget : getProperty s o nm = .ok none := by
    obtain ⟨n, hn, hch⟩ := hl
    simp only [getProperty, get_ok hn, Res.ok_bind]
    rw [find_chain nm (s.next + 1) hch (by rw [hi.made]; omega), find_none ha]
    rfl
  -- the new property
  have hal1 : Allowed g (.newProperty (some nm) (some v)) := by
    intro z hz; cases hz; exact ⟨.held hv, hvk⟩
  obtain ⟨s1, h1, i1, b1⟩ := step_inv hi hb hal1
  have e1 : assign (alloc s .property (some nm)) s.next .value (some v) = .ok s1 := h1
  generalize hg1 : effect g (.newProperty (some nm) (some v)) = g1 at i1 b1
  have k1 : ∀ x, x < g.made → g1.holds x = g.holds x ∧ g1.kind x = g.kind x ∧ g1.name x = g.name x ∧ ∀ j, g1.link x j = g.link x j := by
    intro x hx
    subst hg1
    have : x ≠ g.made := by omega
    simp [effect, make, change, this]
  have k1new : g1.holds g.made = 1 ∧ g1.kind g.made = .property ∧ g1.name g.made = some nm ∧
      g1.link g.made .value = some v ∧ ∀ j, j ≠ .value → g1.link g.made j = none := by
    subst hg1
    refine ⟨by simp [effect, make, change], by simp [effect, make, change], by simp [effect, make, change],
      by simp [effect, make, change], fun j hj => ?_⟩
    simp [effect, make, change, hj]
  have m1 : g1.made = g.made + 1 := by subst hg1; rfl
  have ho1 : 0 < g1.holds o := by rw [(k1 o holt).1]; exact ho
  have hs1 : Seg g1 (g1.link o .properties) es none := by
    rw [(k1 o holt).2.2.2]
    exact seg_same hs fun e he => ⟨(k1 _ (hlt e he)).2.2.1, (k1 _ (hlt e he)).2.2.2 _, (k1 _ (hlt e he)).2.2.2 _⟩
  obtain ⟨n1, hn1, hch1⟩ := (lists_iff i1 (.held ho1) _).2 hs1
  -- the two places
  have fin : ∀ y k s2, (y = o ∧ k = .properties ∧ es = [] ∨ k = .next ∧ ∃ a e, es = a ++ [e] ∧ y = e.prop) →
      Allowed g1 (.set y k (some g.made)) → step s1 (.set y k (some g.made)) = .ok s2 →
      (∃ s3, release s2 g.made = .ok s3 ∧ Sets g s o es g.made nm (some v) s3) := by
    intro y k s2 hyk hal2 h2
    obtain ⟨i2, b2⟩ := careful_step i1 b1 hal2 h2
    have hal3 : Allowed (effect g1 (.set y k (some g.made))) (.release g.made) := by
      show 0 < g1.holds g.made
      rw [k1new.1]; omega
    obtain ⟨s3, h3, i3, b3⟩ := step_inv i2 b2 hal3
    have hy : y < g.made := by
      rcases hyk with ⟨rfl, _⟩ | ⟨_, a, e, rfl, rfl⟩
      · exact holt
      · exact hlt e (by simp)
    generalize hg3 : effect (effect g1 (.set y k (some g.made))) (.release g.made) = g3 at i3 b3
    have l3 : ∀ x j, g3.link x j = if x = y ∧ j = k then some g.made else g1.link x j := by
      intro x j; subst hg3; exact link_set g1 y k (some g.made) x j
    have n3 : ∀ x, g3.name x = g1.name x := by intro x; subst hg3; rfl
    have hh3 : ∀ x, g3.holds x = if x = g.made then 0 else g1.holds x := by
      intro x
      subst hg3
      simp only [effect, change, k1new.1]
    have htail : Seg g3 (some g.made) [⟨g.made, nm, some v⟩] none := by
      have hv3 : g3.link g.made .value = some v := by
        rw [l3, if_neg (by omega), k1new.2.2.2.1]
      have hn3 : g3.link g.made .next = none := by
        rw [l3, if_neg (by omega)]
        exact k1new.2.2.2.2 _ (by simp)
      have := Seg.cons (g := g3) (p := g.made) (m := nm) (es := []) (u := none) (by rw [n3, k1new.2.2.1])
        (by rw [hn3]; exact .nil)
      rw [hv3] at this
      exact this
    have hseg : Seg g3 (g3.link o .properties) (es ++ [⟨g.made, nm, some v⟩]) none := by
      rcases hyk with ⟨rfl, rfl, rfl⟩ | ⟨rfl, a, e, rfl, rfl⟩
      · rw [l3, if_pos ⟨rfl, rfl⟩]
        exact htail
      · rw [l3, if_neg (by simp)]
        refine seg_append.2 ⟨some g.made, ?_, htail⟩
        refine seg_relink hs1 ?_ ?_ (by rw [l3, if_pos ⟨rfl, rfl⟩])
        · intro x _
          exact ⟨n3 _, by rw [l3, if_neg (by simp)]⟩
        · intro x hx
          rw [l3, if_neg]
          rintro ⟨hp, _⟩
          rw [List.map_append, List.nodup_append] at hnod
          exact hnod.2.2 x.prop (List.mem_map_of_mem hx) e.prop (by simp) hp
    refine ⟨s3, h3, ⟨[.newProperty (some nm) (some v), .set y k (some g.made), .release g.made], ?_, ?_, ?_, ?_, ?_⟩, ?_⟩
    · refine ⟨hal1, ?_, ?_, trivial⟩ <;> rw [hg1]
      · exact hal2
      · exact hal3
    · simp only [run, h1, Res.ok_bind, h2]
      rw [h3]; rfl
    · intro x
      simp only [List.foldl_cons, List.foldl_nil]
      rw [hg1, hg3, hh3]
      split
      · rename_i e; subst e; exact (hb _ (Nat.le_refl _)).symm
      · by_cases hx : x < g.made
        · exact (k1 x hx).1
        · rw [hb x (by omega), b1 x (by omega)]
    · intro x hx
      simp only [List.foldl_cons, List.foldl_nil]
      rw [hg1, hg3]
      have : g3.kind x = g1.kind x := by subst hg3; rfl
      rw [this, n3]
      exact ⟨(k1 x hx).2.1, (k1 x hx).2.2.1⟩
    · intro x j hx _ hxe hxo
      simp only [List.foldl_cons, List.foldl_nil]
      rw [hg1, hg3, l3, if_neg]
      · exact (k1 x hx).2.2.2 j
      · rintro ⟨rfl, _⟩
        rcases hyk with ⟨rfl, _⟩ | ⟨_, a, e, rfl, rfl⟩
        · exact hxo rfl
        · exact hxe (by simp)
    · refine ⟨_, (lists_iff i3 (.held ?_) _).2 hseg, ?_, ?_⟩
      · rw [hh3, if_neg (by omega)]; exact ho1
      · rw [upsert_none ha]
        simp [asMap]
      · intro e he
        rcases List.mem_append.1 he with he | he
        · exact Or.inr (List.mem_map_of_mem he)
        · exact Or.inl (by simp at he; rw [he])
  have hself : Reach g1 g.made := .held (by rw [k1new.1]; omega)
  have reachcut : ∀ y k, Reach (cut g1 y k) g.made := fun y k => .held (by show 0 < g1.holds g.made; rw [k1new.1]; omega)
  simp only [setPropertyValue, hget, Res.ok_bind, e1, get_ok hn1]
  rw [hi.made]
  rcases List.eq_nil_or_concat es with rfl | ⟨a, e, hae⟩
  · have hnil : n1.link .properties = none := by
      cases hl : n1.link .properties with
      | none => rfl
      | some q => rw [hl] at hch1; cases hch1
    have hal2 : Allowed g1 (.set o .properties (some g.made)) := by
      refine ⟨.held ho1, by rw [(k1 o holt).2.1, hok]; simp [Kind.slots], ?_⟩
      intro z hz; cases hz
      exact ⟨reachcut _ _, k1new.2.1⟩
    obtain ⟨s2, g2, h2, _, _⟩ := step_set i1 b1 hal2
    obtain ⟨s3, h3, h4⟩ := fin o .properties s2 (Or.inl ⟨rfl, rfl, rfl⟩) hal2 h2
    refine ⟨s3, ?_, h4⟩
    simp only [hnil, g2, Res.ok_bind]
    exact h3
  · rw [List.concat_eq_append] at hae
    subst hae
    have hek : g.kind e.prop = .property := hkind e (by simp)
    have hel := hlt e (by simp)
    have hal2 : Allowed g1 (.set e.prop .next (some g.made)) := by
      have hr1 := seg_reach hs1 (fun p hp => .link (.held ho1) hp)
      refine ⟨hr1.1 e (by simp), by rw [(k1 _ hel).2.1, hek]; simp [Kind.slots], ?_⟩
      intro z hz; cases hz
      refine ⟨reachcut _ _, ?_⟩
      show g1.kind g.made = g1.kind e.prop
      rw [k1new.2.1, (k1 _ hel).2.1, hek]
    obtain ⟨s2, g2, h2, _, _⟩ := step_set i1 b1 hal2
    obtain ⟨s3, h3, h4⟩ := fin e.prop .next s2 (Or.inr ⟨rfl, a, e, rfl, rfl⟩) hal2 h2
    refine ⟨s3, ?_, h4⟩
    cases hl : n1.link .properties with
    | none =>
      rw [hl] at hch1
      have : ∀ l, Chain s1 none l → l = [] := by intro l h; cases h; rfl
      have := this _ hch1
      simp at this
    | some q =>
      rw [hl] at hch1
      have hla := last_chain (s1.next + 1) hch1 (by rw [i1.made, m1]; simp at hlen; omega)
      simp only [append, hla, Res.ok_bind, g2]
      exact h3

theorem set_map {g : Graph} {s : State} {o v : Nat} {es : List Entry} (nm : Bytes) (hi : Inv g s [])
    (hb : Bounded g) (ho : 0 < g.holds o) (hok : g.kind o = .object) (hv : 0 < g.holds v) (hvk : g.kind v = .value)
    (hl : Lists s o es) : ∃ s', setPropertyValue s o nm v = .ok s' ∧ Sets g s o es g.made nm (some v) s' := by
  rcases split_name nm es with h | ⟨a, x, b, rfl, h1, h2⟩
  · exact set_new hi hb ho hok hv hvk hl h
  · exact set_found hi hb ho hok hv hvk hl h1 h2

/-- Linking a held property `p`, which already leads to `b`, behind `a`. -/
theorem put_fin {g g1 : Graph} {s s1 : State} {o p : Nat} {nm : Bytes} {es a mid b : List Entry} {ops : List Op}
    (hi : Inv g s []) (hb : Bounded g) (ho : 0 < g.holds o) (hok : g.kind o = .object) (hp : 0 < g.holds p)
    (hpk : g.kind p = .property) (hpn : g.name p = some nm) (hpe : p ∉ es.map (·.prop))
    (hs : Seg g (g.link o .properties) es none) (he : es = a ++ mid ++ b)
    (hops : Careful g ops) (hrun : run s ops = .ok s1) (hg1 : ops.foldl effect g = g1)
    (hh1 : g1.holds = g.holds) (hk1 : g1.kind = g.kind) (hn1 : g1.name = g.name)
    (hl1 : ∀ x j, x ≠ p ∨ j ≠ .next → g1.link x j = g.link x j) (hb1 : Seg g (g1.link p .next) b none)
    (hm : upsert (asMap es) nm (g.link p .value) = asMap a ++ (nm, g.link p .value) :: asMap b)
    (y : Nat) (k : Slot) (hyk : y = o ∧ k = .properties ∧ a = [] ∨ k = .next ∧ ∃ a' e, a = a' ++ [e] ∧ y = e.prop) :
    ∃ s', assign s1 y k (some p) = .ok s' ∧ Sets g s o es p nm (g.link p .value) s' := by
  have hro : Reach g o := .held ho
  have hreach := seg_reach hs (fun p hp => .link hro hp)
  have hkind := seg_kind hi.fits hs (fun p hp => (hi.fits _ _ _ hp).1)
  have hnod := seg_nodup hs
  have hpo : p ≠ o := by rintro rfl; rw [hok] at hpk; cases hpk
  have hpne : ∀ e ∈ es, e.prop ≠ p := fun e he h => hpe (by rw [← h]; exact List.mem_map_of_mem he)
  obtain ⟨s1', r1, i1, b1⟩ := run_inv ops hi hb hops
  rw [hrun] at r1
  cases r1
  rw [hg1] at i1 b1
  have hes : ∀ e ∈ es, g1.name e.prop = g.name e.prop ∧ g1.link e.prop .value = g.link e.prop .value ∧
      g1.link e.prop .next = g.link e.prop .next := fun e he =>
    ⟨by rw [hn1], hl1 _ _ (Or.inl (hpne e he)), hl1 _ _ (Or.inl (hpne e he))⟩
  have hs1 : Seg g1 (g1.link o .properties) es none := by
    rw [hl1 o .properties (Or.inr (by simp))]
    exact seg_same hs hes
  have hr1 := seg_reach hs1 (fun q hq => .link (.held (by rw [hh1]; exact ho)) hq)
  have hy : Reach g1 y ∧ k ∈ (g1.kind y).slots ∧ Fits g1 y k p := by
    rcases hyk with ⟨rfl, rfl, rfl⟩ | ⟨rfl, a', e, rfl, rfl⟩
    · refine ⟨.held (by rw [hh1]; exact ho), by rw [hk1, hok]; simp [Kind.slots], ?_⟩
      show g1.kind p = .property
      rw [hk1, hpk]
    · have hee : e ∈ es := by rw [he]; simp
      refine ⟨hr1.1 e hee, by rw [hk1, hkind e hee]; simp [Kind.slots], ?_⟩
      show g1.kind p = g1.kind e.prop
      rw [hk1, hpk, hkind e hee]
  have hal : Allowed g1 (.set y k (some p)) := by
    refine ⟨hy.1, hy.2.1, ?_⟩
    intro z hz; cases hz
    exact ⟨.held (by show 0 < g1.holds p; rw [hh1]; exact hp), hy.2.2⟩
  obtain ⟨s2, e2, h2, i2, b2⟩ := step_set i1 b1 hal
  generalize hg2 : effect g1 (.set y k (some p)) = g2 at i2 b2
  have l2 : ∀ x j, g2.link x j = if x = y ∧ j = k then some p else g1.link x j := by
    intro x j; subst hg2; exact link_set g1 y k (some p) x j
  have n2 : g2.name = g.name := by subst hg2; exact hn1
  have hye : y = o ∨ y ∈ es.map (·.prop) := by
    rcases hyk with ⟨rfl, _⟩ | ⟨_, a', e, rfl, rfl⟩
    · exact Or.inl rfl
    · exact Or.inr (List.mem_map_of_mem (by rw [he]; simp))
  have hyp : y ≠ p := by
    rcases hye with rfl | h
    · exact fun h => hpo h.symm
    · exact fun h' => hpe (h' ▸ h)
  refine ⟨s2, e2, ⟨ops ++ [.set y k (some p)], ?_, ?_, ?_, ?_, ?_⟩, ?_⟩
  · have : ∀ (ops : List Op) g, Careful g ops → Allowed (ops.foldl effect g) (.set y k (some p)) →
        Careful g (ops ++ [.set y k (some p)]) := by
      intro ops
      induction ops with
      | nil => intro g _ h; exact ⟨h, trivial⟩
      | cons op ops ih => intro g h1 h2; exact ⟨h1.1, ih _ h1.2 h2⟩
    exact this ops g hops (by rw [hg1]; exact hal)
  · have : ∀ (ops : List Op) s, run s ops = .ok s1 → run s (ops ++ [.set y k (some p)]) = .ok s2 := by
      intro ops
      induction ops with
      | nil => intro s h; cases h; simp only [List.nil_append, run, h2, Res.ok_bind]
      | cons op ops ih =>
        intro s h
        simp only [run] at h
        obtain ⟨s', h1, h3⟩ := res_bind_ok h
        simp only [List.cons_append, run, h1, Res.ok_bind]
        exact ih s' h3
    exact this ops s hrun
  · intro x
    rw [List.foldl_append, hg1, List.foldl_cons, List.foldl_nil]
    show g1.holds x = _
    rw [hh1]
  · intro x _
    rw [List.foldl_append, hg1, List.foldl_cons, List.foldl_nil]
    exact ⟨by show g1.kind x = _; rw [hk1], by show g1.name x = _; rw [hn1]⟩
  · intro x j _ hx1 hx2 hx3
    rw [List.foldl_append, hg1, List.foldl_cons, List.foldl_nil, hg2, l2, if_neg]
    · exact hl1 x j (Or.inl hx1)
    · rintro ⟨rfl, _⟩
      rcases hye with h | h
      · exact hx3 h
      · exact hx2 h
  · have hlp : g2.link p .next = g1.link p .next := by rw [l2, if_neg (fun h => hyp h.1.symm)]
    have hvp : g2.link p .value = g.link p .value := by
      rw [l2, if_neg (fun h => hyp h.1.symm), hl1 p .value (Or.inr (by simp))]
    have hbmem : ∀ e ∈ b, e ∈ es := fun e hm => by rw [he]; exact List.mem_append_right _ hm
    have hamem : ∀ e ∈ a, e ∈ es := fun e hm => by rw [he]; simp [hm]
    have hval : ∀ e ∈ es, g2.name e.prop = g.name e.prop ∧ g2.link e.prop .value = g.link e.prop .value := by
      intro e hm
      refine ⟨by rw [n2], ?_⟩
      rw [l2, if_neg]
      · exact (hes e hm).2.1
      · rintro ⟨_, h⟩
        rcases hyk with ⟨_, rfl, _⟩ | ⟨rfl, _⟩ <;> simp at h
    have hbseg : Seg g2 (g1.link p .next) b none := by
      refine seg_same hb1 fun e hmb => ⟨(hval e (hbmem e hmb)).1, (hval e (hbmem e hmb)).2, ?_⟩
      rw [l2, if_neg]
      · exact (hes e (hbmem e hmb)).2.2
      · rintro ⟨h1, h2⟩
        rcases hyk with ⟨_, rfl, _⟩ | ⟨_, a', e', rfl, rfl⟩
        · simp at h2
        · rw [he, List.map_append, List.nodup_append] at hnod
          exact hnod.2.2 e'.prop (List.mem_map_of_mem (by simp)) e.prop (List.mem_map_of_mem hmb) h1.symm
    have htail : Seg g2 (some p) (⟨p, nm, g.link p .value⟩ :: b) none := by
      rw [← hvp]
      exact .cons (by rw [n2]; exact hpn) (by rw [hlp]; exact hbseg)
    refine ⟨a ++ ⟨p, nm, g.link p .value⟩ :: b, (lists_iff i2 (.held ?_) _).2 ?_, ?_, ?_⟩
    rotate_left 3
    · intro e hm
      rcases List.mem_append.1 hm with hm | hm
      · exact Or.inr (List.mem_map_of_mem (hamem e hm))
      · rcases List.mem_cons.1 hm with rfl | hm
        · exact Or.inl rfl
        · exact Or.inr (List.mem_map_of_mem (hbmem e hm))
    · subst hg2; show 0 < g1.holds o; rw [hh1]; exact ho
    · rcases hyk with ⟨rfl, rfl, rfl⟩ | ⟨rfl, a', e, rfl, rfl⟩
      · rw [l2, if_pos ⟨rfl, rfl⟩]
        exact htail
      · rw [l2, if_neg (by simp), hl1 o .properties (Or.inr (by simp))]
        refine seg_append.2 ⟨some p, ?_, htail⟩
        have hsa : ∃ t, Seg g (g.link o .properties) (a' ++ [e]) t := by
          have h := hs
          rw [he, List.append_assoc] at h
          obtain ⟨t, h, _⟩ := seg_append.1 h
          exact ⟨t, h⟩
        obtain ⟨t, hsa⟩ := hsa
        refine seg_relink hsa (fun x hx => hval x (hamem x hx)) ?_ (by rw [l2, if_pos ⟨rfl, rfl⟩])
        intro x hx
        rw [l2, if_neg]
        · exact (hes x (hamem x (by simp [hx]))).2.2
        · rintro ⟨h1, _⟩
          rw [he, List.append_assoc, List.map_append, List.nodup_append] at hnod
          have h3 := hnod.1
          rw [List.map_append, List.nodup_append] at h3
          exact h3.2.2 x.prop (List.mem_map_of_mem hx) e.prop (by simp) h1
    · rw [hm]
      simp [asMap]

/-- `rbusObject_SetProperty` with a single property that is not in the list. -/
theorem put_map {g : Graph} {s : State} {o p : Nat} {nm : Bytes} {es : List Entry} (hi : Inv g s [])
    (hb : Bounded g) (ho : 0 < g.holds o) (hok : g.kind o = .object) (hp : 0 < g.holds p)
    (hpk : g.kind p = .property) (hpn : g.name p = some nm) (hpx : g.link p .next = none) (hpe : p ∉ es.map (·.prop))
    (hl : Lists s o es) : ∃ s', setProperty s o p = .ok s' ∧ Sets g s o es p nm (g.link p .value) s' := by
  have hro : Reach g o := .held ho
  have hs := (lists_iff hi hro _).1 hl
  have hlen := seg_length hb hi.fits hs (fun p hp => .link hro hp)
  have hreach := seg_reach hs (fun p hp => .link hro hp)
  have hkind := seg_kind hi.fits hs (fun p hp => (hi.fits _ _ _ hp).1)
  obtain ⟨n, hn, hch⟩ := hl
  obtain ⟨np, hnp⟩ := reach_alive hi (.held hp)
  have hnl := (hi.agree o n hn).2.2.2
  have hnpn : np.name = some nm := by rw [(hi.agree p np hnp).2.1]; exact hpn
  have plain : ∀ a mid b y k, es = a ++ mid ++ b → b = [] →
      upsert (asMap es) nm (g.link p .value) = asMap a ++ (nm, g.link p .value) :: asMap b →
      (y = o ∧ k = .properties ∧ a = [] ∨ k = .next ∧ ∃ a' e, a = a' ++ [e] ∧ y = e.prop) →
      ∃ s', assign s y k (some p) = .ok s' ∧ Sets g s o es p nm (g.link p .value) s' := by
    intro a mid b y k he hbn hm hyk
    subst hbn
    exact put_fin (ops := []) hi hb ho hok hp hpk hpn hpe hs he trivial rfl rfl rfl rfl rfl (fun _ _ _ => rfl)
      (by simp only [List.foldl_nil, hpx]; exact .nil) hm y k hyk
  have lastcase : ∀ a : List Entry, a ≠ [] → ∃ a' e, a = a' ++ [e] ∧ a.getLast? = some e := by
    intro a ha
    rcases List.eq_nil_or_concat a with h | ⟨a', e, h⟩
    · exact absurd h ha
    · exact ⟨a', e, by rw [h, List.concat_eq_append], by rw [h]; simp⟩
  simp only [setProperty, get_ok hn, Res.ok_bind]
  cases hh : n.link .properties with
  | none =>
    rw [hh] at hch
    cases hch
    exact plain [] [] [] o .properties rfl rfl rfl (Or.inl ⟨rfl, rfl, rfl⟩)
  | some h =>
    rw [hh] at hch
    simp only [get_ok hnp, Res.ok_bind, hnpn]
    rcases split_name nm es with hno | ⟨a, x, b, rfl, hx, ha⟩
    · rw [search_none nm (s.next + 1) none hch (by rw [hi.made]; omega) hno]
      have hne : es ≠ [] := by rintro rfl; cases hch
      obtain ⟨a', e, rfl, hlast⟩ := lastcase es hne
      simp only [hlast, Res.ok_bind]
      exact plain (a' ++ [e]) [] [] e.prop .next (by simp) rfl (by rw [upsert_none hno]; rfl) (Or.inr ⟨rfl, a', e, rfl, rfl⟩)
    · rw [search_chain nm (s.next + 1) none hch (by rw [hi.made]; simp at hlen; omega) ha hx]
      have hxm : x ∈ a ++ x :: b := by simp
      obtain ⟨nx, hnx⟩ := reach_alive hi (hreach.1 x hxm)
      have hxl := (hi.agree x.prop nx hnx).2.2.2
      simp only [Res.ok_bind, get_ok hnx]
      obtain ⟨t, q1, q2⟩ := seg_append.1 hs
      have hsb : Seg g (g.link x.prop .next) b none := by cases q2 with | cons _ h => exact h
      have hup := upsert_some (b := b) (v := g.link p .value) hx ha
      have second : ∀ s1 g1 ops, Careful g ops → run s ops = .ok s1 → ops.foldl effect g = g1 →
          g1.holds = g.holds → g1.kind = g.kind → g1.name = g.name →
          (∀ z j, z ≠ p ∨ j ≠ .next → g1.link z j = g.link z j) → Seg g (g1.link p .next) b none →
          ∃ s', (match (match a.getLast? with | some l => some l.prop | none => none) with
            | some l => assign s1 l .next (some p)
            | none => assign s1 o .properties (some p)) = .ok s' ∧
            Sets g s o (a ++ x :: b) p nm (g.link p .value) s' := by
        intro s1 g1 ops c1 c2 c3 c4 c5 c6 c7 c8
        by_cases hae : a = []
        · subst hae
          exact put_fin (mid := [x]) hi hb ho hok hp hpk hpn hpe hs (by simp) c1 c2 c3 c4 c5 c6 c7 c8 hup o .properties
            (Or.inl ⟨rfl, rfl, rfl⟩)
        · obtain ⟨a', e, hae', hlast⟩ := lastcase a hae
          rw [hlast]
          exact put_fin (mid := [x]) hi hb ho hok hp hpk hpn hpe hs (by simp) c1 c2 c3 c4 c5 c6 c7 c8 hup e.prop .next
            (Or.inr ⟨rfl, a', e, hae', rfl⟩)
      cases hnn : nx.link .next with
      | none =>
        simp only [Res.ok_bind]
        refine second s g [] trivial rfl rfl rfl rfl rfl (fun _ _ _ => rfl) ?_
        rw [hpx]
        rw [hxl] at hnn
        rw [hnn] at hsb
        exact hsb
      | some q =>
        have hq : g.link x.prop .next = some q := by rw [← hxl]; exact hnn
        have hqr : Reach g q := .link (hreach.1 x hxm) hq
        have hqk : g.kind q = .property := by
          have := (hi.fits _ _ _ hq).1
          rw [← hkind x hxm]; exact this
        have hcut : cut g p .next = g := by
          unfold cut
          congr 1
          funext z
          by_cases hz : z = p
          · subst hz
            simp only [change, if_true]
            funext j
            simp only [change]
            by_cases hj : j = Slot.next <;> simp [hj, hpx]
          · simp [change, hz]
        have hal : Allowed g (.set p .next (some q)) := by
          refine ⟨.held hp, by rw [hpk]; simp [Kind.slots], ?_⟩
          intro z hz; cases hz
          refine ⟨by rw [hcut]; exact hqr, ?_⟩
          show g.kind q = g.kind p
          rw [hqk, hpk]
        obtain ⟨s1, e1, h1, i1, b1⟩ := step_set hi hb hal
        have hpchain : Chain s (some p) ([] ++ [⟨p, nm, g.link p .value⟩]) :=
          chain_of_seg hi (.cons hpn (by rw [hpx]; exact .nil)) (fun z hz => by cases hz; exact .held hp)
        have hla := last_chain (s.next + 1) hpchain (by simp)
        simp only at hla
        simp only [append, hla, Res.ok_bind, e1]
        refine second s1 _ [.set p .next (some q)] ⟨hal, trivial⟩ (by simp only [run, h1, Res.ok_bind]) rfl rfl rfl rfl ?_ ?_
        · intro z j hzj
          show (effect g (.set p .next (some q))).link z j = _
          rw [link_set, if_neg]
          rintro ⟨h1, h2⟩
          rcases hzj with h | h
          · exact h h1
          · exact h h2
        · show Seg g ((effect g (.set p .next (some q))).link p .next) b none
          rw [link_set, if_pos ⟨rfl, rfl⟩, ← hq]
          exact hsb

theorem value_chain {s : State} {o : Nat} {es : List Entry} (nm : Bytes) (hl : Lists s o es) (hlen : es.length ≤ s.next) :
    getPropertyValue s o nm = .ok ((es.find? fun e => e.name = nm).bind (·.value)) := by
  obtain ⟨n, hn, hch⟩ := hl
  simp only [getPropertyValue, getProperty, get_ok hn, Res.ok_bind, find_chain nm (s.next + 1) hch (by omega)]
  cases hf : es.find? fun e => decide (e.name = nm) with
  | none => rfl
  | some e =>
    have hm := List.mem_of_find?_eq_some hf
    have : ∀ {es t}, Chain s t es → ∀ e ∈ es, ∃ n, s.node e.prop = some n ∧ n.link .value = e.value := by
      intro es
      induction es with
      | nil => intro t _ e he; cases he
      | cons x es ih =>
        intro t h e he
        cases h with
        | cons h1 h2 h3 =>
          rcases List.mem_cons.1 he with rfl | he
          · exact ⟨_, h1, rfl⟩
          · exact ih h3 e he
    obtain ⟨m, h1, h2⟩ := this hch e hm
    simp only [Option.map_some, get_ok h1, Res.ok_bind, Res.pure_eq, Option.bind_some, h2]

theorem find_asMap (nm : Bytes) (es : List Entry) :
    (es.find? fun e => e.name = nm).bind (·.value) = ((asMap es).find? fun e => e.1 = nm).bind (·.2) := by
  induction es with
  | nil => rfl
  | cons e es ih =>
    simp only [asMap, List.map_cons, List.find?_cons] at *
    by_cases h : e.name = nm
    · simp [h]
    · simp only [h, decide_false]; exact ih

theorem find_upsert (nm : Bytes) (v : Option Nat) (m : List (Bytes × Option Nat)) (k : Bytes) :
    ((upsert m nm v).find? fun e => e.1 = k) = if k = nm then some (nm, v) else m.find? fun e => e.1 = k := by
  induction m with
  | nil =>
    simp only [upsert, List.find?_cons, List.find?_nil]
    by_cases h : k = nm
    · simp [h]
    · have h' : ¬ nm = k := fun e => h e.symm
      simp [h, h']
  | cons e m ih =>
    simp only [upsert]
    by_cases h : e.1 = nm
    · rw [if_pos h]
      by_cases hk : k = nm
      · simp [hk]
      · have hk' : ¬ nm = k := fun e => hk e.symm
        simp [hk, List.find?_cons, h, hk']
    · rw [if_neg h, List.find?_cons, ih]
      by_cases hk : k = nm
      · subst hk; simp [h]
      · simp only [if_neg hk, List.find?_cons]

theorem upsert_keys (nm : Bytes) (v : Option Nat) (m : List (Bytes × Option Nat)) (h : (m.map (·.1)).Nodup) :
    ((upsert m nm v).map (·.1)).Nodup := by
  have mem : ∀ (m : List (Bytes × Option Nat)) k, k ∈ (upsert m nm v).map (·.1) → k = nm ∨ k ∈ m.map (·.1) := by
    intro m
    induction m with
    | nil => intro k hk; simp [upsert] at hk; exact Or.inl hk
    | cons e m ih =>
      intro k hk
      simp only [upsert] at hk
      split at hk
      · rename_i he
        rcases List.mem_cons.1 hk with rfl | hk
        · exact Or.inl rfl
        · exact Or.inr (List.mem_cons_of_mem _ hk)
      · rcases List.mem_cons.1 hk with rfl | hk
        · exact Or.inr (List.mem_cons_self ..)
        · rcases ih k hk with h | h
          · exact Or.inl h
          · exact Or.inr (List.mem_cons_of_mem _ h)
  induction m with
  | nil => simp [upsert]
  | cons e m ih =>
    rw [List.map_cons, List.nodup_cons] at h
    simp only [upsert]
    split
    · rename_i he
      rw [List.map_cons, List.nodup_cons]
      exact ⟨by simpa [← he] using h.1, h.2⟩
    · rename_i he
      rw [List.map_cons, List.nodup_cons]
      refine ⟨?_, ih h.2⟩
      intro hm
      rcases mem m e.1 hm with h1 | h1
      · exact he h1
      · exact h.1 h1

theorem careful_append {g : Graph} : ∀ (a b : List Op), Careful g a → Careful (a.foldl effect g) b → Careful g (a ++ b) := by
  intro a
  induction a generalizing g with
  | nil => intro b _ h; exact h
  | cons op a ih => intro b h1 h2; exact ⟨h1.1, ih b h1.2 h2⟩

theorem run_append {s s1 s2 : State} : ∀ (a b : List Op), run s a = .ok s1 → run s1 b = .ok s2 → run s (a ++ b) = .ok s2 := by
  intro a
  induction a generalizing s with
  | nil => intro b h1 h2; cases h1; exact h2
  | cons op a ih =>
    intro b h1 h2
    simp only [run] at h1
    obtain ⟨s', h3, h4⟩ := res_bind_ok h1
    simp only [List.cons_append, run, h3, Res.ok_bind]
    exact ih b h4 h2

end Verif.Retain
