import Verif.Spec.ObjectCompare
import Verif.Proof.Compare

/-!
# Lemmas for comparing objects
-/

namespace Verif.ObjCmp

open Verif Verif.Value

theorem nameCmp_eq {s t : Bytes} : nameCmp (some s) (some t) = .ok .eq ↔ s = t := by
  simp only [nameCmp, Res.ok.injEq]
  exact ⟨strcmp_eq, fun h => h ▸ strcmp_self _⟩

/-- Both absent, or both present and related. -/
def ORel {α : Type} (R : α → α → Prop) : Option α → Option α → Prop
  | none, none => True
  | some x, some y => R x y
  | _, _ => False

theorem same_cons {sc : Bool} {x y : Node} :
    Same sc x y ↔ x.view.same sc y.view ∧ ∀ m, ORel (Same sc) (x.go m) (y.go m) := by
  constructor
  · intro h
    refine ⟨h [], fun m => ?_⟩
    have hm : ∀ p, Agree sc ((x.go m).bind (Node.walk p)) ((y.go m).bind (Node.walk p)) :=
      fun p => h (m :: p)
    cases hx : x.go m with
    | none =>
      cases hy : y.go m with
      | none => trivial
      | some b => rw [hx, hy] at hm; exact (hm []).elim
    | some a =>
      cases hy : y.go m with
      | none => rw [hx, hy] at hm; exact (hm []).elim
      | some b => rw [hx, hy] at hm; exact hm
  · rintro ⟨h0, h1⟩ p
    cases p with
    | nil => exact h0
    | cons m p =>
      have hm := h1 m
      show Agree sc ((x.go m).bind (Node.walk p)) ((y.go m).bind (Node.walk p))
      cases hx : x.go m with
      | none =>
        cases hy : y.go m with
        | none => trivial
        | some b => rw [hx, hy] at hm; exact hm.elim
      | some a =>
        cases hy : y.go m with
        | none => rw [hx, hy] at hm; exact hm.elim
        | some b => rw [hx, hy] at hm; exact hm p

theorem orel_map {α β : Type} {R : β → β → Prop} {f : α → β} {x y : Option α} :
    ORel R (x.map f) (y.map f) ↔ ORel (fun a b => R (f a) (f b)) x y := by
  cases x <;> cases y <;> rfl

/-- Two values are the same. -/
abbrev SameV (sc : Bool) (v w : Val) : Prop := Same sc (.val v) (.val w)

/-- Two objects are the same. -/
abbrev SameO (sc : Bool) (a b : Obj) : Prop := Same sc (.obj a) (.obj b)

theorem same_obj {sc : Bool} {a b : Obj} :
    SameO sc a b ↔ a.name = b.name ∧
      (∀ n, ORel (SameV sc) (a.props.get n) (b.props.get n)) ∧
      (∀ n, ORel (SameO sc) (a.children.get n) (b.children.get n)) := by
  unfold SameO
  rw [same_cons]
  constructor
  · rintro ⟨h0, h1⟩
    exact ⟨h0, fun n => orel_map (f := Node.val) |>.1 (h1 (.prop n)),
      fun n => orel_map (f := Node.obj) |>.1 (h1 (.child n))⟩
  · rintro ⟨h0, h1, h2⟩
    refine ⟨h0, fun m => ?_⟩
    cases m with
    | prop n => exact orel_map.2 (h1 n)
    | child n => exact orel_map.2 (h2 n)
    | inside => trivial

theorem same_holds {sc : Bool} {a b : Obj} : SameV sc (.obj a) (.obj b) ↔ SameO sc a b := by
  unfold SameV
  rw [same_cons]
  constructor
  · rintro ⟨_, h1⟩
    exact h1 .inside
  · intro h
    refine ⟨trivial, fun m => ?_⟩
    cases m with
    | inside => exact h
    | _ => trivial

theorem same_props {sc : Bool} {n m : Option Bytes} {v w : Val} {r q : Chain} :
    SameV sc (.props (.cons n v r)) (.props (.cons m w q)) ↔ n = m ∧ SameV sc v w := by
  unfold SameV
  rw [same_cons]
  constructor
  · rintro ⟨h0, h1⟩
    exact ⟨h0, h1 .inside⟩
  · rintro ⟨h0, h⟩
    refine ⟨h0, fun m => ?_⟩
    cases m with
    | inside => exact h
    | _ => trivial

theorem same_scalar {sc : Bool} {a b : Scalar} :
    SameV sc (.scalar a) (.scalar b) ↔ Value.compare sc a b = .ok .eq := by
  unfold SameV
  rw [same_cons]
  constructor
  · exact fun h => h.1
  · intro h
    refine ⟨h, fun m => ?_⟩
    cases m <;> trivial

theorem same_null {sc : Bool} : SameV sc .null .null := by
  unfold SameV
  rw [same_cons]
  refine ⟨trivial, fun m => ?_⟩
  cases m <;> trivial

theorem same_view {sc : Bool} {v w : Val} (h : SameV sc v w) :
    (Node.val v).view.same sc (Node.val w).view := h []

/-! ## Searching -/

/-- The properties of a chain. -/
def Chain.list : Chain → List (Option Bytes × Val)
  | .nil => []
  | .cons n v rest => (n, v) :: rest.list

/-- The objects of a chain. -/
def Objs.list : Objs → List Obj
  | .nil => []
  | .cons o rest => o :: rest.list

theorem Chain.look_get {n : Bytes} : ∀ {ps : Chain}, ps.Filled →
    ps.look (some n) = .ok (ps.get n)
  | .nil, _ => rfl
  | .cons m v rest, hf => by
    obtain ⟨hm, _, hr⟩ := hf
    obtain ⟨m, rfl⟩ := Option.ne_none_iff_exists'.1 hm
    by_cases h : n = m
    · subst h
      simp [Chain.look, nameCmp_eq.2 rfl, Chain.get]
    · have hne : nameCmp (some n) (some m) ≠ .ok .eq := fun hh => h (nameCmp_eq.1 hh)
      have hm' : ¬ m = n := fun hh => h hh.symm
      simp only [nameCmp, ne_eq, Res.ok.injEq] at hne
      simp only [Chain.look, nameCmp, Res.ok_bind, Chain.get, Option.some.injEq, hm', if_false]
      cases hc : strcmp n m with
      | eq => exact absurd hc hne
      | lt => exact look_get hr
      | gt => exact look_get hr

theorem Obj.filled_name {o : Obj} (h : o.Filled) : ∃ n, o.name = some n := by
  cases o with
  | mk n m ps cs => exact Option.ne_none_iff_exists'.1 h.1

theorem Objs.look_get {n : Bytes} : ∀ {cs : Objs}, cs.Filled →
    cs.look (some n) = .ok (cs.get n)
  | .nil, _ => rfl
  | .cons o rest, hf => by
    obtain ⟨hm, hr⟩ := hf
    obtain ⟨m, hm⟩ := Obj.filled_name hm
    by_cases h : n = m
    · subst h
      simp [Objs.look, hm, nameCmp_eq.2 rfl, Objs.get]
    · have hne : nameCmp (some n) (some m) ≠ .ok .eq := fun hh => h (nameCmp_eq.1 hh)
      have hm' : ¬ m = n := fun hh => h hh.symm
      simp only [nameCmp, ne_eq, Res.ok.injEq] at hne
      simp only [Objs.look, hm, nameCmp, Res.ok_bind, Objs.get, Option.some.injEq, hm', if_false]
      cases hc : strcmp n m with
      | eq => exact absurd hc hne
      | lt => exact look_get hr
      | gt => exact look_get hr

theorem Chain.within_ok {ps1 : Chain} (h1 : ps1.Filled) : ∀ {ps2 : Chain}, ps2.Filled →
    ∃ b, ps2.within ps1 = .ok b ∧ (b = true ↔ ∀ n, ps2.get n ≠ none → ps1.get n ≠ none)
  | .nil, _ => ⟨true, rfl, by simp [Chain.get]⟩
  | .cons m v rest, hf => by
    obtain ⟨hm, _, hr⟩ := hf
    obtain ⟨m, rfl⟩ := Option.ne_none_iff_exists'.1 hm
    obtain ⟨b, hb, hi⟩ := within_ok h1 hr
    simp only [Chain.within, Chain.look_get h1, Res.ok_bind]
    cases hg : ps1.get m with
    | none =>
      refine ⟨false, rfl, ?_⟩
      simp only [Bool.false_eq_true, false_iff]
      intro h
      exact h m (by simp [Chain.get]) hg
    | some w =>
      refine ⟨b, hb, ?_⟩
      rw [hi]
      constructor
      · intro h n hn
        by_cases hmn : m = n
        · subst hmn; simp [hg]
        · exact h n (by simpa [Chain.get, hmn] using hn)
      · intro h n hn
        refine h n ?_
        by_cases hmn : m = n <;> simp [Chain.get, hmn]
        exact hn

theorem Objs.within_ok {cs1 : Objs} (h1 : cs1.Filled) : ∀ {cs2 : Objs}, cs2.Filled →
    ∃ b, cs2.within cs1 = .ok b ∧ (b = true ↔ ∀ n, cs2.get n ≠ none → cs1.get n ≠ none)
  | .nil, _ => ⟨true, rfl, by simp [Objs.get]⟩
  | .cons o rest, hf => by
    obtain ⟨hm, hr⟩ := hf
    obtain ⟨m, hm⟩ := Obj.filled_name hm
    obtain ⟨b, hb, hi⟩ := within_ok h1 hr
    simp only [Objs.within, hm, Objs.look_get h1, Res.ok_bind]
    cases hg : cs1.get m with
    | none =>
      refine ⟨false, rfl, ?_⟩
      simp only [Bool.false_eq_true, false_iff]
      intro h
      exact h m (by simp [Objs.get, hm]) hg
    | some w =>
      refine ⟨b, hb, ?_⟩
      rw [hi]
      constructor
      · intro h n hn
        by_cases hmn : m = n
        · subst hmn; simp [hg]
        · exact h n (by simpa [Objs.get, hm, hmn] using hn)
      · intro h n hn
        refine h n ?_
        by_cases hmn : m = n <;> simp [Objs.get, hm, hmn]
        exact hn

theorem Chain.mem_names : ∀ {ps : Chain} {n : Option Bytes} {v : Val}, (n, v) ∈ ps.list →
    n ∈ ps.names
  | .cons m w rest, n, v, h => by
    simp only [Chain.list, List.mem_cons, Prod.mk.injEq] at h
    rcases h with h | h
    · simp [Chain.names, h.1]
    · exact List.mem_cons_of_mem _ (mem_names h)

theorem Chain.get_of_mem : ∀ {ps : Chain} {n : Bytes} {v : Val}, ps.names.Nodup →
    (some n, v) ∈ ps.list → ps.get n = some v
  | .cons m w rest, n, v, hnd, h => by
    simp only [Chain.names, List.nodup_cons] at hnd
    simp only [Chain.list, List.mem_cons, Prod.mk.injEq] at h
    rcases h with ⟨h, rfl⟩ | h
    · simp [Chain.get, h]
    · have : ¬ m = some n := fun hh => hnd.1 (hh ▸ mem_names h)
      simp only [Chain.get, this, if_false]
      exact get_of_mem hnd.2 h

theorem Chain.mem_of_get : ∀ {ps : Chain} {n : Bytes} {v : Val}, ps.get n = some v →
    (some n, v) ∈ ps.list
  | .cons m w rest, n, v, h => by
    simp only [Chain.get] at h
    split at h
    · next hm => cases h; simp [Chain.list, hm]
    · exact List.mem_cons_of_mem _ (mem_of_get h)

theorem Objs.mem_names : ∀ {cs : Objs} {o : Obj}, o ∈ cs.list → o.name ∈ cs.names
  | .cons p rest, o, h => by
    simp only [Objs.list, List.mem_cons] at h
    rcases h with rfl | h
    · simp [Objs.names]
    · exact List.mem_cons_of_mem _ (mem_names h)

theorem Objs.get_of_mem : ∀ {cs : Objs} {n : Bytes} {o : Obj}, cs.names.Nodup →
    o ∈ cs.list → o.name = some n → cs.get n = some o
  | .cons p rest, n, o, hnd, h, hn => by
    simp only [Objs.names, List.nodup_cons] at hnd
    simp only [Objs.list, List.mem_cons] at h
    rcases h with rfl | h
    · simp [Objs.get, hn]
    · have : ¬ p.name = some n := fun hh => hnd.1 (by rw [hh, ← hn]; exact mem_names h)
      simp only [Objs.get, this, if_false]
      exact get_of_mem hnd.2 h hn

theorem Objs.mem_of_get : ∀ {cs : Objs} {n : Bytes} {o : Obj}, cs.get n = some o →
    o ∈ cs.list ∧ o.name = some n
  | .cons p rest, n, o, h => by
    simp only [Objs.get] at h
    split at h
    · next hm => cases h; exact ⟨by simp [Objs.list], hm⟩
    · exact ⟨List.mem_cons_of_mem _ (mem_of_get h).1, (mem_of_get h).2⟩

theorem Chain.filled_mem : ∀ {ps : Chain} {n : Option Bytes} {v : Val}, ps.Filled →
    (n, v) ∈ ps.list → (∃ k, n = some k) ∧ v.Filled
  | .cons m w rest, n, v, hf, h => by
    obtain ⟨hm, hw, hr⟩ := hf
    simp only [Chain.list, List.mem_cons, Prod.mk.injEq] at h
    rcases h with ⟨rfl, rfl⟩ | h
    · exact ⟨Option.ne_none_iff_exists'.1 hm, hw⟩
    · exact filled_mem hr h

theorem Chain.filled_get {ps : Chain} {n : Bytes} {v : Val} (hf : ps.Filled)
    (h : ps.get n = some v) : v.Filled := (Chain.filled_mem hf (Chain.mem_of_get h)).2

theorem Objs.filled_mem : ∀ {cs : Objs} {o : Obj}, cs.Filled → o ∈ cs.list → o.Filled
  | .cons p rest, o, hf, h => by
    obtain ⟨hp, hr⟩ := hf
    simp only [Objs.list, List.mem_cons] at h
    rcases h with rfl | h
    · exact hp
    · exact filled_mem hr h

theorem Objs.filled_get {cs : Objs} {n : Bytes} {o : Obj} (hf : cs.Filled)
    (h : cs.get n = some o) : o.Filled := Objs.filled_mem hf (Objs.mem_of_get h).1

/-! ## Comparing -/

/-- Going through the first and seeing that the second has no more amounts to agreeing name by
name. -/
theorem Chain.agree {R : Val → Val → Prop} {ps qs : Chain} (hf : ps.Filled)
    (hnd : ps.names.Nodup) :
    ((∀ n v, (some n, v) ∈ ps.list → ∃ w, qs.get n = some w ∧ R v w) ∧
      (∀ n, qs.get n ≠ none → ps.get n ≠ none)) ↔ ∀ n, ORel R (ps.get n) (qs.get n) := by
  constructor
  · rintro ⟨h1, h2⟩ n
    cases hp : ps.get n with
    | none =>
      cases hq : qs.get n with
      | none => trivial
      | some w => exact absurd hp (h2 n (by simp [hq]))
    | some v =>
      obtain ⟨w, hw, hr⟩ := h1 n v (Chain.mem_of_get hp)
      rw [hw]
      exact hr
  · intro h
    refine ⟨fun n v hm => ?_, fun n hq hp => ?_⟩
    · have := h n
      rw [Chain.get_of_mem hnd hm] at this
      cases hq : qs.get n with
      | none => rw [hq] at this; exact this.elim
      | some w => rw [hq] at this; exact ⟨w, rfl, this⟩
    · have := h n
      rw [hp] at this
      cases hq' : qs.get n with
      | none => exact hq hq'
      | some w => rw [hq'] at this; exact this.elim

theorem Objs.agree {R : Obj → Obj → Prop} {ps qs : Objs} (hf : ps.Filled)
    (hnd : ps.names.Nodup) :
    ((∀ o ∈ ps.list, ∃ n p, o.name = some n ∧ qs.get n = some p ∧ R o p) ∧
      (∀ n, qs.get n ≠ none → ps.get n ≠ none)) ↔ ∀ n, ORel R (ps.get n) (qs.get n) := by
  constructor
  · rintro ⟨h1, h2⟩ n
    cases hp : ps.get n with
    | none =>
      cases hq : qs.get n with
      | none => trivial
      | some w => exact absurd hp (h2 n (by simp [hq]))
    | some o =>
      obtain ⟨k, p, hk, hw, hr⟩ := h1 o (Objs.mem_of_get hp).1
      have : k = n := by
        have := (Objs.mem_of_get hp).2
        rw [hk] at this
        exact Option.some.inj this
      subst this
      rw [hw]
      exact hr
  · intro h
    refine ⟨fun o hm => ?_, fun n hq hp => ?_⟩
    · obtain ⟨n, hn⟩ := Obj.filled_name (Objs.filled_mem hf hm)
      have := h n
      rw [Objs.get_of_mem hnd hm hn] at this
      cases hq : qs.get n with
      | none => rw [hq] at this; exact this.elim
      | some p => rw [hq] at this; exact ⟨n, p, hn, hq, this⟩
    · have := h n
      rw [hp] at this
      cases hq' : qs.get n with
      | none => exact hq hq'
      | some w => rw [hq'] at this; exact this.elim

theorem bind_eq_iff {x : Res Ordering} {y : Res Ordering} :
    (x.bind fun o => match o with | .eq => y | o => .ok o) = .ok .eq ↔
      x = .ok .eq ∧ y = .ok .eq := by
  cases x with
  | ok o => cases o <;> simp [Res.bind]
  | fail => simp [Res.bind]
  | ub => simp [Res.bind]

mutual
theorem cmpVal_iff (sc : Bool) : ∀ (v w : Val), v.Filled → w.Filled → v.Unique →
    (cmpVal sc v w = .ok .eq ↔ SameV sc v w)
  | .null, w, _, hw, _ => by
    cases w with
    | null => simp [cmpVal, same_null]
    | props ps =>
      cases ps with
      | nil => exact hw.elim
      | cons n v r =>
        simp only [cmpVal, Res.ok.injEq, reduceCtorEq, false_iff]
        exact fun h => same_view h
    | _ => simp only [cmpVal, Res.ok.injEq, reduceCtorEq, false_iff]; exact fun h => same_view h
  | .scalar a, w, _, hw, _ => by
    cases w with
    | scalar b => rw [same_scalar]; simp [cmpVal]
    | props ps =>
      cases ps with
      | nil => exact hw.elim
      | cons n v r =>
        simp only [cmpVal]
        constructor
        · intro h; split at h <;> cases h
        · exact fun h => (same_view h).elim
    | _ =>
      simp only [cmpVal]
      constructor
      · intro h; first | (cases h; done) | (split at h <;> cases h)
      · exact fun h => (same_view h).elim
  | .props .nil, _, hv, _, _ => hv.elim
  | .nullObj, _, hv, _, _ => hv.elim
  | .props (.cons n v r), w, hv, hw, hu => by
    obtain ⟨hn, hv, hr⟩ := hv
    obtain ⟨n, rfl⟩ := Option.ne_none_iff_exists'.1 hn
    cases w with
    | props ps =>
      cases ps with
      | nil => exact hw.elim
      | cons m w q =>
        obtain ⟨hm, hw, hq⟩ := hw
        obtain ⟨m, rfl⟩ := Option.ne_none_iff_exists'.1 hm
        rw [same_props, ← cmpVal_iff sc v w hv hw hu.1, Option.some.injEq, ← nameCmp_eq,
          ← bind_eq_iff]
        simp only [cmpVal]
        rfl
    | _ =>
      simp only [cmpVal]
      constructor
      · intro h; first | (cases h; done) | (split at h <;> cases h)
      · exact fun h => (same_view h).elim
  | .obj a, w, hv, hw, hu => by
    cases w with
    | obj b =>
      rw [same_holds, same_obj]
      have := cmpObj_iff sc true a b hv hw hu
      simp only [true_implies] at this
      simp only [cmpVal]
      exact this
    | props ps =>
      cases ps with
      | nil => exact hw.elim
      | cons n v r =>
        simp only [cmpVal]
        constructor
        · intro h; split at h <;> cases h
        · exact fun h => (same_view h).elim
    | _ =>
      simp only [cmpVal]
      constructor
      · intro h; first | (cases h; done) | (split at h <;> cases h)
      · exact fun h => (same_view h).elim

theorem cmpProps_iff (sc : Bool) : ∀ (ps qs : Chain), ps.Filled → qs.Filled → ps.Unique →
    (cmpProps sc ps qs = .ok .eq ↔
      ∀ n v, (some n, v) ∈ ps.list → ∃ w, qs.get n = some w ∧ SameV sc v w)
  | .nil, qs, _, _, _ => by simp [cmpProps, Chain.list]
  | .cons n v rest, qs, hp, hq, hu => by
    obtain ⟨hn, hv, hr⟩ := hp
    obtain ⟨n, rfl⟩ := Option.ne_none_iff_exists'.1 hn
    simp only [cmpProps, Chain.look_get hq, Res.ok_bind, Chain.list]
    cases hg : qs.get n with
    | none =>
      simp only [Res.pure_eq, Res.ok.injEq, reduceCtorEq, false_iff]
      intro h
      obtain ⟨w, hw, _⟩ := h n v List.mem_cons_self
      rw [hg] at hw
      cases hw
    | some w =>
      refine Iff.trans (bind_eq_iff (x := cmpVal sc v w) (y := cmpProps sc rest qs)) ?_
      rw [cmpVal_iff sc v w hv (Chain.filled_get hq hg) hu.1, cmpProps_iff sc rest qs hr hq hu.2]
      constructor
      · rintro ⟨h1, h2⟩ k u hk
        rcases List.mem_cons.1 hk with h | h
        · cases h; exact ⟨w, hg, h1⟩
        · exact h2 k u h
      · intro h
        refine ⟨?_, fun k u hk => h k u (List.mem_cons_of_mem _ hk)⟩
        obtain ⟨w', hw', h1⟩ := h n v List.mem_cons_self
        rw [hg] at hw'
        cases hw'
        exact h1

theorem cmpObj_iff (sc r : Bool) : ∀ (a b : Obj), a.Filled → b.Filled → a.Unique →
    (cmpObj sc r a b = .ok .eq ↔ a.name = b.name ∧
      (∀ n, ORel (SameV sc) (a.props.get n) (b.props.get n)) ∧
      (r = true → ∀ n, ORel (SameO sc) (a.children.get n) (b.children.get n)))
  | .mk n1 m1 ps1 cs1, .mk n2 m2 ps2 cs2, ha, hb, hu => by
    obtain ⟨hn1, hp1, hc1⟩ := ha
    obtain ⟨hn2, hp2, hc2⟩ := hb
    obtain ⟨hu1, hu2, hu3, hu4⟩ := hu
    obtain ⟨n1, rfl⟩ := Option.ne_none_iff_exists'.1 hn1
    obtain ⟨n2, rfl⟩ := Option.ne_none_iff_exists'.1 hn2
    obtain ⟨b1, hb1, hi1⟩ := Chain.within_ok hp1 hp2
    obtain ⟨b2, hb2, hi2⟩ := Objs.within_ok hc1 hc2
    have e1 := cmpProps_iff sc ps1 ps2 hp1 hp2 hu3
    have e2 := cmpObjs_iff sc cs1 cs2 hc1 hc2 hu4
    simp only [Obj.name, Obj.props, Obj.children, cmpObj]
    refine Iff.trans (bind_eq_iff (x := nameCmp (some n1) (some n2))) ?_
    rw [nameCmp_eq, Option.some.injEq]
    refine and_congr_right fun _ => ?_
    refine Iff.trans (bind_eq_iff (x := cmpProps sc ps1 ps2)) ?_
    rw [e1, ← Chain.agree hp1 hu1, ← hi1, and_assoc]
    refine and_congr_right fun _ => ?_
    rw [hb1]
    cases b1 with
    | false => simp
    | true =>
      cases r with
      | false => simp
      | true =>
        simp only [Res.ok_bind, if_true, true_and, true_implies]
        refine Iff.trans (bind_eq_iff (x := cmpObjs sc cs1 cs2)) ?_
        rw [e2, ← Objs.agree hc1 hu2, ← hi2, hb2]
        refine and_congr_right fun _ => ?_
        cases b2 <;> simp

theorem cmpObjs_iff (sc : Bool) : ∀ (cs ds : Objs), cs.Filled → ds.Filled → cs.Unique →
    (cmpObjs sc cs ds = .ok .eq ↔
      ∀ o ∈ cs.list, ∃ n p, o.name = some n ∧ ds.get n = some p ∧ SameO sc o p)
  | .nil, ds, _, _, _ => by simp [cmpObjs, Objs.list]
  | .cons o rest, ds, hp, hq, hu => by
    obtain ⟨ho, hr⟩ := hp
    obtain ⟨n, hn⟩ := Obj.filled_name ho
    simp only [cmpObjs, hn, Objs.look_get hq, Res.ok_bind, Objs.list]
    cases hg : ds.get n with
    | none =>
      simp only [Res.pure_eq, Res.ok.injEq, reduceCtorEq, false_iff]
      intro h
      obtain ⟨k, w, hk, hw, _⟩ := h o List.mem_cons_self
      rw [hn] at hk
      cases hk
      rw [hg] at hw
      cases hw
    | some w =>
      refine Iff.trans (bind_eq_iff (x := cmpObj sc true o w) (y := cmpObjs sc rest ds)) ?_
      have e1 := cmpObj_iff sc true o w ho (Objs.filled_get hq hg) hu.1
      simp only [true_implies] at e1
      rw [e1, ← same_obj, cmpObjs_iff sc rest ds hr hq hu.2]
      constructor
      · rintro ⟨h1, h2⟩ u hk
        rcases List.mem_cons.1 hk with rfl | h
        · exact ⟨n, w, hn, hg, h1⟩
        · exact h2 u h
      · intro h
        refine ⟨?_, fun u hk => h u (List.mem_cons_of_mem _ hk)⟩
        obtain ⟨k, w', hk, hw', h1⟩ := h o List.mem_cons_self
        rw [hn] at hk
        cases hk
        rw [hg] at hw'
        cases hw'
        exact h1
end

end Verif.ObjCmp

namespace Verif.ObjCmp

open Verif Verif.Value

/-! ## Equality is an equivalence -/

theorem cmpDbl_eq {a b : Dbl} (h : cmpDbl a b = .eq) : a = b ∧ a ≠ .nan := by
  cases a <;> cases b <;> simp_all [cmpDbl]
  rename_i x y
  by_cases hxy : x = y
  · exact hxy
  · have h := h hxy
    split at h <;> cases h

theorem bytescmp_eq {s t : Bytes} (h : bytescmp s t = .ok .eq) : s = t := by
  induction s generalizing t with
  | nil => cases t <;> simp_all [bytescmp]
  | cons a s ih =>
    cases t with
    | nil => simp [bytescmp] at h
    | cons b t =>
      simp only [bytescmp] at h
      split at h
      · cases h
      · split at h
        · cases h
        · next h1 h2 =>
          have : a = b := UInt8.le_antisymm (UInt8.not_lt.1 h2) (UInt8.not_lt.1 h1)
          rw [this, ih h]

theorem bytescmp_self (s : Bytes) : bytescmp s s = .ok .eq := by
  induction s with
  | nil => rfl
  | cons a s ih => simp [bytescmp, ih]

theorem cmpCls_eq_iff {c d : Cls} : cmpCls c d = .ok .eq ↔ c = d ∧ c.ok := by
  constructor
  · intro h
    cases c with
    | num a =>
      cases d with
      | num b =>
        have := cmpDbl_eq (Res.ok.inj h)
        exact ⟨congrArg _ this.1, this.2⟩
      | _ => cases h
    | dt => cases d <;> first | exact ⟨rfl, trivial⟩ | cases h
    | nil => cases d <;> first | exact ⟨rfl, trivial⟩ | cases h
    | str s =>
      cases d with
      | str t =>
        cases s with
        | none => cases t <;> cases h
        | some s =>
          cases t with
          | none => cases h
          | some t => exact ⟨by rw [strcmp_eq (Res.ok.inj h)], by simp [Cls.ok]⟩
      | _ => cases h
    | byt s =>
      cases d with
      | byt t =>
        cases s with
        | none => cases t <;> cases h
        | some s =>
          cases t with
          | none => cases h
          | some t => exact ⟨by rw [bytescmp_eq h], by simp [Cls.ok]⟩
      | _ => cases h
  · rintro ⟨rfl, hok⟩
    cases c with
    | num a => exact congrArg _ (cmpDbl_self hok)
    | dt => rfl
    | nil => rfl
    | str s =>
      cases s with
      | none => exact absurd rfl hok
      | some s => exact congrArg _ (strcmp_self s)
    | byt s =>
      cases s with
      | none => exact absurd rfl hok
      | some s => exact bytescmp_self s

theorem scalar_symm {sc : Bool} {a b : Scalar} (h : Value.compare sc a b = .ok .eq) :
    Value.compare sc b a = .ok .eq := by
  rw [compare_cls, cmpCls_eq_iff] at *
  exact ⟨h.1.symm, h.1 ▸ h.2⟩

theorem scalar_trans {sc : Bool} {a b c : Scalar} (h : Value.compare sc a b = .ok .eq)
    (h' : Value.compare sc b c = .ok .eq) : Value.compare sc a c = .ok .eq := by
  rw [compare_cls, cmpCls_eq_iff] at *
  exact ⟨h.1.trans h'.1, h.2⟩

theorem View.same_symm {sc : Bool} {x y : View} (h : x.same sc y) : y.same sc x := by
  cases x <;> cases y <;> first | exact h.elim | exact trivial | exact h.symm | exact scalar_symm h

theorem View.same_trans {sc : Bool} {x y z : View} (h : x.same sc y) (h' : y.same sc z) :
    x.same sc z := by
  cases x <;> cases y <;> first | exact h.elim | skip
  all_goals cases z <;> first | exact h'.elim | exact trivial | exact h.trans h' | exact scalar_trans h h'

theorem same_symm {sc : Bool} {x y : Node} (h : Same sc x y) : Same sc y x := by
  intro p
  have := h p
  cases hx : x.walk p <;> cases hy : y.walk p <;> rw [hx, hy] at this
  · trivial
  · exact this.elim
  · exact this.elim
  · exact View.same_symm this

theorem same_trans {sc : Bool} {x y z : Node} (h : Same sc x y) (h' : Same sc y z) :
    Same sc x z := by
  intro p
  have h1 := h p
  have h2 := h' p
  cases hx : x.walk p <;> cases hy : y.walk p <;> cases hz : z.walk p <;> rw [hx, hy] at h1 <;>
    rw [hy, hz] at h2 <;> first | trivial | exact h1.elim | exact h2.elim | exact View.same_trans h1 h2

/-- Every scalar below a node meets `P`. -/
def Node.All (P : Scalar → Prop) : Node → Prop
  | .obj o => o.All P
  | .val v => v.All P

theorem Chain.all_get {P : Scalar → Prop} : ∀ {ps : Chain} {n : Bytes} {v : Val}, ps.All P →
    ps.get n = some v → v.All P
  | .cons m w rest, n, v, ha, h => by
    simp only [Chain.get] at h
    split at h
    · cases h; exact ha.1
    · exact all_get ha.2 h

theorem Objs.all_get {P : Scalar → Prop} : ∀ {cs : Objs} {n : Bytes} {o : Obj}, cs.All P →
    cs.get n = some o → o.All P
  | .cons p rest, n, o, ha, h => by
    simp only [Objs.get] at h
    split at h
    · cases h; exact ha.1
    · exact all_get ha.2 h

theorem Node.all_go {P : Scalar → Prop} {x y : Node} {m : Move} (ha : x.All P)
    (h : x.go m = some y) : y.All P := by
  cases x with
  | obj o =>
    cases o with
    | mk n mu ps cs =>
      cases m with
      | prop k =>
        obtain ⟨v, hv, rfl⟩ := Option.map_eq_some_iff.1 h
        exact Chain.all_get ha.1 hv
      | child k =>
        obtain ⟨v, hv, rfl⟩ := Option.map_eq_some_iff.1 h
        exact Objs.all_get ha.2 hv
      | inside => cases h
  | val v =>
    cases m with
    | prop k => cases v <;> cases h
    | child k => cases v <;> cases h
    | inside =>
      cases v with
      | obj o => cases h; exact ha
      | props ps =>
        cases ps with
        | nil => cases h
        | cons n w r => cases h; exact ha.1
      | _ => cases h

theorem Node.all_walk {P : Scalar → Prop} : ∀ {p : List Move} {x y : Node}, x.All P →
    x.walk p = some y → y.All P
  | [], x, y, ha, h => by cases h; exact ha
  | m :: p, x, y, ha, h => by
    obtain ⟨z, hz, h⟩ := Option.bind_eq_some_iff.1 h
    exact all_walk (Node.all_go ha hz) h

theorem same_refl {sc : Bool} {x : Node} (h : x.All Ordinary) : Same sc x x := by
  intro p
  cases hx : x.walk p with
  | none => trivial
  | some y =>
    have hy := Node.all_walk h hx
    show y.view.same sc y.view
    cases y with
    | obj o => exact rfl
    | val v =>
      cases v with
      | scalar s =>
        show Value.compare sc s s = .ok .eq
        rw [compare_cls, cmpCls_eq_iff]
        exact ⟨rfl, ordinary_cls hy⟩
      | props ps => cases ps <;> first | trivial | exact rfl
      | _ => trivial

/-! ## Being defined -/

theorem tame_compare {sc : Bool} {a b : Scalar} (ha : Tame a) (hb : Tame b) :
    ∃ o, Value.compare sc a b = .ok o := by
  rw [compare_cls, cmpCls_ref (ordinary_cls ha.1) (ordinary_cls hb.1)]
  · exact ⟨_, rfl⟩
  · rw [← overrun_cls]
    intro h
    cases a <;> simp only [Overrun] at h
    exact ha.2 _ rfl

theorem bind_def {x y : Res Ordering} (hx : ∃ o, x = .ok o) (hy : ∃ o, y = .ok o) :
    ∃ o, (x.bind fun o => match o with | .eq => y | o => .ok o) = .ok o := by
  obtain ⟨o, rfl⟩ := hx
  obtain ⟨o', rfl⟩ := hy
  cases o <;> exact ⟨_, rfl⟩

theorem nameCmp_def {n m : Option Bytes} (hn : n ≠ none) (hm : m ≠ none) :
    ∃ o, nameCmp n m = .ok o := by
  cases n <;> cases m <;> simp_all [nameCmp]

theorem Chain.look_def {n : Option Bytes} (hn : n ≠ none) : ∀ {ps : Chain}, ps.Named → ps.All Tame →
    ∃ r, ps.look n = .ok r ∧ ∀ w, r = some w → w.Named ∧ w.All Tame
  | .nil, _, _ => ⟨none, rfl, nofun⟩
  | .cons m v rest, hm, ha => by
    obtain ⟨o, ho⟩ := nameCmp_def hn hm.1
    simp only [Chain.look, ho, Res.ok_bind]
    cases o with
    | eq =>
      refine ⟨_, rfl, fun w hw => ?_⟩
      cases hw
      exact ⟨hm.2.1, ha.1⟩
    | lt => exact look_def hn hm.2.2 ha.2
    | gt => exact look_def hn hm.2.2 ha.2

theorem Obj.named_name {o : Obj} (h : o.Named) : o.name ≠ none := by
  cases o; exact h.1

theorem Objs.look_def {n : Option Bytes} (hn : n ≠ none) : ∀ {cs : Objs}, cs.Named → cs.All Tame →
    ∃ r, cs.look n = .ok r ∧ ∀ w, r = some w → w.Named ∧ w.All Tame
  | .nil, _, _ => ⟨none, rfl, nofun⟩
  | .cons p rest, hm, ha => by
    obtain ⟨o, ho⟩ := nameCmp_def hn (Obj.named_name hm.1)
    simp only [Objs.look, ho, Res.ok_bind]
    cases o with
    | eq =>
      refine ⟨_, rfl, fun w hw => ?_⟩
      cases hw
      exact ⟨hm.1, ha.1⟩
    | lt => exact look_def hn hm.2 ha.2
    | gt => exact look_def hn hm.2 ha.2

theorem Chain.within_def {ps1 : Chain} (h1 : ps1.Named) (a1 : ps1.All Tame) : ∀ {ps2 : Chain},
    ps2.Named → ∃ b, ps2.within ps1 = .ok b
  | .nil, _ => ⟨true, rfl⟩
  | .cons m v rest, hm => by
    obtain ⟨r, hr, _⟩ := Chain.look_def hm.1 h1 a1
    simp only [Chain.within, hr, Res.ok_bind]
    cases r with
    | none => exact ⟨_, rfl⟩
    | some w => exact within_def h1 a1 hm.2.2

theorem Objs.within_def {cs1 : Objs} (h1 : cs1.Named) (a1 : cs1.All Tame) : ∀ {cs2 : Objs},
    cs2.Named → ∃ b, cs2.within cs1 = .ok b
  | .nil, _ => ⟨true, rfl⟩
  | .cons o rest, hm => by
    obtain ⟨r, hr, _⟩ := Objs.look_def (Obj.named_name hm.1) h1 a1
    simp only [Objs.within, hr, Res.ok_bind]
    cases r with
    | none => exact ⟨_, rfl⟩
    | some w => exact within_def h1 a1 hm.2

mutual
theorem cmpVal_def (sc : Bool) : ∀ (v w : Val), v.Named → w.Named → v.All Tame → w.All Tame →
    ∃ o, cmpVal sc v w = .ok o
  | .null, w, _, _, _, _ => by cases w <;> exact ⟨_, by simp only [cmpVal]; rfl⟩
  | .scalar a, w, _, _, ha, hb => by
    cases w with
    | scalar b => simp only [cmpVal]; exact tame_compare ha hb
    | _ => exact ⟨_, by simp only [cmpVal]; rfl⟩
  | .props .nil, w, _, _, _, _ => by cases w <;> exact ⟨_, by simp only [cmpVal]; rfl⟩
  | .nullObj, w, _, _, _, _ => by cases w <;> exact ⟨_, by simp only [cmpVal]; rfl⟩
  | .props (.cons n v r), w, hn, hm, ha, hb => by
    cases w with
    | props ps =>
      cases ps with
      | nil => exact ⟨_, by simp only [cmpVal]; rfl⟩
      | cons m w q =>
        simp only [cmpVal]
        exact bind_def (nameCmp_def hn.1 hm.1) (cmpVal_def sc v w hn.2.1 hm.2.1 ha.1 hb.1)
    | _ => exact ⟨_, by simp only [cmpVal]; rfl⟩
  | .obj a, w, hn, hm, ha, hb => by
    cases w with
    | obj b => simp only [cmpVal]; exact cmpObj_def sc true a b hn hm ha hb
    | _ => exact ⟨_, by simp only [cmpVal]; rfl⟩

theorem cmpProps_def (sc : Bool) : ∀ (ps qs : Chain), ps.Named → qs.Named → ps.All Tame →
    qs.All Tame → ∃ o, cmpProps sc ps qs = .ok o
  | .nil, qs, _, _, _, _ => ⟨.eq, by simp only [cmpProps]⟩
  | .cons n v rest, qs, hn, hm, ha, hb => by
    obtain ⟨r, hr, hw⟩ := Chain.look_def hn.1 hm hb
    simp only [cmpProps, hr, Res.ok_bind]
    cases r with
    | none => exact ⟨_, rfl⟩
    | some w =>
      obtain ⟨h1, h2⟩ := hw w rfl
      exact bind_def (cmpVal_def sc v w hn.2.1 h1 ha.1 h2) (cmpProps_def sc rest qs hn.2.2 hm ha.2 hb)

theorem cmpObj_def (sc r : Bool) : ∀ (a b : Obj), a.Named → b.Named → a.All Tame → b.All Tame →
    ∃ o, cmpObj sc r a b = .ok o
  | .mk n1 m1 ps1 cs1, .mk n2 m2 ps2 cs2, hn, hm, ha, hb => by
    simp only [cmpObj]
    refine bind_def (nameCmp_def hn.1 hm.1) ?_
    refine bind_def (cmpProps_def sc ps1 ps2 hn.2.1 hm.2.1 ha.1 hb.1) ?_
    obtain ⟨b1, hb1⟩ := Chain.within_def hn.2.1 ha.1 hm.2.1
    obtain ⟨b2, hb2⟩ := Objs.within_def hn.2.2 ha.2 hm.2.2
    rw [hb1, hb2]
    cases b1 with
    | false => exact ⟨_, rfl⟩
    | true =>
      cases r with
      | false => exact ⟨_, rfl⟩
      | true =>
        refine bind_def (cmpObjs_def sc cs1 cs2 hn.2.2 hm.2.2 ha.2 hb.2) ?_
        cases b2 <;> exact ⟨_, rfl⟩

theorem cmpObjs_def (sc : Bool) : ∀ (cs ds : Objs), cs.Named → ds.Named → cs.All Tame →
    ds.All Tame → ∃ o, cmpObjs sc cs ds = .ok o
  | .nil, ds, _, _, _, _ => ⟨.eq, by simp only [cmpObjs]⟩
  | .cons o rest, ds, hn, hm, ha, hb => by
    obtain ⟨r, hr, hw⟩ := Objs.look_def (Obj.named_name hn.1) hm hb
    simp only [cmpObjs, hr, Res.ok_bind]
    cases r with
    | none => exact ⟨_, rfl⟩
    | some w =>
      obtain ⟨h1, h2⟩ := hw w rfl
      exact bind_def (cmpObj_def sc true o w hn.1 h1 ha.1 h2) (cmpObjs_def sc rest ds hn.2 hm ha.2 hb)
end

end Verif.ObjCmp
