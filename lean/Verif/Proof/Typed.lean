import Verif.Proof.ObjectMap
import Verif.Proof.Exec
import Verif.Spec.Typed

/-!
# Lemmas about typed data in objects
-/

namespace Verif.Typed

open Verif Verif.Value Verif.Spec.Typed
open Verif.Retain (Inv Bounded Seg Node Slot Kind)
open Verif.Spec.Retain (Graph Entry asMap upsert change Lists effect)

/-- Where the thing under a name is in memory. -/
def Is (v : Sheet) (data : Nat → Scalar) (made : Nat) (owner : Nat → Nat × Bytes) (o : Nat) (nm : Bytes) :
    Held → Option Nat → Prop
  | .own d, some a => data a = d ∧ v.values a = none ∧ a < made ∧ owner a = (o, nm)
  | .shared x, some a => a = x ∧ (v.values x).isSome = true
  | _, none => False

/-- Two lists with the same names and things that belong together. -/
def Matches (I : Bytes → Held → Option Nat → Prop) : List (Bytes × Held) → List (Bytes × Option Nat) → Prop
  | [], [] => True
  | (n, x) :: l, (m, a) :: k => n = m ∧ I n x a ∧ Matches I l k
  | _, _ => False

theorem matches_mono {I J : Bytes → Held → Option Nat → Prop} : ∀ {l k}, Matches I l k →
    (∀ n x a, I n x a → J n x a) → Matches J l k := by
  intro l
  induction l with
  | nil => intro k h _; cases k <;> simp_all [Matches]
  | cons p l ih =>
    intro k h hij
    cases k with
    | nil => simp [Matches] at h
    | cons q k => exact ⟨h.1, hij _ _ _ h.2.1, ih h.2.2 hij⟩

theorem matches_names {I J : Bytes → Held → Option Nat → Prop} : ∀ {l k}, Matches I l k →
    (∀ n x a, n ∈ l.map (·.1) → I n x a → J n x a) → Matches J l k := by
  intro l
  induction l with
  | nil => intro k h _; cases k <;> simp_all [Matches]
  | cons p l ih =>
    intro k h hij
    cases k with
    | nil => simp [Matches] at h
    | cons q k =>
      exact ⟨h.1, hij _ _ _ (by simp) h.2.1, ih h.2.2 fun n x a hn => hij n x a (List.mem_cons_of_mem _ hn)⟩

theorem matches_upsert {I J : Bytes → Held → Option Nat → Prop} {nm : Bytes} {x : Held} {a : Option Nat} :
    ∀ {l k}, Matches I l k → (l.map (·.1)).Nodup → (∀ n y b, n ≠ nm → I n y b → J n y b) → J nm x a →
    Matches J (upsert l nm x) (upsert k nm a) := by
  intro l
  induction l with
  | nil =>
    intro k h _ _ hj
    cases k with
    | nil => exact ⟨rfl, hj, trivial⟩
    | cons q k => simp [Matches] at h
  | cons p l ih =>
    intro k h hn hij hj
    obtain ⟨n, y⟩ := p
    cases k with
    | nil => simp [Matches] at h
    | cons q k =>
      obtain ⟨m, b⟩ := q
      obtain ⟨h1, h2, h3⟩ := h
      subst h1
      rw [List.map_cons, List.nodup_cons] at hn
      simp only [upsert]
      by_cases hnm : n = nm
      · rw [if_pos hnm, if_pos hnm]
        refine ⟨rfl, hj, matches_names h3 fun n' y b hm => hij n' y b ?_⟩
        rintro rfl
        exact hn.1 (hnm ▸ hm)
      · rw [if_neg hnm, if_neg hnm]
        exact ⟨rfl, hij _ _ _ hnm h2, ih h3 hn.2 hij hj⟩

theorem matches_replace {I J : Bytes → Held → Option Nat → Prop} {nm : Bytes} {x : Held} {a : Option Nat} :
    ∀ {l k}, Matches I l k → (l.map (·.1)).Nodup → (∀ n y b, n ≠ nm → I n y b → J n y b) → J nm x a →
    (k.find? fun y => y.1 = nm) = some (nm, a) → Matches J (upsert l nm x) k := by
  intro l
  induction l with
  | nil =>
    intro k h _ _ hj hf
    cases k with
    | nil => simp at hf
    | cons q k => simp [Matches] at h
  | cons p l ih =>
    intro k h hn hij hj hf
    obtain ⟨n, y⟩ := p
    cases k with
    | nil => simp [Matches] at h
    | cons q k =>
      obtain ⟨m, b⟩ := q
      obtain ⟨h1, h2, h3⟩ := h
      subst h1
      rw [List.map_cons, List.nodup_cons] at hn
      simp only [upsert]
      by_cases hnm : n = nm
      · rw [if_pos hnm]
        simp [hnm] at hf
        subst hf
        refine ⟨hnm.symm, hj, matches_names h3 fun n' y b hm => hij n' y b ?_⟩
        rintro rfl
        exact hn.1 (hnm ▸ hm)
      · rw [if_neg hnm]
        simp [hnm] at hf
        exact ⟨rfl, hij _ _ _ hnm h2, ih h3 hn.2 hij hj (by simpa using hf)⟩

theorem matches_find {I : Bytes → Held → Option Nat → Prop} {nm : Bytes} : ∀ {l k}, Matches I l k →
    ((l.find? fun x => x.1 = nm) = none ∧ (k.find? fun x => x.1 = nm) = none) ∨
    ∃ x a, (l.find? fun x => x.1 = nm) = some (nm, x) ∧ (k.find? fun x => x.1 = nm) = some (nm, a) ∧ I nm x a := by
  intro l
  induction l with
  | nil =>
    intro k h
    cases k with
    | nil => exact Or.inl ⟨rfl, rfl⟩
    | cons q k => simp [Matches] at h
  | cons p l ih =>
    intro k h
    obtain ⟨n, y⟩ := p
    cases k with
    | nil => simp [Matches] at h
    | cons q k =>
      obtain ⟨m, b⟩ := q
      obtain ⟨h1, h2, h3⟩ := h
      subst h1
      by_cases hnm : n = nm
      · subst hnm
        exact Or.inr ⟨y, b, by simp, by simp, h2⟩
      · rcases ih h3 with ⟨h4, h5⟩ | ⟨x, a, h4, h5, h6⟩
        · exact Or.inl ⟨by simpa [hnm] using h4, by simpa [hnm] using h5⟩
        · exact Or.inr ⟨x, a, by simpa [hnm] using h4, by simpa [hnm] using h5, h6⟩

theorem upsert_names {β : Type} (k : Bytes) (v : β) : ∀ m : List (Bytes × β), (m.map (·.1)).Nodup →
    ((upsert m k v).map (·.1)).Nodup ∧ ∀ x ∈ (upsert m k v).map (·.1), x = k ∨ x ∈ m.map (·.1) := by
  intro m
  induction m with
  | nil => intro _; simp [upsert]
  | cons p m ih =>
    intro h
    obtain ⟨j, w⟩ := p
    rw [List.map_cons, List.nodup_cons] at h
    simp only [upsert]
    by_cases hj : j = k
    · rw [if_pos hj]
      subst hj
      exact ⟨by rw [List.map_cons, List.nodup_cons]; exact h, fun x hx => Or.inr (by simpa using hx)⟩
    · rw [if_neg hj]
      obtain ⟨h1, h2⟩ := ih h.2
      constructor
      · rw [List.map_cons, List.nodup_cons]
        refine ⟨fun hm => ?_, h1⟩
        rcases h2 _ hm with h3 | h3
        · exact hj h3
        · exact h.1 h3
      · intro x hx
        rw [List.map_cons] at hx
        rcases List.mem_cons.1 hx with rfl | hx
        · exact Or.inr (by simp)
        · rcases h2 x hx with h3 | h3
          · exact Or.inl h3
          · exact Or.inr (List.mem_cons_of_mem _ h3)

/-- An object of the sheet that is not released, and its list. -/
def Has (v : Sheet) (o : Nat) (l : List (Bytes × Held)) : Prop := v.mine o = true ∧ v.objects o = some l

/-- The sheet tells what is in memory. -/
structure Fit (v : Sheet) (data : Nat → Scalar) (g : Graph) (ent : Nat → List Entry) (owner : Nat → Nat × Bytes) : Prop where
  held : ∀ x, v.mine x = true → 0 < g.holds x
  vals : ∀ x d, v.values x = some d → data x = d ∧ x < g.made
  objs : ∀ o l, v.objects o = some l → o < g.made
  kindv : ∀ x, v.value x → g.kind x = .value
  kindo : ∀ o l, Has v o l → g.kind o = .object
  lists : ∀ o l, Has v o l → Seg g (g.link o .properties) (ent o) none
  names : ∀ o l, Has v o l → (l.map (·.1)).Nodup
  fits : ∀ o l, Has v o l → Matches (Is v data g.made owner o) l (asMap (ent o))
  apart : ∀ o l q m, Has v o l → Has v q m → o ≠ q → ∀ e ∈ ent o, ∀ f ∈ ent q, e.prop ≠ f.prop

structure Rel (v : Sheet) (s : State) : Prop where
  ex : ∃ g ent owner, Inv g s.heap [] ∧ Bounded g ∧ Fit v s.data g ent owner

theorem is_mono {v : Sheet} {data data' : Nat → Scalar} {made made' : Nat} {owner owner' : Nat → Nat × Bytes} {o : Nat}
    (hm : made ≤ made') (hd : ∀ a, a < made → data' a = data a) (ho : ∀ a, a < made → owner' a = owner a) :
    ∀ n x a, Is v data made owner o n x a → Is v data' made' owner' o n x a := by
  intro n x a h
  cases x with
  | own d =>
    cases a with
    | none => exact h
    | some a =>
      obtain ⟨h1, h2, h3, h4⟩ := h
      exact ⟨by rw [hd a h3]; exact h1, h2, by omega, by rw [ho a h3]; exact h4⟩
  | shared y => cases a <;> exact h

theorem mine_lt {v data g ent owner} (hf : Fit v data g ent owner) (hb : Bounded g) {x : Nat} (h : v.mine x = true) :
    x < g.made := by
  have h1 := hf.held x h
  by_cases hx : x < g.made
  · exact hx
  · have := hb x (by omega); omega

theorem seg_lt {v data g ent owner} {s : Retain.State} (hf : Fit v data g ent owner) (hi : Inv g s []) (hb : Bounded g)
    {o l} (h : Has v o l) : ∀ e ∈ ent o, e.prop < g.made := by
  intro e he
  have h1 := Retain.seg_reach (hf.lists o l h) (fun p hp => .link (.held (hf.held o h.1)) hp)
  exact Retain.reach_lt hb hi.fits (h1.1 e he)

/-- A new node that the sheet says nothing about. -/
theorem fit_make {v data g ent owner} {s : Retain.State} (hf : Fit v data g ent owner) (hi : Inv g s []) (hb : Bounded g)
    (k : Kind) (name : Option Bytes) (d : Scalar) (w : Nat × Bytes) :
    Fit v (fun x => if x = g.made then d else data x) (Spec.Retain.make g k name none) ent
      (fun x => if x = g.made then w else owner x) := by
  have hne : ∀ x, x < g.made → x ≠ g.made := by intro x; omega
  have hlt : ∀ x, v.mine x = true → x < g.made := fun x h => mine_lt hf hb h
  refine ⟨?_, ?_, fun o l h => Nat.lt_succ_of_lt (hf.objs o l h), ?_, ?_, ?_, hf.names, ?_, hf.apart⟩
  · intro x h
    simp only [Spec.Retain.make, change, if_neg (hne x (hlt x h))]
    exact hf.held x h
  · intro x d' h
    obtain ⟨h1, h2⟩ := hf.vals x d' h
    exact ⟨by rw [if_neg (hne x h2)]; exact h1, by show x < g.made + 1; omega⟩
  · intro x h
    simp only [Spec.Retain.make, change, if_neg (hne x (hlt x h.1))]
    exact hf.kindv x h
  · intro o l h
    simp only [Spec.Retain.make, change, if_neg (hne o (hlt o h.1))]
    exact hf.kindo o l h
  · intro o l h
    have h1 := hf.lists o l h
    have h2 := seg_lt hf hi hb h
    have h3 : (Spec.Retain.make g k name none).link o .properties = g.link o .properties := by
      simp only [Spec.Retain.make, change, if_neg (hne o (hlt o h.1))]
    rw [h3]
    refine Retain.seg_same h1 fun e he => ?_
    simp only [Spec.Retain.make, change, if_neg (hne _ (h2 e he))]
    exact ⟨trivial, trivial, trivial⟩
  · intro o l h
    refine matches_mono (hf.fits o l h) (is_mono ?_ ?_ ?_)
    · show g.made ≤ g.made + 1; omega
    · intro a ha; rw [if_neg (hne a ha)]
    · intro a ha; rw [if_neg (hne a ha)]

theorem made_mono : ∀ (ops : List Retain.Op) (g : Graph), g.made ≤ (ops.foldl effect g).made := by
  intro ops
  induction ops with
  | nil => intro g; exact Nat.le_refl _
  | cons op ops ih =>
    intro g
    refine Nat.le_trans ?_ (ih _)
    cases op <;> first | exact Nat.le_refl _ | exact Nat.le_succ _

/-- Setting the value `a` under a name of an object. -/
theorem put_fit {v data g ent owner} {h : Retain.State} (hf : Fit v data g ent owner) (hi : Inv g h []) (hb : Bounded g)
    {o a : Nat} {l : List (Bytes × Held)} (nm : Bytes) {x : Held} (ho : Has v o l) (ha : 0 < g.holds a)
    (hak : g.kind a = .value) (hx : Is v data g.made owner o nm x (some a)) :
    ∃ h' g' ent', Retain.setPropertyValue h o nm a = .ok h' ∧ Inv g' h' [] ∧ Bounded g' ∧
      (∀ y, g'.holds y = g.holds y) ∧ g.made ≤ g'.made ∧ Fit (v.put o nm x) data g' ent' owner := by
  have hro := hf.held o ho.1
  obtain ⟨h', h1, h2⟩ := Retain.set_map nm hi hb hro (hf.kindo o l ho) ha hak
    ((Retain.lists_iff hi (.held hro) _).2 (hf.lists o l ho))
  obtain ⟨⟨ops, c1, c2, c3, c4, c5⟩, es', e1, e2, e3⟩ := h2
  obtain ⟨h'', r1, i1, b1⟩ := Retain.run_inv ops hi hb c1
  rw [c2] at r1
  cases r1
  generalize hg' : ops.foldl effect g = g' at i1 b1 c3 c4 c5
  have hmade : g.made ≤ g'.made := by rw [← hg']; exact made_mono ops g
  have hput : v.put o nm x = { v with objects := change v.objects o (some (upsert l nm x)) } := by
    simp only [Sheet.put, ho.2]
  have hlt : ∀ y, v.mine y = true → y < g.made := fun y hy => mine_lt hf hb hy
  have old : ∀ q m, Has (v.put o nm x) q m → q ≠ o → Has v q m := by
    intro q m hq hqo
    rw [hput] at hq
    refine ⟨hq.1, ?_⟩
    have := hq.2
    simpa [change, hqo] using this
  have self : ∀ m, Has (v.put o nm x) o m → m = upsert l nm x := by
    intro m hq
    rw [hput] at hq
    have := hq.2
    simpa [change] using this.symm
  have vs : (v.put o nm x).values = v.values := by rw [hput]
  have mn : (v.put o nm x).mine = v.mine := by rw [hput]
  have isv : ∀ q n y b, Is v data g.made owner q n y b → Is (v.put o nm x) data g'.made owner q n y b := by
    intro q n y b hy
    have := is_mono (v := v) (data' := data) (owner' := owner) (o := q) hmade (fun _ _ => rfl) (fun _ _ => rfl) n y b hy
    cases y with
    | own d => cases b with
      | none => exact this
      | some b => exact ⟨this.1, by rw [vs]; exact this.2.1, this.2.2⟩
    | shared z => cases b with
      | none => exact this
      | some b => exact ⟨this.1, by rw [vs]; exact this.2⟩
  have hso := (Retain.lists_iff i1 (.held (by rw [c3]; exact hro)) _).1 e1
  refine ⟨h', g', fun q => if q = o then es' else ent q, h1, i1, b1, c3, hmade, ?_⟩
  have keep : ∀ q m, Has v q m → q ≠ o → ∀ f ∈ ent q, f.prop ∉ (ent o).map (·.prop) ∧ f.prop ≠ g.made ∧ f.prop ≠ o := by
    intro q m hq hqo f hfm
    refine ⟨?_, ?_, ?_⟩
    · intro hm
      obtain ⟨e, he, h3⟩ := List.mem_map.1 hm
      exact hf.apart o l q m ho hq (fun h => hqo h.symm) e he f hfm h3
    · have := seg_lt hf hi hb hq f hfm
      omega
    · intro h3
      have h4 := Retain.seg_kind hi.fits (hf.lists q m hq) (fun p hp => (hi.fits _ _ _ hp).1) f hfm
      rw [h3, hf.kindo o l ho] at h4
      cases h4
  refine ⟨?_, ?_, ?_, ?_, ?_, ?_, ?_, ?_, ?_⟩
  rotate_left 2
  · intro q m hq
    by_cases hqo : q = o
    · subst hqo
      exact Nat.lt_of_lt_of_le (hlt q ho.1) hmade
    · rw [hput] at hq
      exact Nat.lt_of_lt_of_le (hf.objs q m (by simpa [change, hqo] using hq)) hmade
  rotate_left 6
  · intro y hy
    rw [mn] at hy
    rw [c3]
    exact hf.held y hy
  · intro y d hy
    rw [vs] at hy
    obtain ⟨h3, h4⟩ := hf.vals y d hy
    exact ⟨h3, by omega⟩
  · intro y hy
    have hy' : v.value y := by rw [Sheet.value, vs, mn] at hy; exact hy
    rw [(c4 y (hlt y hy'.1)).1]
    exact hf.kindv y hy'
  · intro q m hq
    by_cases hqo : q = o
    · subst hqo
      rw [(c4 q (hlt q ho.1)).1]
      exact hf.kindo q l ho
    · have := old q m hq hqo
      rw [(c4 q (hlt q this.1)).1]
      exact hf.kindo q m this
  · intro q m hq
    by_cases hqo : q = o
    · subst hqo
      rw [if_pos rfl]
      exact hso
    · have hq' := old q m hq hqo
      rw [if_neg hqo]
      have hqe : q ∉ (ent o).map (·.prop) := by
        intro hm
        obtain ⟨e, he, h3⟩ := List.mem_map.1 hm
        have h4 := Retain.seg_kind hi.fits (hf.lists o l ho) (fun p hp => (hi.fits _ _ _ hp).1) e he
        rw [h3, hf.kindo q m hq'] at h4
        cases h4
      have hql := hlt q hq'.1
      rw [c5 q _ hql (by omega) hqe hqo]
      refine Retain.seg_same (hf.lists q m hq') fun f hfm => ?_
      obtain ⟨k1, k2, k3⟩ := keep q m hq' hqo f hfm
      have hfl := seg_lt hf hi hb hq' f hfm
      exact ⟨(c4 _ hfl).2, c5 _ _ hfl k2 k1 k3, c5 _ _ hfl k2 k1 k3⟩
  · intro q m hq
    by_cases hqo : q = o
    · subst hqo
      rw [self m hq]
      exact (upsert_names nm x l (hf.names q l ho)).1
    · exact hf.names q m (old q m hq hqo)
  · intro q m hq
    by_cases hqo : q = o
    · subst hqo
      rw [self m hq, if_pos rfl, e2]
      exact matches_upsert (hf.fits q l ho) (hf.names q l ho) (fun n y b _ => isv q n y b) (isv q nm x (some a) hx)
    · rw [if_neg hqo]
      exact matches_mono (hf.fits q m (old q m hq hqo)) (isv q)
  · intro q m r k hq hr hqr e he f hfm
    by_cases hqo : q = o
    · subst hqo
      rw [if_pos rfl] at he
      rw [if_neg (fun h => hqr h.symm)] at hfm
      have hr' := old r k hr (fun h => hqr h.symm)
      obtain ⟨k1, k2, k3⟩ := keep r k hr' (fun h => hqr h.symm) f hfm
      rcases e3 e he with h3 | h3
      · rw [h3]; exact fun h => k2 h.symm
      · exact fun h => k1 (h ▸ h3)
    · rw [if_neg hqo] at he
      have hq' := old q m hq hqo
      by_cases hro : r = o
      · subst hro
        rw [if_pos rfl] at hfm
        obtain ⟨k1, k2, k3⟩ := keep q m hq' hqo e he
        rcases e3 f hfm with h3 | h3
        · rw [h3]; exact k2
        · exact fun h => k1 (h ▸ h3)
      · rw [if_neg hro] at hfm
        exact hf.apart q m r k hq' (old r k hr hro) hqr e he f hfm

/-- What is found in an object. -/
theorem find_fit {v data g ent owner} {h : Retain.State} (hf : Fit v data g ent owner) (hi : Inv g h []) (hb : Bounded g)
    {o : Nat} {l : List (Bytes × Held)} (nm : Bytes) (ho : Has v o l) :
    (v.under o nm = none ∧ Retain.getProperty h o nm = .ok none ∧ Retain.getPropertyValue h o nm = .ok none) ∨
    ∃ x p n a m, v.under o nm = some x ∧ Retain.getProperty h o nm = .ok (some p) ∧ h.node p = some n ∧
      n.link .value = some a ∧ h.node a = some m ∧ Retain.getPropertyValue h o nm = .ok (some a) ∧
      ((asMap (ent o)).find? fun y => y.1 = nm) = some (nm, some a) ∧ Is v data g.made owner o nm x (some a) := by
  have hro := hf.held o ho.1
  have hseg := hf.lists o l ho
  obtain ⟨n0, hn0, hch⟩ := (Retain.lists_iff hi (.held hro) _).2 hseg
  have hlen := Retain.seg_length hb hi.fits hseg (fun p hp => .link (.held hro) hp)
  have hget : Retain.getProperty h o nm = .ok (((ent o).find? fun e => e.name = nm).map (·.prop)) := by
    simp only [Retain.getProperty, Retain.get_ok hn0, Res.ok_bind]
    exact Retain.find_chain nm (h.next + 1) hch (by rw [hi.made]; omega)
  have hmap : ((asMap (ent o)).find? fun y => y.1 = nm) = ((ent o).find? fun e => e.name = nm).map fun e => (e.name, e.value) := by
    rw [asMap, List.find?_map]
    rfl
  have hunder : v.under o nm = (l.find? fun x => x.1 = nm).map (·.2) := by
    simp only [Sheet.under, ho.2]
  rcases matches_find (nm := nm) (hf.fits o l ho) with ⟨h1, h2⟩ | ⟨x, a, h1, h2, h3⟩
  · left
    rw [hmap, Option.map_eq_none_iff] at h2
    rw [h2] at hget
    refine ⟨by rw [hunder, h1]; rfl, hget, ?_⟩
    simp only [Retain.getPropertyValue, hget, Option.map_none, Res.ok_bind]
    rfl
  · right
    cases a with
    | none => cases x <;> exact h3.elim
    | some a =>
      have h2' := h2
      rw [hmap, Option.map_eq_some_iff] at h2
      obtain ⟨e, he, he2⟩ := h2
      have hem := List.mem_of_find?_eq_some he
      rw [he] at hget
      have hre := (Retain.seg_reach hseg (fun p hp => .link (.held hro) hp)).1 e hem
      obtain ⟨n, hn⟩ := Retain.reach_alive hi hre
      have hlink : g.link e.prop .value = e.value := by
        clear hget he he2 hre hn h3 h2' hch hlen hmap hunder h1
        generalize g.link o .properties = t at hseg
        generalize hes : ent o = es at hseg hem
        clear hes
        induction es generalizing t with
        | nil => cases hem
        | cons e' es ih =>
          cases hseg with
          | cons q1 q2 =>
            rcases List.mem_cons.1 hem with rfl | hem
            · rfl
            · exact ih _ q2 hem
      have hev : e.value = some a := by simpa using congrArg (·.2) he2
      have hnl : n.link .value = some a := by
        rw [(hi.agree _ n hn).2.2.2, hlink, hev]
      have hra : Verif.Spec.Retain.Reach g a := .link hre (k := .value) (by rw [hlink, hev])
      obtain ⟨m, hm⟩ := Retain.reach_alive hi hra
      refine ⟨x, e.prop, n, a, m, by rw [hunder, h1]; rfl, hget, hn, hnl, hm, ?_, h2', h3⟩
      simp only [Retain.getPropertyValue, hget, Option.map_some, Res.ok_bind, Retain.get_ok hn]
      show Res.ok (n.link .value) = _
      rw [hnl]

/-- Releasing something that the sheet will no longer call mine. -/
theorem fit_release {v v' data g ent owner} {x : Nat} (hf : Fit v data g ent owner)
    (hm : ∀ y, v'.mine y = true → v.mine y = true ∧ y ≠ x) (ho : v'.objects = v.objects) (hv : v'.values = v.values) :
    Fit v' data (effect g (.release x)) ent owner := by
  have has : ∀ o l, Has v' o l → Has v o l := fun o l h => ⟨(hm o h.1).1, by rw [← ho]; exact h.2⟩
  have isv : ∀ o n y b, Is v data g.made owner o n y b → Is v' data g.made owner o n y b := by
    intro o n y b h
    cases y with
    | own d => cases b with
      | none => exact h
      | some b => exact ⟨h.1, by rw [hv]; exact h.2.1, h.2.2⟩
    | shared z => cases b with
      | none => exact h
      | some b => exact ⟨h.1, by rw [hv]; exact h.2⟩
  refine ⟨?_, ?_, ?_, ?_, ?_, ?_, ?_, ?_, ?_⟩
  · intro y hy
    obtain ⟨h1, h2⟩ := hm y hy
    simp only [effect, change, if_neg h2]
    exact hf.held y h1
  · intro y d hy
    rw [hv] at hy
    exact hf.vals y d hy
  · intro o l h
    rw [ho] at h
    exact hf.objs o l h
  · intro y hy
    exact hf.kindv y ⟨(hm y hy.1).1, by rw [← hv]; exact hy.2⟩
  · intro o l h; exact hf.kindo o l (has o l h)
  · intro o l h
    exact Retain.seg_same (hf.lists o l (has o l h)) fun _ _ => ⟨rfl, rfl, rfl⟩
  · intro o l h; exact hf.names o l (has o l h)
  · intro o l h; exact matches_mono (hf.fits o l (has o l h)) (isv o)
  · intro o l q m h1 h2; exact hf.apart o l q m (has o l h1) (has q m h2)

theorem getEx_answer {v : Sheet} {o : Nat} {nm : Bytes} {t : Ty} {x : Held} (h : v.under o nm = some x) :
    answer v o nm t = getEx (v.data x) t := by
  simp only [answer, h]
  cases v.data x <;> cases t <;> rfl

theorem data_is {v data g ent owner} {o a : Nat} {nm : Bytes} {x : Held} (hf : Fit v data g ent owner)
    (h : Is v data g.made owner o nm x (some a)) : v.data x = data a := by
  cases x with
  | own d => exact h.1.symm
  | shared y =>
    obtain ⟨rfl, h2⟩ := h
    obtain ⟨d, hd⟩ := Option.isSome_iff_exists.1 h2
    simp only [Sheet.data, hd, Option.getD_some]
    exact (hf.vals _ _ hd).1.symm

/-- Other data at an address. -/
theorem fit_data {v v' data g ent owner} {a : Nat} {d : Scalar} (hf : Fit v data g ent owner) (hm : v'.mine = v.mine)
    (ho : v'.objects = v.objects) (hv : v'.values = change v.values a (some d)) (hs : (v.values a).isSome = true) :
    Fit v' (fun x => if x = a then d else data x) g ent owner := by
  have has : ∀ o l, Has v' o l → Has v o l := fun o l h => ⟨by rw [← hm]; exact h.1, by rw [← ho]; exact h.2⟩
  have hsome : ∀ z, (v.values z).isSome = true → (v'.values z).isSome = true := by
    intro z hz
    rw [hv]
    by_cases h : z = a <;> simp [change, h, hz]
  have isv : ∀ o n y b, Is v data g.made owner o n y b → Is v' (fun x => if x = a then d else data x) g.made owner o n y b := by
    intro o n y b h
    cases y with
    | own d' => cases b with
      | none => exact h
      | some b =>
        obtain ⟨h1, h2, h3⟩ := h
        have hne : b ≠ a := by rintro rfl; rw [h2] at hs; cases hs
        refine ⟨(if_neg hne).trans h1, ?_, h3⟩
        rw [hv]
        simp only [change, if_neg hne]
        exact h2
    | shared z => cases b with
      | none => exact h
      | some b => exact ⟨h.1, hsome z h.2⟩
  obtain ⟨d0, hd0⟩ := Option.isSome_iff_exists.1 hs
  refine ⟨?_, ?_, ?_, ?_, ?_, ?_, ?_, ?_, ?_⟩
  · intro y hy; rw [hm] at hy; exact hf.held y hy
  · intro y d' hy
    rw [hv] at hy
    by_cases h : y = a
    · subst h
      simp [change] at hy
      subst hy
      exact ⟨if_pos rfl, (hf.vals y d0 hd0).2⟩
    · simp only [change, if_neg h] at hy
      exact ⟨by rw [if_neg h]; exact (hf.vals y d' hy).1, (hf.vals y d' hy).2⟩
  · intro o l h; rw [ho] at h; exact hf.objs o l h
  · intro y hy
    refine hf.kindv y ⟨by rw [← hm]; exact hy.1, ?_⟩
    have := hy.2
    rw [hv] at this
    by_cases h : y = a
    · subst h; exact hs
    · simpa [change, h] using this
  · intro o l h; exact hf.kindo o l (has o l h)
  · intro o l h; exact hf.lists o l (has o l h)
  · intro o l h; exact hf.names o l (has o l h)
  · intro o l h; exact matches_mono (hf.fits o l (has o l h)) (isv o)
  · intro o l q m h1 h2; exact hf.apart o l q m (has o l h1) (has q m h2)

/-- Other data of a value that only an object has. -/
theorem fit_own {v data g ent owner} {o a : Nat} {l : List (Bytes × Held)} {nm : Bytes} {d0 d : Scalar}
    (hf : Fit v data g ent owner) (ho : Has v o l) (hx : Is v data g.made owner o nm (.own d0) (some a))
    (hfind : ((asMap (ent o)).find? fun y => y.1 = nm) = some (nm, some a)) :
    Fit (v.put o nm (.own d)) (fun x => if x = a then d else data x) g ent owner := by
  obtain ⟨x1, x2, x3, x4⟩ := hx
  have hput : v.put o nm (.own d) = { v with objects := change v.objects o (some (upsert l nm (.own d))) } := by
    simp only [Sheet.put, ho.2]
  have vs : (v.put o nm (.own d)).values = v.values := by rw [hput]
  have mn : (v.put o nm (.own d)).mine = v.mine := by rw [hput]
  have old : ∀ q m, Has (v.put o nm (.own d)) q m → q ≠ o → Has v q m := by
    intro q m hq hqo
    rw [hput] at hq
    refine ⟨hq.1, ?_⟩
    have := hq.2
    simpa [change, hqo] using this
  have self : ∀ m, Has (v.put o nm (.own d)) o m → m = upsert l nm (.own d) := by
    intro m hq
    rw [hput] at hq
    have := hq.2
    simpa [change] using this.symm
  have any : ∀ q m, Has (v.put o nm (.own d)) q m → ∃ m', Has v q m' := by
    intro q m hq
    by_cases hqo : q = o
    · exact ⟨l, hqo ▸ ho⟩
    · exact ⟨m, old q m hq hqo⟩
  have isv : ∀ q n y b, (q, n) ≠ (o, nm) → Is v data g.made owner q n y b →
      Is (v.put o nm (.own d)) (fun x => if x = a then d else data x) g.made owner q n y b := by
    intro q n y b hne h
    cases y with
    | own d' => cases b with
      | none => exact h
      | some b =>
        obtain ⟨h1, h2, h3, h4⟩ := h
        have hba : b ≠ a := by rintro rfl; rw [x4] at h4; exact hne h4.symm
        exact ⟨(if_neg hba).trans h1, by rw [vs]; exact h2, h3, h4⟩
    | shared z => cases b with
      | none => exact h
      | some b => exact ⟨h.1, by rw [vs]; exact h.2⟩
  refine ⟨?_, ?_, ?_, ?_, ?_, ?_, ?_, ?_, ?_⟩
  · intro y hy; rw [mn] at hy; exact hf.held y hy
  · intro y d' hy
    rw [vs] at hy
    have hne : y ≠ a := by rintro rfl; rw [x2] at hy; cases hy
    exact ⟨by rw [if_neg hne]; exact (hf.vals y d' hy).1, (hf.vals y d' hy).2⟩
  · intro q m hq
    by_cases hqo : q = o
    · subst hqo; exact hf.objs q l ho.2
    · rw [hput] at hq
      exact hf.objs q m (by simpa [change, hqo] using hq)
  · intro y hy
    rw [Sheet.value, vs, mn] at hy
    exact hf.kindv y hy
  · intro q m hq; obtain ⟨m', h⟩ := any q m hq; exact hf.kindo q m' h
  · intro q m hq; obtain ⟨m', h⟩ := any q m hq; exact hf.lists q m' h
  · intro q m hq
    by_cases hqo : q = o
    · subst hqo
      rw [self m hq]
      exact (upsert_names nm (.own d) l (hf.names q l ho)).1
    · exact hf.names q m (old q m hq hqo)
  · intro q m hq
    by_cases hqo : q = o
    · subst hqo
      rw [self m hq]
      refine matches_replace (hf.fits q l ho) (hf.names q l ho) (fun n y b hn => isv q n y b (fun h => hn (by cases h; rfl))) ?_ hfind
      exact ⟨if_pos rfl, by rw [vs]; exact x2, x3, x4⟩
    · refine matches_mono (hf.fits q m (old q m hq hqo)) fun n y b => isv q n y b (fun h => hqo (by cases h; rfl))
  · intro q m r k hq hr
    obtain ⟨m', h1⟩ := any q m hq
    obtain ⟨k', h2⟩ := any r k hr
    exact hf.apart q m' r k' h1 h2

theorem has_of {v : Sheet} {o : Nat} (h : v.object o) : ∃ l, Has v o l := by
  obtain ⟨l, hl⟩ := Option.isSome_iff_exists.1 h.2
  exact ⟨l, h.1, hl⟩

/-- A new value under a name. -/
theorem set_fit {v data g ent owner} {h : Retain.State} (hf : Fit v data g ent owner) (hi : Inv g h []) (hb : Bounded g)
    {o : Nat} {l : List (Bytes × Held)} (nm : Bytes) (d : Scalar) (ho : Has v o l) :
    ∃ h' h'', Retain.setPropertyValue (Retain.alloc h .value none) o nm h.next = .ok h' ∧ Retain.release h' h.next = .ok h'' ∧
      Rel (v.put o nm (.own d)) ⟨h'', fun x => if x = h.next then d else data x⟩ := by
  obtain ⟨_, e1, i1, b1⟩ := Retain.step_inv (op := .newValue) hi hb trivial
  cases e1
  have f1 := fit_make hf hi hb .value none d (o, nm)
  have hm := hi.made
  have ha : 0 < (effect g .newValue).holds g.made := by simp [effect, Spec.Retain.make, change]
  have hk : (effect g .newValue).kind g.made = .value := by simp [effect, Spec.Retain.make, change]
  have hx : Is v (fun x => if x = g.made then d else data x) (effect g .newValue).made
      (fun x => if x = g.made then (o, nm) else owner x) o nm (.own d) (some g.made) := by
    refine ⟨if_pos rfl, ?_, Nat.lt_succ_self _, if_pos rfl⟩
    cases hv : v.values g.made with
    | none => rfl
    | some d' => have := (hf.vals _ _ hv).2; omega
  obtain ⟨h', g', ent', p1, p2, p3, p4, p5, p6⟩ := put_fit f1 i1 b1 nm ho ha hk hx
  have hal : Spec.Retain.Allowed g' (.release g.made) := by show 0 < g'.holds _; rw [p4]; exact ha
  obtain ⟨h'', q1, q2, q3⟩ := Retain.step_inv (op := .release g.made) p2 p3 hal
  rw [hm]
  refine ⟨h', h'', p1, q1, ⟨effect g' (.release g.made), ent', (fun x => if x = g.made then (o, nm) else owner x), q2, q3, ?_⟩⟩
  refine fit_release p6 (fun y hy => ⟨hy, ?_⟩) rfl rfl
  have hmn : (v.put o nm (.own d)).mine = v.mine := by simp only [Sheet.put, ho.2]
  rw [hmn] at hy
  have := mine_lt hf hb hy
  omega

/-- One allowed call. -/
theorem step_rel {v : Sheet} {s : State} (hr : Rel v s) {e : Event} (ha : Allowed v e) :
    ∃ s' out, step s e = .ok (s', out) ∧ Rel (note v (e, out)) s' ∧
      (match told v e with
        | some w => out = w
        | none => ∃ x, out = .made x ∧ Unused v x) := by
  obtain ⟨g, ent, owner, hi, hb, hf⟩ := hr
  have hm := hi.made
  have unused : Unused v s.heap.next := by
    refine ⟨?_, ?_, ?_⟩
    · cases h : v.objects s.heap.next with
      | none => rfl
      | some l => have := hf.objs _ _ h; omega
    · cases h : v.values s.heap.next with
      | none => rfl
      | some l => have := (hf.vals _ _ h).2; omega
    · cases h : v.mine s.heap.next with
      | false => rfl
      | true => have := mine_lt hf hb h; omega
  cases e with
  | newObject name =>
    obtain ⟨_, e1, i1, b1⟩ := Retain.step_inv (op := .newObject name) hi hb trivial
    cases e1
    refine ⟨_, _, rfl, ⟨_, fun q => if q = g.made then [] else ent q, (fun x => if x = g.made then (0, []) else owner x), i1, b1, ?_⟩, ⟨_, rfl, unused⟩⟩
    have f1 := fit_make hf hi hb .object name (s.data g.made) (0, [])
    have hd : (fun x => if x = g.made then s.data g.made else s.data x) = s.data := by
      funext x; split
      · rename_i h; rw [h]
      · rfl
    rw [hd] at f1
    have old : ∀ q m, Has (note v (.newObject name, .made s.heap.next)) q m → q ≠ g.made → Has v q m := by
      intro q m hq hne
      have h1 := hq.1
      have h2 := hq.2
      simp only [note, change, hm, if_neg hne] at h1 h2
      exact ⟨h1, h2⟩
    have self : ∀ m, Has (note v (.newObject name, .made s.heap.next)) g.made m → m = [] := by
      intro m hq
      have h2 := hq.2
      simp only [note, change, hm, if_true] at h2
      cases h2
      rfl
    refine ⟨?_, f1.vals, ?_, ?_, ?_, ?_, ?_, ?_, ?_⟩
    · intro x hx
      by_cases h : x = g.made
      · subst h; simp [effect, Spec.Retain.make, change]
      · simp only [note, change, hm, if_neg h] at hx
        exact f1.held x hx
    · intro q m hq
      by_cases h : q = g.made
      · rw [h]; exact Nat.lt_succ_self _
      · simp only [note, change, hm, if_neg h] at hq
        exact f1.objs q m hq
    · intro x hx
      have h : x ≠ g.made := by
        rintro rfl
        have := hx.2
        rw [← hm] at this
        simp only [note] at this
        rw [unused.2.1] at this
        cases this
      have h1 := hx.1
      simp only [note, change, hm, if_neg h] at h1
      exact f1.kindv x ⟨h1, hx.2⟩
    · intro q m hq
      by_cases h : q = g.made
      · subst h; simp [effect, Spec.Retain.make, change]
      · exact f1.kindo q m (old q m hq h)
    · intro q m hq
      by_cases h : q = g.made
      · subst h
        rw [if_pos rfl]
        have : (effect g (.newObject name)).link g.made .properties = none := by
          simp [effect, Spec.Retain.make, change]
        rw [this]
        exact .nil
      · rw [if_neg h]; exact f1.lists q m (old q m hq h)
    · intro q m hq
      by_cases h : q = g.made
      · subst h; rw [self m hq]; simp
      · exact f1.names q m (old q m hq h)
    · intro q m hq
      by_cases h : q = g.made
      · subst h
        rw [self m hq, if_pos rfl]
        trivial
      · rw [if_neg h]; exact f1.fits q m (old q m hq h)
    · intro q m r k hq hr hqr e he f hfm
      by_cases h : q = g.made
      · rw [if_pos h] at he; cases he
      · by_cases h' : r = g.made
        · rw [if_pos h'] at hfm; cases hfm
        · rw [if_neg h] at he
          rw [if_neg h'] at hfm
          exact f1.apart q m r k (old q m hq h) (old r k hr h') hqr e he f hfm
  | newValue d =>
    obtain ⟨_, e1, i1, b1⟩ := Retain.step_inv (op := .newValue) hi hb trivial
    cases e1
    refine ⟨_, _, rfl, ⟨_, ent, (fun x => if x = g.made then (0, []) else owner x), i1, b1, ?_⟩, ⟨_, rfl, unused⟩⟩
    have f1 := fit_make hf hi hb .value none d (0, [])
    have hdd : (newValue s d).data = fun x => if x = g.made then d else s.data x := by
      simp only [newValue, hm]
    rw [hdd]
    have hval : ∀ y, (note v (.newValue d, .made s.heap.next)).values y = if y = g.made then some d else v.values y := by
      intro y; simp only [note, change, hm]
    have old : ∀ q m, Has (note v (.newValue d, .made s.heap.next)) q m → Has v q m := by
      intro q m hq
      have h1 := hq.1
      have h2 : v.objects q = some m := hq.2
      have h3 := hf.objs q m h2
      simp only [note, change, hm, if_neg (by omega : ¬ q = g.made)] at h1
      exact ⟨h1, h2⟩
    have isv : ∀ o n y b, Is v (fun x => if x = g.made then d else s.data x) (g.made + 1) (fun x => if x = g.made then (0, []) else owner x) o n y b →
        Is v s.data g.made owner o n y b →
        Is (note v (.newValue d, .made s.heap.next)) (fun x => if x = g.made then d else s.data x) (g.made + 1) (fun x => if x = g.made then (0, []) else owner x) o n y b := by
      intro o n y b h h0
      cases y with
      | own d' => cases b with
        | none => exact h
        | some b =>
          have hb' := h0.2.2.1
          exact ⟨h.1, by rw [hval, if_neg (by omega)]; exact h.2.1, h.2.2⟩
      | shared z => cases b with
        | none => exact h
        | some b =>
          refine ⟨h.1, ?_⟩
          rw [hval]
          split
          · rfl
          · exact h.2
    refine ⟨?_, ?_, f1.objs, ?_, ?_, ?_, ?_, ?_, ?_⟩
    · intro x hx
      by_cases h : x = g.made
      · subst h; simp [effect, Spec.Retain.make, change]
      · simp only [note, change, hm, if_neg h] at hx
        exact f1.held x hx
    · intro y d' hy
      rw [hval] at hy
      by_cases h : y = g.made
      · rw [if_pos h] at hy ⊢
        cases hy
        exact ⟨rfl, by rw [h]; exact Nat.lt_succ_self _⟩
      · rw [if_neg h] at hy
        exact f1.vals y d' hy
    · intro x hx
      by_cases h : x = g.made
      · subst h; simp [effect, Spec.Retain.make, change]
      · have h1 := hx.1
        have h2 := hx.2
        rw [hval, if_neg h] at h2
        simp only [note, change, hm, if_neg h] at h1
        exact f1.kindv x ⟨h1, h2⟩
    · intro q m hq; exact f1.kindo q m (old q m hq)
    · intro q m hq; exact f1.lists q m (old q m hq)
    · intro q m hq; exact f1.names q m (old q m hq)
    · intro q m hq
      refine matches_mono (hf.fits q m (old q m hq)) fun n y b h => isv q n y b ?_ h
      exact is_mono (Nat.le_succ _) (fun a ha => if_neg (by omega)) (fun a ha => if_neg (by omega)) n y b h
    · intro q m r k hq hr; exact f1.apart q m r k (old q m hq) (old r k hr)
  | release x =>
    have hal : Spec.Retain.Allowed g (.release x) := hf.held x ha
    obtain ⟨h', q1, q2, q3⟩ := Retain.step_inv (op := .release x) hi hb hal
    have q1' : Retain.release s.heap x = .ok h' := q1
    refine ⟨_, _, by simp only [step, q1', Res.ok_bind]; rfl, ⟨_, ent, owner, q2, q3, ?_⟩, rfl⟩
    refine fit_release hf (fun y hy => ?_) rfl rfl
    simp only [note, change] at hy
    by_cases h : y = x
    · rw [if_pos h] at hy; cases hy
    · rw [if_neg h] at hy; exact ⟨hy, h⟩
  | change x d =>
    obtain ⟨n, hn⟩ := Retain.reach_alive hi (.held (hf.held x ha.1))
    refine ⟨{ s with data := fun y => if y = x then d else s.data y }, .done, by simp only [step, setData, Retain.get_ok hn, Res.ok_bind, Res.pure_eq], ⟨g, ent, owner, hi, hb, ?_⟩, rfl⟩
    exact fit_data hf rfl rfl rfl ha.2
  | setTyped o nm d =>
    obtain ⟨l, ho⟩ := has_of ha
    obtain ⟨h', h'', p1, p2, p3⟩ := set_fit hf hi hb nm d ho
    refine ⟨⟨h'', fun x => if x = s.heap.next then d else s.data x⟩, .done, by simp only [step, setTyped, newValue, p1, p2, Res.ok_bind, Res.pure_eq], p3, rfl⟩
  | setValue o nm x =>
    obtain ⟨l, ho⟩ := has_of ha.1
    obtain ⟨h', g', ent', p1, p2, p3, p4, p5, p6⟩ := put_fit hf hi hb nm ho (hf.held x ha.2.1) (hf.kindv x ha.2)
      (x := .shared x) ⟨rfl, ha.2.2⟩
    exact ⟨{ s with heap := h' }, .done, by simp only [step, setValue, p1, Res.ok_bind, Res.pure_eq], ⟨g', ent', owner, p2, p3, p6⟩, rfl⟩
  | setAt o nm d =>
    obtain ⟨l, ho⟩ := has_of ha
    rcases find_fit hf hi hb nm ho with ⟨h1, h2, _⟩ | ⟨x, p, n, a, m, h1, h2, _⟩
    · refine ⟨s, .there false, by simp only [step, setAt, h2, Res.ok_bind]; rfl, ?_, ?_⟩
      · simp only [note, h1]; exact ⟨g, ent, owner, hi, hb, hf⟩
      · simp only [told, h1]; rfl
    · obtain ⟨h', h'', p1, p2, p3⟩ := set_fit hf hi hb nm d ho
      have p1' : Retain.assign (Retain.alloc s.heap .value none) p .value (some s.heap.next) = .ok h' := by
        obtain ⟨_, e1, i1, b1⟩ := Retain.step_inv (op := .newValue) hi hb trivial
        cases e1
        rcases find_fit (fit_make hf hi hb .value none d (0, [])) i1 b1 nm ho with ⟨h3, _⟩ | ⟨x', p', n', a', m', h3, h4, _⟩
        · rw [h1] at h3; cases h3
        · have hpp : p' = p := by
            have hl1 := hf.lists o l ho
            have hro := hf.held o ho.1
            have hro1 := (fit_make hf hi hb .value none d (0, [])).held o ho.1
            obtain ⟨n0, hn0, hch⟩ := (Retain.lists_iff hi (.held hro) _).2 hl1
            obtain ⟨n1, hn1, hch1⟩ := (Retain.lists_iff i1 (.held hro1) _).2 ((fit_make hf hi hb .value none d (0, [])).lists o l ho)
            have hlen := Retain.seg_length hb hi.fits hl1 (fun p hp => .link (.held hro) hp)
            simp only [Retain.getProperty, Retain.get_ok hn0, Res.ok_bind] at h2
            rw [Retain.find_chain nm (s.heap.next + 1) hch (by rw [hi.made]; omega)] at h2
            have hn1' : (Retain.alloc s.heap .value none).node o = some n1 := hn1
            simp only [Retain.getProperty, Retain.get_ok hn1', Res.ok_bind] at h4
            rw [Retain.find_chain nm _ hch1 (by show _ ≤ s.heap.next + 1 + 1; rw [hi.made]; omega)] at h4
            rw [h2] at h4
            cases h4
            rfl
          subst hpp
          simp only [Retain.setPropertyValue, h4, Res.ok_bind] at p1
          exact p1
      refine ⟨_, .there true, by simp only [step, setAt, h2, newValue, p1', p2, Res.ok_bind]; rfl, ?_, ?_⟩
      · simp only [note, h1]; exact p3
      · simp only [told, h1]; rfl
  | changeAt o nm d =>
    obtain ⟨l, ho⟩ := has_of ha
    rcases find_fit hf hi hb nm ho with ⟨h1, _, h2⟩ | ⟨x, p, n, a, m, h1, _, _, _, h5, h6, h7, h8⟩
    · refine ⟨s, .there false, by simp only [step, changeAt, h2, Res.ok_bind]; rfl, ?_, ?_⟩
      · simp only [note, h1]; exact ⟨g, ent, owner, hi, hb, hf⟩
      · simp only [told, h1]; rfl
    · refine ⟨_, .there true, by simp only [step, changeAt, h6, setData, Retain.get_ok h5, Res.ok_bind]; rfl, ?_, ?_⟩
      · refine ⟨g, ent, owner, hi, hb, ?_⟩
        cases x with
        | own d0 =>
          simp only [note, h1]
          exact fit_own hf ho h8 h7
        | shared y =>
          obtain ⟨rfl, hs⟩ := h8
          simp only [note, h1]
          exact fit_data hf rfl rfl rfl hs
      · simp only [told, h1]; rfl
  | getTyped o nm t =>
    obtain ⟨l, ho⟩ := has_of ha
    rcases find_fit hf hi hb nm ho with ⟨h1, h2, _⟩ | ⟨x, p, n, a, m, h1, h2, h3, h4, h5, h6, h7, h8⟩
    · refine ⟨s, .got .notFound, by simp only [step, getTyped, h2, Res.ok_bind]; rfl, ⟨g, ent, owner, hi, hb, hf⟩, ?_⟩
      simp only [told, answer, h1]
    · refine ⟨s, .got (getEx (s.data a) t), by simp only [step, getTyped, h2, Retain.get_ok h3, h4, Retain.get_ok h5, Res.ok_bind]; rfl,
        ⟨g, ent, owner, hi, hb, hf⟩, ?_⟩
      simp only [told]
      rw [getEx_answer h1, data_is hf h8]
  | getAt o nm t =>
    obtain ⟨l, ho⟩ := has_of ha.1
    rcases find_fit hf hi hb nm ho with ⟨h1, h2, _⟩ | ⟨x, p, n, a, m, h1, h2, h3, h4, h5, h6, h7, h8⟩
    · refine ⟨s, .got .null, by simp only [step, propertyGetEx, h2, Res.ok_bind, if_pos (ha.2 h1)]; rfl, ⟨g, ent, owner, hi, hb, hf⟩, ?_⟩
      simp only [told, h1, if_true]
    · refine ⟨s, .got (getEx (s.data a) t), by simp only [step, propertyGetEx, h2, Retain.get_ok h3, h4, Retain.get_ok h5, Res.ok_bind]; rfl,
        ⟨g, ent, owner, hi, hb, hf⟩, ?_⟩
      simp only [told]
      rw [if_neg (by rw [h1]; simp), getEx_answer h1, data_is hf h8]

theorem rel_init : Rel Sheet.empty State.init :=
  ⟨Graph.empty, fun _ => [], fun _ => (0, []), Retain.init_inv, fun _ _ => rfl,
    ⟨fun _ h => (by cases h), fun _ _ h => (by cases h), fun _ _ h => (by cases h), fun _ h => (by cases h.1),
      fun _ _ h => (by cases h.1), fun _ _ h => (by cases h.1), fun _ _ h => (by cases h.1), fun _ _ h => (by cases h.1),
      fun _ _ _ _ h => (by cases h.1)⟩⟩

theorem sheet_snoc (h : List (Event × Out)) (x : Event × Out) : sheet (h ++ [x]) = note (sheet h) x := by
  simp [sheet, List.foldl_append]

theorem careful_prefix {h : List (Event × Out)} {x : Event × Out} (hc : Careful (h ++ [x])) :
    Careful h ∧ Allowed (sheet h) x.1 := by
  refine ⟨fun a e o b hab => hc a e o (b ++ [x]) (by rw [hab]; simp), hc h x.1 x.2 [] rfl⟩

theorem rel_exec {h : List (Event × Out)} {s : State} (hx : Exec step State.init h s) (hc : Careful h) : Rel (sheet h) s := by
  induction hx with
  | nil => exact rel_init
  | @snoc h s e o s' hx hs ih =>
    obtain ⟨h1, h2⟩ := careful_prefix hc
    obtain ⟨s1, o1, h3, h4, _⟩ := step_rel (ih h1) h2
    rw [hs] at h3
    cases h3
    rw [sheet_snoc]
    exact h4

theorem find_upsert {β : Type} (k j : Bytes) (v : β) : ∀ m : List (Bytes × β),
    ((upsert m k v).find? fun x => x.1 = j) = if j = k then some (k, v) else m.find? fun x => x.1 = j := by
  intro m
  induction m with
  | nil =>
    by_cases h : j = k
    · simp [upsert, h]
    · have : ¬ k = j := fun e => h e.symm
      simp [upsert, h, this]
  | cons p m ih =>
    obtain ⟨i, w⟩ := p
    simp only [upsert]
    by_cases hi : i = k
    · subst hi
      by_cases h : j = i
      · simp [h]
      · have : ¬ i = j := fun e => h e.symm
        simp [h, this]
    · rw [if_neg hi]
      by_cases h : j = k
      · subst h
        simp only [if_true] at ih ⊢
        simp [hi, ih]
      · rw [if_neg h] at ih ⊢
        by_cases h2 : i = j
        · simp [h2]
        · simp [h2, ih]

theorem under_put (v : Sheet) (o : Nat) (nm : Bytes) (x : Held) (q : Nat) (n : Bytes) :
    (v.put o nm x).under q n = if q = o ∧ n = nm ∧ (v.objects o).isSome = true then some x else v.under q n := by
  unfold Sheet.put
  cases ho : v.objects o with
  | none => simp
  | some l =>
    by_cases hq : q = o
    · subst hq
      simp only [Sheet.under, change, if_true, find_upsert, ho, Option.isSome_some, and_true, true_and]
      split <;> rfl
    · simp [Sheet.under, change, hq]

theorem under_elsewhere {v : Sheet} {e : Event} {out : Out} {o : Nat} {nm : Bytes} (he : Elsewhere o nm e)
    (hu : ∀ name x, e = .newObject name → out = .made x → x ≠ o) : (note v (e, out)).under o nm = v.under o nm := by
  cases e with
  | newObject name =>
    cases out with
    | made x =>
      have := hu name x rfl rfl
      simp only [note, Sheet.under, change, if_neg (fun h : o = x => this h.symm)]
    | _ => rfl
  | newValue d => cases out <;> rfl
  | release x => rfl
  | change x d => rfl
  | getTyped => cases out <;> rfl
  | getAt => cases out <;> rfl
  | setTyped q n d =>
    simp only [note, under_put]
    rw [if_neg]
    rintro ⟨h1, h2, _⟩
    exact he ⟨h1.symm, h2.symm⟩
  | setValue q n d =>
    simp only [note, under_put]
    rw [if_neg]
    rintro ⟨h1, h2, _⟩
    exact he ⟨h1.symm, h2.symm⟩
  | setAt q n d =>
    simp only [note]
    split
    · rw [under_put, if_neg]
      rintro ⟨h1, h2, _⟩
      exact he ⟨h1.symm, h2.symm⟩
    · rfl
  | changeAt q n d =>
    simp only [note]
    split
    · rw [under_put, if_neg]
      rintro ⟨h1, h2, _⟩
      exact he ⟨h1.symm, h2.symm⟩
    · rfl
    · rfl

theorem careful_app {a b : List (Event × Out)} (hc : Careful (a ++ b)) : Careful a :=
  fun a' e o b' hab => hc a' e o (b' ++ b) (by rw [hab]; simp)

/-- What is under a name stays while calls concern other things. -/
theorem under_stays {a : List (Event × Out)} {o : Nat} {nm : Bytes} {x : Held} (hu : (sheet a).under o nm = some x) :
    ∀ (n : Nat) (b : List (Event × Out)) (s : State), b.length = n → Exec step State.init (a ++ b) s → Careful (a ++ b) →
      (∀ p ∈ b, Elsewhere o nm p.1) → (sheet (a ++ b)).under o nm = some x := by
  intro n
  induction n with
  | zero =>
    intro b s hl _ _ _
    have : b = [] := List.length_eq_zero_iff.1 hl
    subst this
    simpa using hu
  | succ n ih =>
    intro b s hl hx hc he
    rcases List.eq_nil_or_concat b with rfl | ⟨b', p, rfl⟩
    · cases hl
    · rw [List.concat_eq_append] at *
      rw [← List.append_assoc] at hx hc ⊢
      obtain ⟨e, out⟩ := p
      obtain ⟨s1, s2, h1, h2⟩ := hx.at (a ++ b') e out [] rfl
      obtain ⟨c1, c2⟩ := careful_prefix hc
      have h3 := ih b' s1 (by simp at hl; omega) h1 c1 (fun p hp => he p (List.mem_append_left _ hp))
      rw [sheet_snoc, under_elsewhere (he (e, out) (by simp)) ?_, h3]
      intro name y hy hout
      subst hy hout
      obtain ⟨s3, out3, h4, _, h5⟩ := step_rel (rel_exec h1 c1) c2
      rw [h2] at h4
      cases h4
      obtain ⟨z, hz, hz2⟩ := h5
      cases hz
      rintro rfl
      simp only [Sheet.under, hz2.1] at h3
      cases h3

end Verif.Typed
