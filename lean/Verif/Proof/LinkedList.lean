import Mathlib.Data.List.Perm.Subperm
import Mathlib.Data.List.Nodup
import Verif.Spec.LinkedList

namespace Verif.LinkedList

open Verif

variable {D : Type}

/-- Address of the first item, or `n`. -/
def first : List (Nat × Option D) → Option Nat → Option Nat
  | [], n => n
  | x :: _, _ => some x.1

/-- Address of the last item, or `p`. -/
def last : List (Nat × Option D) → Option Nat → Option Nat
  | [], p => p
  | x :: r, _ => last r (some x.1)

def ids (l : List (Nat × Option D)) : List Nat := l.map (·.1)

/-- The items are linked in both directions between `p` and `n`. -/
def Seg (mem : Nat → Option (Node D)) (n : Option Nat) : Option Nat → List (Nat × Option D) → Prop
  | _, [] => True
  | p, x :: r => mem x.1 = some ⟨x.2, first r n, p⟩ ∧ Seg mem n (some x.1) r

/-- The items are linked forward, ending with NULL. -/
def Chain (mem : Nat → Option (Node D)) : List (Nat × Option D) → Prop
  | [] => True
  | x :: r => (∃ pv, mem x.1 = some ⟨x.2, first r none, pv⟩) ∧ Chain mem r

theorem first_append (a b : List (Nat × Option D)) (n : Option Nat) :
    first (a ++ b) n = first a (first b n) := by
  cases a <;> rfl

theorem last_append (a b : List (Nat × Option D)) (p : Option Nat) :
    last (a ++ b) p = last b (last a p) := by
  induction a generalizing p with
  | nil => rfl
  | cons x a ih => exact ih _

theorem seg_append {mem : Nat → Option (Node D)} {n p : Option Nat} (a b : List (Nat × Option D)) :
    Seg mem n p (a ++ b) ↔ Seg mem (first b n) p a ∧ Seg mem n (last a p) b := by
  induction a generalizing p with
  | nil => simp [Seg, last]
  | cons x a ih => simp [Seg, ih, last, first_append, and_assoc]

theorem seg_frame {mem mem' : Nat → Option (Node D)} {n p : Option Nat} {l : List (Nat × Option D)}
    (h : Seg mem n p l) (hf : ∀ i ∈ ids l, mem' i = mem i) : Seg mem' n p l := by
  induction l generalizing p with
  | nil => trivial
  | cons x l ih =>
    refine ⟨by rw [hf x.1 (by simp [ids])]; exact h.1, ih h.2 (fun i hi => hf i ?_)⟩
    simp only [ids, List.map_cons, List.mem_cons] at hi ⊢
    exact .inr hi

theorem last_mem (l : List (Nat × Option D)) (p : Option Nat) :
    (l = [] ∧ last l p = p) ∨ ∃ i ∈ ids l, ∀ p, last l p = some i := by
  induction l generalizing p with
  | nil => exact .inl ⟨rfl, rfl⟩
  | cons x l ih =>
    right
    rcases ih (some x.1) with ⟨h1, _⟩ | ⟨i, h1, h2⟩
    · subst h1
      exact ⟨x.1, by simp [ids], fun _ => rfl⟩
    · exact ⟨i, by simp only [ids, List.map_cons, List.mem_cons] at h1 ⊢; exact .inr h1, fun _ => h2 _⟩

/-- Changing the `next` of the last item only. -/
theorem seg_reNext {mem mem' : Nat → Option (Node D)} {n n' p : Option Nat} {l : List (Nat × Option D)}
    (h : Seg mem n p l) (hn : (ids l).Nodup)
    (hl : ∀ y, last l none = some y → ∀ nd, mem y = some nd → mem' y = some { nd with next := n' })
    (ho : ∀ i ∈ ids l, last l none ≠ some i → mem' i = mem i) : Seg mem' n' p l := by
  induction l generalizing p with
  | nil => trivial
  | cons x l ih =>
    simp only [ids, List.map_cons, List.nodup_cons] at hn
    cases l with
    | nil =>
      refine ⟨?_, trivial⟩
      rw [hl x.1 rfl _ h.1]
      rfl
    | cons y l =>
      have hlast : ∀ p q, last (y :: l) p = last (y :: l) q := by
        intro p q; rfl
      have h1 : last (x :: y :: l) none = last (y :: l) none := rfl
      refine ⟨?_, ih h.2 hn.2 (fun z hz => hl z (by rw [h1]; exact hz)) ?_⟩
      · rw [ho x.1 (by simp [ids]), h.1]
        · rfl
        · rw [h1]
          intro he
          rcases last_mem (y :: l) none with ⟨h2, _⟩ | ⟨i, hi, h2⟩
          · cases h2
          · rw [h2 none] at he
            simp only [Option.some.injEq] at he
            subst he
            exact hn.1 hi
      · intro i hi hne
        refine ho i ?_ (by rw [h1]; exact hne)
        simp only [ids, List.map_cons, List.mem_cons] at hi ⊢
        exact .inr hi

/-- Changing the `prev` of the first item only. -/
theorem seg_rePrev {mem mem' : Nat → Option (Node D)} {n p p' : Option Nat} {l : List (Nat × Option D)}
    (h : Seg mem n p l) (hn : (ids l).Nodup)
    (hl : ∀ y, first l none = some y → ∀ nd, mem y = some nd → mem' y = some { nd with prev := p' })
    (ho : ∀ i ∈ ids l, first l none ≠ some i → mem' i = mem i) : Seg mem' n p' l := by
  cases l with
  | nil => trivial
  | cons x l =>
    simp only [ids, List.map_cons, List.nodup_cons] at hn
    refine ⟨?_, seg_frame h.2 ?_⟩
    · rw [hl x.1 rfl _ h.1]
    · intro i hi
      refine ho i ?_ ?_
      · simp only [ids, List.map_cons, List.mem_cons] at hi ⊢
        exact .inr hi
      · simp only [first, ne_eq, Option.some.injEq]
        intro he
        subst he
        exact hn.1 hi

theorem chain_frame {mem mem' : Nat → Option (Node D)} {l : List (Nat × Option D)}
    (h : Chain mem l)
    (hf : ∀ i ∈ ids l, ∀ nd, mem i = some nd → ∃ pv, mem' i = some { nd with prev := pv }) :
    Chain mem' l := by
  induction l with
  | nil => trivial
  | cons x l ih =>
    obtain ⟨⟨pv, h1⟩, h2⟩ := h
    obtain ⟨pv', h3⟩ := hf x.1 (by simp [ids]) _ h1
    refine ⟨⟨pv', h3⟩, ih h2 (fun i hi => hf i ?_)⟩
    simp only [ids, List.map_cons, List.mem_cons] at hi ⊢
    exact .inr hi

/-- Two lists of items share no address, and none repeats. -/
def Sep (a b : List (Nat × Option D)) : Prop := (ids a).Nodup ∧ (ids b).Nodup ∧ ∀ i ∈ ids a, i ∉ ids b

/-- The heap holds the list `t.live` and the recycled items `t.free`. -/
structure Inv (s : LL D) (t : Spec D) : Prop where
  seg : Seg s.mem none none t.live
  chain : Chain s.mem t.free
  front : s.front = first t.live none
  back : s.back = last t.live none
  free : s.free = first t.free none
  size : s.size = t.live.length
  fresh : s.fresh = t.made
  sep : Sep t.live t.free
  old : ∀ i, i ∈ ids t.live ∨ i ∈ ids t.free → i < t.made

theorem get_of {s : LL D} {a : Nat} {n : Node D} (h : s.mem a = some n) : get s a = .ok n := by
  unfold get; rw [h]

theorem setNext_of {s : LL D} {a : Nat} {n : Node D} (h : s.mem a = some n) (v : Option Nat) :
    setNext s a v = .ok (put s a { n with next := v }) := by
  simp [setNext, get_of h]

theorem setPrev_of {s : LL D} {a : Nat} {n : Node D} (h : s.mem a = some n) (v : Option Nat) :
    setPrev s a v = .ok (put s a { n with prev := v }) := by
  simp [setPrev, get_of h]

theorem setData_of {s : LL D} {a : Nat} {n : Node D} (h : s.mem a = some n) (v : Option D) :
    setData s a v = .ok (put s a { n with data := v }) := by
  simp [setData, get_of h]

@[simp] theorem put_mem (s : LL D) (a : Nat) (n : Node D) (i : Nat) :
    (put s a n).mem i = if i = a then some n else s.mem i := rfl
@[simp] theorem put_front (s : LL D) (a : Nat) (n : Node D) : (put s a n).front = s.front := rfl
@[simp] theorem put_back (s : LL D) (a : Nat) (n : Node D) : (put s a n).back = s.back := rfl
@[simp] theorem put_free (s : LL D) (a : Nat) (n : Node D) : (put s a n).free = s.free := rfl
@[simp] theorem put_size (s : LL D) (a : Nat) (n : Node D) : (put s a n).size = s.size := rfl
@[simp] theorem put_fresh (s : LL D) (a : Nat) (n : Node D) : (put s a n).fresh = s.fresh := rfl

/-- Same list, up to one item in the heap. -/
structure SameBut (s s' : LL D) (x : Nat) : Prop where
  mem : ∀ i, i ≠ x → s'.mem i = s.mem i
  front : s'.front = s.front
  back : s'.back = s.back
  size : s'.size = s.size

/-- Taking an item and storing the data argument in it. -/
theorem take_item {s : LL D} {t : Spec D} (h : Inv s t) (arg : Arg D) :
    ∃ s1 s2 nd, getFreeItem s = .ok (s1, t.take.1.1) ∧ setArg s1 t.take.1.1 arg = .ok s2 ∧
      SameBut s s2 t.take.1.1 ∧ s2.free = first t.take.2.free none ∧ s2.fresh = t.take.2.made ∧
      s2.mem t.take.1.1 = some nd ∧ nd.data = argData t.take.1.2 arg ∧
      Chain s2.mem t.take.2.free ∧ t.take.2.live = t.live ∧
      t.take.1.1 ∉ ids t.live ∧ t.take.1.1 ∉ ids t.take.2.free ∧ Sep t.live t.take.2.free ∧
      t.take.1.1 < t.take.2.made ∧ (∀ i, i ∈ ids t.live ∨ i ∈ ids t.take.2.free → i < t.take.2.made) := by
  obtain ⟨live, free, made⟩ := t
  cases free with
  | nil =>
    simp only [Spec.take]
    have hfree := h.free
    have hfresh := h.fresh
    simp only [first] at hfree hfresh
    have hnl : made ∉ ids live := fun hm => by
      have := h.old made (.inl hm)
      simp at this
    have hg : getFreeItem s = .ok ({ put s made { data := none, next := none, prev := none } with
        fresh := made + 1 }, made) := by
      simp [getFreeItem, hfree, hfresh]
    cases arg with
    | reuse =>
      refine ⟨_, _, _, hg, rfl, ⟨?_, rfl, rfl, rfl⟩, hfree, rfl, by simp; rfl, rfl, trivial, trivial, hnl, by simp [ids],
        ⟨h.sep.1, by simp [ids], by simp [ids]⟩, by simp, ?_⟩
      · intro i hi; simp [hi]
      · intro i hi
        have := h.old i hi
        simp only at this
        show i < made + 1
        omega
    | ptr d =>
      refine ⟨_, _, _, hg, setData_of (n := { data := none, next := none, prev := none }) (by simp) _, ⟨?_, rfl, rfl, rfl⟩, hfree, rfl, by simp; rfl, rfl, trivial, trivial, hnl, by simp [ids],
        ⟨h.sep.1, by simp [ids], by simp [ids]⟩, by simp, ?_⟩
      · intro i hi; simp [hi]
      · intro i hi
        have := h.old i hi
        simp only at this
        show i < made + 1
        omega
  | cons f fs =>
    simp only [Spec.take]
    have hfree := h.free
    simp only [first] at hfree
    obtain ⟨⟨pv, hm⟩, hch⟩ := h.chain
    have hsep := h.sep
    have hnd := hsep.2.1
    simp only [ids, List.map_cons, List.nodup_cons] at hnd
    have hg : getFreeItem s = .ok ({ s with free := first fs none }, f.1) := by
      simp [getFreeItem, hfree, get_of hm]
    have hnl : f.1 ∉ ids live := fun hl => hsep.2.2 f.1 hl (by simp [ids])
    have hsep' : Sep live fs := ⟨hsep.1, hnd.2, fun i hi hf => hsep.2.2 i hi (by
      simp only [ids, List.map_cons, List.mem_cons] at hf ⊢; exact .inr hf)⟩
    have hold : ∀ i, i ∈ ids live ∨ i ∈ ids fs → i < made := by
      intro i hi
      refine h.old i ?_
      rcases hi with hi | hi
      · exact .inl hi
      · right
        simp only [ids, List.map_cons, List.mem_cons] at hi ⊢
        exact .inr hi
    have hlt : f.1 < made := h.old f.1 (.inr (by simp [ids]))
    cases arg with
    | reuse =>
      exact ⟨_, _, _, hg, rfl, ⟨fun _ _ => rfl, rfl, rfl, rfl⟩, rfl, h.fresh, hm, rfl, hch, trivial, hnl, hnd.1, hsep', hlt, hold⟩
    | ptr d =>
      refine ⟨_, _, _, hg, setData_of (s := { s with free := first fs none }) (n := ⟨f.2, first fs none, pv⟩) hm _, ⟨?_, rfl, rfl, rfl⟩, rfl, h.fresh, by simp; rfl, rfl, ?_, trivial, hnl, hnd.1, hsep', hlt, hold⟩
      · intro i hi; simp [hi]
      · refine chain_frame hch ?_
        intro i hi nd hnd'
        refine ⟨nd.prev, ?_⟩
        have : i ≠ f.1 := fun he => hnd.1 (he ▸ hi)
        simp [this, hnd']

/-- Linking an item between `a` and `b`. -/
theorem insert_inv {s2 s' : LL D} {a b fr : List (Nat × Option D)} {x : Nat} {d : Option D} {made : Nat}
    {mem : Nat → Option (Node D)}
    (hseg : Seg mem none none (a ++ b)) (hch : Chain s2.mem fr)
    (hsep : Sep (a ++ b) fr) (hxl : x ∉ ids (a ++ b)) (hxf : x ∉ ids fr)
    (hlt : x < made) (hold : ∀ i, i ∈ ids (a ++ b) ∨ i ∈ ids fr → i < made)
    (h2 : ∀ i, i ≠ x → s2.mem i = mem i)
    (hx : s'.mem x = some ⟨d, first b none, last a none⟩)
    (hy : ∀ y, last a none = some y → ∀ nd, mem y = some nd → s'.mem y = some { nd with next := some x })
    (hz : ∀ z, first b none = some z → ∀ nd, mem z = some nd → s'.mem z = some { nd with prev := some x })
    (ho : ∀ i, i ≠ x → last a none ≠ some i → first b none ≠ some i → s'.mem i = mem i)
    (hfront : s'.front = first a (some x)) (hback : s'.back = last b (some x))
    (hfree : s'.free = first fr none) (hfresh : s'.fresh = made)
    (hsize : s'.size = (a ++ b).length + 1) :
    Inv s' { live := a ++ (x, d) :: b, free := fr, made := made } := by
  have hids : ids (a ++ b) = ids a ++ ids b := by simp [ids]
  have hnd := hsep.1
  rw [hids, List.nodup_append] at hnd
  have hxa : x ∉ ids a := fun h => hxl (by rw [hids]; exact List.mem_append_left _ h)
  have hxb : x ∉ ids b := fun h => hxl (by rw [hids]; exact List.mem_append_right _ h)
  have hfb : ∀ i, i ∈ ids a → first b none ≠ some i := by
    intro i hi he
    cases b with
    | nil => simp [first] at he
    | cons z b =>
      simp only [first, Option.some.injEq] at he
      exact hnd.2.2 i hi z.1 (by simp [ids]) he.symm
  have hla : ∀ i, i ∈ ids b → last a none ≠ some i := by
    intro i hi he
    rcases last_mem a none with ⟨h1, h3⟩ | ⟨j, hj, h3⟩
    · rw [h3] at he; simp at he
    · rw [h3 none] at he
      simp only [Option.some.injEq] at he
      exact hnd.2.2 j hj i hi he
  rw [seg_append] at hseg
  refine ⟨?_, ?_, ?_, ?_, hfree, ?_, hfresh, ?_, ?_⟩
  · rw [seg_append]
    refine ⟨?_, ?_, ?_⟩
    · refine seg_reNext hseg.1 hnd.1 (fun y hl nd hm => hy y hl nd hm) ?_
      intro i hi hne
      exact ho i (fun he => hxa (he ▸ hi)) hne (hfb i hi)
    · exact hx
    · refine seg_rePrev hseg.2 hnd.2.1 (fun z hl nd hm => hz z hl nd hm) ?_
      intro i hi hne
      exact ho i (fun he => hxb (he ▸ hi)) (hla i hi) hne
  · refine chain_frame hch ?_
    intro i hi nd hm
    refine ⟨nd.prev, ?_⟩
    have hix : i ≠ x := fun he => hxf (he ▸ hi)
    rw [ho i hix, ← h2 i hix, hm]
    · intro he
      rcases last_mem a none with ⟨h1, h3⟩ | ⟨j, hj, h3⟩
      · rw [h3] at he; simp at he
      · rw [h3 none] at he
        simp only [Option.some.injEq] at he
        subst he
        exact hsep.2.2 j (by rw [hids]; exact List.mem_append_left _ hj) hi
    · intro he
      cases b with
      | nil => simp [first] at he
      | cons z b =>
        simp only [first, Option.some.injEq] at he
        subst he
        exact hsep.2.2 z.1 (by rw [hids]; exact List.mem_append_right _ (by simp [ids])) hi
  · rw [hfront]; simp only; rw [first_append]; rfl
  · simp only [last_append, last]; exact hback
  · simp only [hsize, List.length_append, List.length_cons]; omega
  · have hids' : ids (a ++ (x, d) :: b) = ids a ++ x :: ids b := by simp [ids]
    refine ⟨?_, hsep.2.1, ?_⟩
    · rw [hids', List.nodup_append, List.nodup_cons]
      refine ⟨hnd.1, ⟨hxb, hnd.2.1⟩, ?_⟩
      intro i hi j hj
      simp only [List.mem_cons] at hj
      rcases hj with hj | hj
      · subst hj; exact fun he => hxa (he ▸ hi)
      · exact hnd.2.2 i hi j hj
    · intro i hi
      rw [hids', List.mem_append, List.mem_cons] at hi
      rcases hi with hi | hi | hi
      · exact hsep.2.2 i (by rw [hids]; exact List.mem_append_left _ hi)
      · subst hi; exact hxf
      · exact hsep.2.2 i (by rw [hids]; exact List.mem_append_right _ hi)
  · intro i hi
    have hids' : ids (a ++ (x, d) :: b) = ids a ++ x :: ids b := by simp [ids]
    rw [hids', List.mem_append, List.mem_cons] at hi
    simp only
    rcases hi with (hi | hi | hi) | hi
    · exact hold i (.inl (by rw [hids]; exact List.mem_append_left _ hi))
    · subst hi; exact hlt
    · exact hold i (.inl (by rw [hids]; exact List.mem_append_right _ hi))
    · exact hold i (.inr hi)

theorem pushFront_inv {s : LL D} {t : Spec D} (h : Inv s t) (arg : Arg D) :
    ∃ s', pushFront s arg = .ok (s', t.take.1.1) ∧ Inv s' (specStep t (.pushFront arg)).1 := by
  obtain ⟨s1, s2, nd, hg, hs, hsame, hfree, hfresh, hmem, hdata, hch, hlive, hxl, hxf, hsep, hlt, hold⟩ :=
    take_item h arg
  have hback := h.back
  have hfront := h.front
  have hseg := h.seg
  have hsize := h.size
  generalize hx : t.take.1.1 = x at *
  cases hl : t.live with
  | nil =>
    rw [hl] at hfront hback hseg
    refine ⟨_, by
      simp only [pushFront, hg, Res.ok_bind, hs, setPrev_of hmem]
      rw [setNext_of (n := { nd with prev := none }) (by simp)]
      simp [setPrevOpt, hsame.front, hfront, first, hsame.back, hback, last]
      rfl, ?_⟩
    simp only [specStep, hx, ← hdata, hl]
    rw [hl] at hxl hsep hold hsize
    refine insert_inv (s2 := s2) (a := []) (b := []) (mem := s.mem) hseg hch hsep hxl hxf hlt hold hsame.mem ?_ ?_ ?_ ?_ rfl rfl hfree hfresh ?_
    · simp [first, last]
    · simp [last]
    · simp [first]
    · intro i hi _ _; simp [hi, hsame.mem]
    · simp [hsame.size, hsize]
  | cons z l =>
    rw [hl] at hfront hback hseg hxl hsep hold hsize
    have hz := hseg.1
    have hzx : z.1 ≠ x := fun he => hxl (by simp [ids, he])
    have hb : s.back ≠ none := by
      rw [hback]
      rcases last_mem (z :: l) none with ⟨h1, _⟩ | ⟨i, _, h1⟩
      · cases h1
      · rw [h1]; simp
    refine ⟨_, by
      simp only [pushFront, hg, Res.ok_bind, hs, setPrev_of hmem]
      rw [setNext_of (n := { nd with prev := none }) (by simp)]
      simp only [Res.ok_bind, setPrevOpt, put_front, hsame.front, hfront, first]
      rw [setPrev_of (n := ⟨z.2, first l none, none⟩) (by simp [hzx, hsame.mem, hz])]
      simp only [Res.ok_bind, put_back, hsame.back, if_neg hb, Res.pure_eq]
      rfl, ?_⟩
    simp only [specStep, hx, ← hdata, hl]
    refine insert_inv (s2 := s2) (a := []) (b := z :: l) (mem := s.mem) hseg hch hsep hxl hxf hlt hold hsame.mem ?_ ?_ ?_ ?_ rfl ?_ hfree hfresh ?_
    · simp [first, last, Ne.symm hzx]
    · simp [last]
    · intro y hy nd' hm
      simp only [first, Option.some.injEq] at hy
      subst hy
      rw [hz] at hm
      simp only [Option.some.injEq] at hm
      subst hm
      simp
    · intro i hi _ hne
      have : i ≠ z.1 := fun he => hne (by simp [first, he])
      simp [hi, hsame.mem, this]
    · exact hback
    · simp [hsame.size, hsize]

theorem pushBack_inv {s : LL D} {t : Spec D} (h : Inv s t) (arg : Arg D) :
    ∃ s', pushBack s arg = .ok (s', t.take.1.1) ∧ Inv s' (specStep t (.pushBack arg)).1 := by
  obtain ⟨s1, s2, nd, hg, hs, hsame, hfree, hfresh, hmem, hdata, hch, hlive, hxl, hxf, hsep, hlt, hold⟩ :=
    take_item h arg
  have hback := h.back
  have hfront := h.front
  have hseg := h.seg
  have hsize := h.size
  generalize hx : t.take.1.1 = x at *
  rcases List.eq_nil_or_concat t.live with hl | ⟨l, z, hl⟩
  · rw [hl] at hfront hback hseg
    refine ⟨_, by
      simp only [pushBack, hg, Res.ok_bind, hs, setNext_of hmem]
      rw [setPrev_of (n := { nd with next := none }) (by simp)]
      simp [setNextOpt, hsame.front, hfront, first, hsame.back, hback, last]
      rfl, ?_⟩
    simp only [specStep, hx, ← hdata, hl]
    rw [hl] at hxl hsep hold hsize
    refine insert_inv (s2 := s2) (a := []) (b := []) (mem := s.mem) hseg hch hsep hxl hxf hlt hold hsame.mem ?_ ?_ ?_ ?_ rfl rfl hfree hfresh ?_
    · simp [first, last]
    · simp [last]
    · simp [first]
    · intro i hi _ _; simp [hi, hsame.mem]
    · simp [hsame.size, hsize]
  · rw [List.concat_eq_append] at hl
    rw [hl] at hfront hback hseg hxl hsep hold hsize
    have hz := ((seg_append l [z]).mp hseg).2.1
    have hzx : z.1 ≠ x := fun he => hxl (by simp [ids, he])
    have hlast : last (l ++ [z]) none = some z.1 := by simp [last_append, last]
    have hb : s.front ≠ none := by
      rw [hfront]
      cases l <;> simp [first]
    refine ⟨_, by
      simp only [pushBack, hg, Res.ok_bind, hs, setNext_of hmem]
      rw [setPrev_of (n := { nd with next := none }) (by simp)]
      simp only [Res.ok_bind, setNextOpt, put_back, hsame.back, hback, hlast]
      rw [setNext_of (n := ⟨z.2, none, last l none⟩) (by simp [hzx, hsame.mem, hz, first])]
      simp only [Res.ok_bind, put_front, hsame.front, if_neg hb, Res.pure_eq]
      rfl, ?_⟩
    simp only [specStep, hx, ← hdata, hl]
    refine insert_inv (s2 := s2) (a := l ++ [z]) (b := []) (mem := s.mem) (by simpa using hseg) hch (by simpa using hsep) (by simpa using hxl) hxf hlt (by simpa using hold) hsame.mem ?_ ?_ ?_ ?_ ?_ ?_ hfree hfresh ?_
    · simp [first, hlast, Ne.symm hzx]
    · intro y hy nd' hm
      rw [hlast] at hy
      simp only [Option.some.injEq] at hy
      subst hy
      rw [hz] at hm
      simp only [Option.some.injEq] at hm
      subst hm
      simp
    · simp [first]
    · intro i hi hne _
      have : i ≠ z.1 := fun he => hne (by rw [hlast, he])
      simp [hi, hsame.mem, this]
    · simp only [hfront]
      cases l <;> simp [first]
    · simp [last]
    · simp [hsame.size, hsize]

theorem split_live {l : List (Nat × Option D)} {at' : Nat} (h : ∃ d, (at', d) ∈ l) (hn : (ids l).Nodup) :
    ∃ a d b, l = a ++ (at', d) :: b ∧ at' ∉ ids a ∧ at' ∉ ids b := by
  obtain ⟨d, h⟩ := h
  obtain ⟨a, b, rfl⟩ := List.append_of_mem h
  refine ⟨a, d, b, rfl, ?_, ?_⟩
  · intro ha
    simp only [ids, List.map_append, List.nodup_append] at hn
    exact hn.2.2 at' ha at' (by simp) rfl
  · intro hb
    simp only [ids, List.map_append, List.nodup_append, List.map_cons, List.nodup_cons] at hn
    exact hn.2.1.1 hb

theorem insBefore_split (a b : List (Nat × Option D)) (at' : Nat) (d : Option D) (x : Nat × Option D)
    (h : at' ∉ ids a) : insBefore at' x (a ++ (at', d) :: b) = a ++ x :: (at', d) :: b := by
  induction a with
  | nil => simp [insBefore]
  | cons y a ih =>
    simp only [ids, List.map_cons, List.mem_cons, not_or] at h
    simp only [List.cons_append, insBefore]
    rw [if_neg (fun he => h.1 he.symm), ih h.2]

theorem insAfter_split (a b : List (Nat × Option D)) (at' : Nat) (d : Option D) (x : Nat × Option D)
    (h : at' ∉ ids a) : insAfter at' x (a ++ (at', d) :: b) = a ++ (at', d) :: x :: b := by
  induction a with
  | nil => simp [insAfter]
  | cons y a ih =>
    simp only [ids, List.map_cons, List.mem_cons, not_or] at h
    simp only [List.cons_append, insAfter]
    rw [if_neg (fun he => h.1 he.symm), ih h.2]

theorem insertBefore_inv {s : LL D} {t : Spec D} (h : Inv s t) (arg : Arg D) (at' : Nat)
    (hat : ∃ d, (at', d) ∈ t.live) :
    ∃ s', insertBefore s arg at' = .ok (s', t.take.1.1) ∧
      Inv s' (specStep t (.insertBefore arg at')).1 := by
  obtain ⟨s1, s2, nd, hg, hs, hsame, hfree, hfresh, hmem, hdata, hch, hlive, hxl, hxf, hsep, hlt, hold⟩ :=
    take_item h arg
  have hback := h.back
  have hfront := h.front
  have hseg := h.seg
  have hsize := h.size
  obtain ⟨a, d0, b, hl, hna, hnb⟩ := split_live hat h.sep.1
  generalize hx : t.take.1.1 = x at *
  rw [hl] at hfront hback hseg hxl hsep hold hsize
  have hatm := ((seg_append a ((at', d0) :: b)).mp hseg).2.1
  simp only at hatm
  have hax : at' ≠ x := fun he => hxl (by simp [ids, he])
  rcases List.eq_nil_or_concat a with ha | ⟨a0, y, ha⟩
  · subst ha
    simp only [List.nil_append, first] at hfront
    refine ⟨_, by
      simp only [insertBefore, hg, Res.ok_bind, hs, setNext_of hmem]
      rw [get_of (n := ⟨d0, first b none, none⟩) (by simp [hax, hsame.mem, hatm, last])]
      simp only [Res.ok_bind]
      rw [setPrev_of (n := { nd with next := some at' }) (by simp)]
      simp only [Res.ok_bind]
      rw [setPrev_of (n := ⟨d0, first b none, none⟩) (by simp [hax, hsame.mem, hatm, last])]
      simp only [Res.ok_bind, linkBefore, put_front, hsame.front, hfront, if_pos, Res.pure_eq]
      rfl, ?_⟩
    simp only [specStep, hx, ← hdata, hl, insBefore_split _ _ _ _ _ hna]
    refine insert_inv (s2 := s2) (a := []) (b := (at', d0) :: b) (mem := s.mem) hseg hch hsep hxl hxf hlt hold hsame.mem ?_ ?_ ?_ ?_ rfl (hsame.back.trans hback) hfree hfresh ?_
    · simp [first, last, Ne.symm hax]
    · simp [last]
    · intro z hz nd' hm
      simp only [first, Option.some.injEq] at hz
      subst hz
      rw [hatm] at hm
      simp only [Option.some.injEq] at hm
      subst hm
      simp
    · intro i hi _ hne
      have : i ≠ at' := fun he => hne (by simp [first, he])
      simp [hi, hsame.mem, this]
    · simp [hsame.size, hsize]
  · rw [List.concat_eq_append] at ha
    subst ha
    have hlast : last (a0 ++ [y]) none = some y.1 := by simp [last_append, last]
    have hyx : y.1 ≠ x := fun he => hxl (by simp [ids, he])
    have hya : y.1 ≠ at' := fun he => hna (by simp [ids, he])
    have hym := ((seg_append a0 [y]).mp ((seg_append (a0 ++ [y]) ((at', d0) :: b)).mp hseg).1).2.1
    simp only [first] at hym
    have hnf : some at' ≠ s.front := by
      rw [hfront]
      intro he
      cases a0 with
      | nil => simp only [List.nil_append, List.cons_append, first, Option.some.injEq] at he; exact hya he.symm
      | cons w a0 =>
        simp only [List.cons_append, first, Option.some.injEq] at he
        exact hna (by simp [ids, he])
    rw [hlast] at hatm
    refine ⟨_, by
      simp only [insertBefore, hg, Res.ok_bind, hs, setNext_of hmem]
      rw [get_of (n := ⟨d0, first b none, some y.1⟩) (by simp [hax, hsame.mem, hatm])]
      simp only [Res.ok_bind]
      rw [setPrev_of (n := { nd with next := some at' }) (by simp)]
      simp only [Res.ok_bind]
      rw [setPrev_of (n := ⟨d0, first b none, some y.1⟩) (by simp [hax, hsame.mem, hatm])]
      simp only [Res.ok_bind, linkBefore, put_front, hsame.front]
      rw [if_neg hnf, get_of (n := ⟨nd.data, some at', some y.1⟩) (by simp [Ne.symm hax])]
      simp only [Res.ok_bind]
      rw [setNext_of (n := ⟨y.2, some at', last a0 none⟩) (by simp [hya, hyx, hsame.mem, hym])]
      simp only [Res.ok_bind, Res.pure_eq]
      rfl, ?_⟩
    simp only [specStep, hx, ← hdata, hl, insBefore_split _ _ _ _ _ hna]
    refine insert_inv (s2 := s2) (a := a0 ++ [y]) (b := (at', d0) :: b) (mem := s.mem) hseg hch hsep hxl hxf hlt hold hsame.mem ?_ ?_ ?_ ?_ ?_ ?_ hfree hfresh ?_
    · simp [first, hlast, Ne.symm hax, Ne.symm hyx]
    · intro z hz nd' hm
      rw [hlast] at hz
      simp only [Option.some.injEq] at hz
      subst hz
      rw [hym] at hm
      simp only [Option.some.injEq] at hm
      subst hm
      simp
    · intro z hz nd' hm
      simp only [first, Option.some.injEq] at hz
      subst hz
      rw [hatm] at hm
      simp only [Option.some.injEq] at hm
      subst hm
      simp [Ne.symm hya]
    · intro i hi hne1 hne
      have h1 : i ≠ at' := fun he => hne (by simp [first, he])
      have h2 : i ≠ y.1 := fun he => hne1 (by rw [hlast, he])
      simp [hi, hsame.mem, h1, h2]
    · simp only [put_front, hsame.front, hfront]
      cases a0 <;> simp [first]
    · simp only [put_back, hsame.back, hback, last_append, last]
    · simp [hsame.size, hsize]

theorem insertAfter_inv {s : LL D} {t : Spec D} (h : Inv s t) (arg : Arg D) (at' : Nat)
    (hat : ∃ d, (at', d) ∈ t.live) :
    ∃ s', insertAfter s arg at' = .ok (s', t.take.1.1) ∧
      Inv s' (specStep t (.insertAfter arg at')).1 := by
  obtain ⟨s1, s2, nd, hg, hs, hsame, hfree, hfresh, hmem, hdata, hch, hlive, hxl, hxf, hsep, hlt, hold⟩ :=
    take_item h arg
  have hback := h.back
  have hfront := h.front
  have hseg := h.seg
  have hsize := h.size
  obtain ⟨a, d0, b, hl, hna, hnb⟩ := split_live hat h.sep.1
  generalize hx : t.take.1.1 = x at *
  rw [hl] at hfront hback hseg hxl hsep hold hsize
  have hatm := ((seg_append a ((at', d0) :: b)).mp hseg).2.1
  have hbm := ((seg_append a ((at', d0) :: b)).mp hseg).2.2
  simp only at hatm
  have hax : at' ≠ x := fun he => hxl (by simp [ids, he])
  have hlast : last (a ++ [(at', d0)]) none = some at' := by simp [last_append, last]
  have heq : a ++ (at', d0) :: b = (a ++ [(at', d0)]) ++ b := by simp
  cases b with
  | nil =>
    have hb : s.back = some at' := by rw [hback]; exact hlast
    refine ⟨_, by
      simp only [insertAfter, hg, Res.ok_bind, hs]
      rw [get_of (n := ⟨d0, none, last a none⟩) (by simp [hax, hsame.mem, hatm, first])]
      simp only [Res.ok_bind, setNext_of hmem]
      rw [setPrev_of (n := { nd with next := none }) (by simp)]
      simp only [Res.ok_bind]
      rw [setNext_of (n := ⟨d0, none, last a none⟩) (by simp [hax, hsame.mem, hatm, first])]
      simp only [Res.ok_bind, linkAfter, put_back, hsame.back, hb, if_pos, Res.pure_eq]
      rfl, ?_⟩
    simp only [specStep, hx, ← hdata, hl, insAfter_split _ _ _ _ _ hna]
    rw [show a ++ [(at', d0), (x, nd.data)] = (a ++ [(at', d0)]) ++ (x, nd.data) :: [] by simp]
    rw [heq] at hseg hsep hxl hold
    refine insert_inv (s2 := s2) (a := a ++ [(at', d0)]) (b := []) (mem := s.mem) hseg hch hsep hxl hxf hlt hold hsame.mem ?_ ?_ ?_ ?_ ?_ rfl hfree hfresh ?_
    · simp [first, hlast, Ne.symm hax]
    · intro z hz nd' hm
      rw [hlast] at hz
      simp only [Option.some.injEq] at hz
      subst hz
      rw [hatm] at hm
      simp only [Option.some.injEq] at hm
      subst hm
      simp
    · simp [first]
    · intro i hi hne _
      have : i ≠ at' := fun he => hne (by rw [hlast, he])
      simp [hi, hsame.mem, this]
    · simp only [put_front, hsame.front, hfront]
      cases a <;> simp [first]
    · simp [hsame.size, hsize]
  | cons z b =>
    have hzm := hbm.1
    have hzx : z.1 ≠ x := fun he => hxl (by simp [ids, he])
    have hza : z.1 ≠ at' := fun he => hnb (by simp [ids, he])
    have hnb' : some at' ≠ s.back := by
      rw [hback]
      rcases last_mem (z :: b) none with ⟨h1, _⟩ | ⟨i, hi, h1⟩
      · cases h1
      · simp only [last_append, last]
        rw [show last b (some z.1) = last (z :: b) none from rfl, h1 none]
        simp only [ne_eq, Option.some.injEq]
        intro he
        subst he
        exact hnb hi
    refine ⟨_, by
      simp only [insertAfter, hg, Res.ok_bind, hs]
      rw [get_of (n := ⟨d0, some z.1, last a none⟩) (by simp [hax, hsame.mem, hatm, first])]
      simp only [Res.ok_bind, setNext_of hmem]
      rw [setPrev_of (n := { nd with next := some z.1 }) (by simp)]
      simp only [Res.ok_bind]
      rw [setNext_of (n := ⟨d0, some z.1, last a none⟩) (by simp [hax, hsame.mem, hatm, first])]
      simp only [Res.ok_bind, linkAfter, put_back, hsame.back]
      rw [if_neg hnb', get_of (n := ⟨nd.data, some z.1, some at'⟩) (by simp [Ne.symm hax])]
      simp only [Res.ok_bind]
      rw [setPrev_of (n := ⟨z.2, first b none, some at'⟩) (by simp [hza, hzx, hsame.mem, hzm])]
      simp only [Res.ok_bind, Res.pure_eq]
      rfl, ?_⟩
    simp only [specStep, hx, ← hdata, hl, insAfter_split _ _ _ _ _ hna]
    rw [show a ++ (at', d0) :: (x, nd.data) :: z :: b = (a ++ [(at', d0)]) ++ (x, nd.data) :: z :: b by simp]
    rw [heq] at hseg hsep hxl hold
    refine insert_inv (s2 := s2) (a := a ++ [(at', d0)]) (b := z :: b) (mem := s.mem) hseg hch hsep hxl hxf hlt hold hsame.mem ?_ ?_ ?_ ?_ ?_ ?_ hfree hfresh ?_
    · simp [first, hlast, Ne.symm hax, Ne.symm hzx]
    · intro w hw nd' hm
      rw [hlast] at hw
      simp only [Option.some.injEq] at hw
      subst hw
      rw [hatm] at hm
      simp only [Option.some.injEq] at hm
      subst hm
      simp [Ne.symm hza, first]
    · intro w hw nd' hm
      simp only [first, Option.some.injEq] at hw
      subst hw
      rw [hzm] at hm
      simp only [Option.some.injEq] at hm
      subst hm
      simp
    · intro i hi hne1 hne
      have h1 : i ≠ z.1 := fun he => hne (by simp [first, he])
      have h2 : i ≠ at' := fun he => hne1 (by rw [hlast, he])
      simp [hi, hsame.mem, h1, h2]
    · simp only [put_front, hsame.front, hfront]
      cases a <;> simp [first]
    · simp only [put_back, hsame.back, hback, last_append, last]
    · simp [hsame.size, hsize]

@[simp] theorem first_cons (x : Nat × Option D) (l : List (Nat × Option D)) (n : Option Nat) :
    first (x :: l) n = some x.1 := rfl

theorem seg_mem {mem : Nat → Option (Node D)} {n p : Option Nat} {l : List (Nat × Option D)}
    (h : Seg mem n p l) {i : Nat} (hi : i ∈ ids l) : ∃ nd, mem i = some nd := by
  induction l generalizing p with
  | nil => simp [ids] at hi
  | cons x l ih =>
    simp only [ids, List.map_cons, List.mem_cons] at hi
    rcases hi with hi | hi
    · subst hi; exact ⟨_, h.1⟩
    · exact ih h.2 hi

/-- Everything but the heap is the same. -/
structure SameFields (s s' : LL D) : Prop where
  front : s'.front = s.front
  back : s'.back = s.back
  free : s'.free = s.free
  size : s'.size = s.size
  fresh : s'.fresh = s.fresh

theorem SameFields.trans {s s' s'' : LL D} (h : SameFields s s') (h' : SameFields s' s'') :
    SameFields s s'' :=
  ⟨h'.front.trans h.front, h'.back.trans h.back, h'.free.trans h.free, h'.size.trans h.size,
    h'.fresh.trans h.fresh⟩

theorem setNextOpt_ok {s : LL D} {n p : Option Nat} {a : List (Nat × Option D)} (h : Seg s.mem n p a)
    (hn : (ids a).Nodup) (v : Option Nat) :
    ∃ s1, setNextOpt s (last a none) v = .ok s1 ∧ Seg s1.mem v p a ∧
      (∀ i, i ∉ ids a → s1.mem i = s.mem i) ∧ SameFields s s1 := by
  rcases last_mem a none with ⟨h1, h2⟩ | ⟨i, hi, h2⟩
  · subst h1
    exact ⟨s, rfl, trivial, fun _ _ => rfl, ⟨rfl, rfl, rfl, rfl, rfl⟩⟩
  · obtain ⟨nd, hm⟩ := seg_mem h hi
    refine ⟨put s i { nd with next := v }, ?_, seg_reNext h hn ?_ ?_, ?_, ⟨rfl, rfl, rfl, rfl, rfl⟩⟩
    · rw [h2 none, setNextOpt, setNext_of hm]
    · intro y hy nd' hm'
      rw [h2 none] at hy
      simp only [Option.some.injEq] at hy
      subst hy
      rw [hm] at hm'
      simp only [Option.some.injEq] at hm'
      subst hm'
      simp
    · intro j _ hne
      have : j ≠ i := fun he => hne (by rw [h2 none, he])
      simp [this]
    · intro j hj
      have : j ≠ i := fun he => hj (he ▸ hi)
      simp [this]

theorem setPrevOpt_ok {s : LL D} {n p : Option Nat} {b : List (Nat × Option D)} (h : Seg s.mem n p b)
    (hn : (ids b).Nodup) (v : Option Nat) :
    ∃ s1, setPrevOpt s (first b none) v = .ok s1 ∧ Seg s1.mem n v b ∧
      (∀ i, i ∉ ids b → s1.mem i = s.mem i) ∧ SameFields s s1 := by
  cases b with
  | nil => exact ⟨s, rfl, trivial, fun _ _ => rfl, ⟨rfl, rfl, rfl, rfl, rfl⟩⟩
  | cons z b =>
    refine ⟨put s z.1 ⟨z.2, first b n, v⟩, ?_, seg_rePrev h hn ?_ ?_, ?_, ⟨rfl, rfl, rfl, rfl, rfl⟩⟩
    · rw [first, setPrevOpt, setPrev_of h.1]
    · intro y hy nd' hm'
      simp only [first, Option.some.injEq] at hy
      subst hy
      rw [h.1] at hm'
      simp only [Option.some.injEq] at hm'
      subst hm'
      simp
    · intro j _ hne
      have : j ≠ z.1 := fun he => hne (by rw [first, he])
      simp [this]
    · intro j hj
      have : j ≠ z.1 := fun he => hj (by simp [ids, he])
      simp [this]

theorem setFreeItem_ok {s : LL D} {fr : List (Nat × Option D)} {x : Nat} {nd : Node D}
    (hch : Chain s.mem fr) (hf : s.free = first fr none) (hx : x ∉ ids fr) (hm : s.mem x = some nd) :
    ∃ s1, setFreeItem s x = .ok s1 ∧ Chain s1.mem ((x, nd.data) :: fr) ∧ s1.free = some x ∧
      (∀ i, i ≠ x → i ∉ ids fr → s1.mem i = s.mem i) ∧ s1.front = s.front ∧ s1.back = s.back ∧
      s1.size = s.size ∧ s1.fresh = s.fresh := by
  cases fr with
  | nil =>
    refine ⟨{ put (put s x { nd with next := none }) x { nd with next := none, prev := none } with free := some x }, by
      simp only [setFreeItem, hf, first, setNext_of hm, Res.ok_bind]
      rw [setPrev_of (n := { nd with next := none }) (by simp)]
      simp only [Res.ok_bind, Res.pure_eq], ⟨⟨none, by simp [first]⟩, trivial⟩, rfl, ?_, rfl, rfl, rfl, rfl⟩
    intro i hi _
    simp [hi]
  | cons f fr =>
    obtain ⟨⟨pv, hfm⟩, hch'⟩ := hch
    have hxf : x ≠ f.1 := fun he => hx (by simp [ids, he])
    refine ⟨{ put (put (put s f.1 ⟨f.2, first fr none, some x⟩) x { nd with next := some f.1 }) x
        { nd with next := some f.1, prev := none } with free := some x }, by
      simp only [setFreeItem, hf, first, setPrev_of hfm, Res.ok_bind]
      rw [setNext_of (n := nd) (by simp [hxf, hm])]
      simp only [Res.ok_bind]
      rw [setPrev_of (n := { nd with next := some f.1 }) (by simp)]
      simp only [Res.ok_bind, Res.pure_eq], ⟨⟨none, by simp [first]⟩, ?_⟩, rfl, ?_, rfl, rfl, rfl, rfl⟩
    · refine chain_frame (l := f :: fr) (mem := s.mem) ⟨⟨pv, hfm⟩, hch'⟩ ?_
      intro i hi nd' hm'
      have hix : i ≠ x := fun he => hx (he ▸ hi)
      by_cases hif : i = f.1
      · subst hif
        rw [hfm] at hm'
        simp only [Option.some.injEq] at hm'
        subst hm'
        exact ⟨some x, by simp [hix]⟩
      · exact ⟨nd'.prev, by simp [hix, hif, hm']⟩
    · intro i hi hif
      have : i ≠ f.1 := fun he => hif (by simp [ids, he])
      simp [hi, this]

theorem dropData_ok {s : LL D} {x : Nat} {nd : Node D} (hm : s.mem x = some nd) (destroy : Bool) :
    ∃ s1, dropData s x destroy = .ok s1 ∧
      s1.mem x = some { nd with data := if destroy then none else nd.data } ∧
      (∀ i, i ≠ x → s1.mem i = s.mem i) ∧ SameFields s s1 := by
  cases destroy with
  | false => exact ⟨s, rfl, by simp [hm], fun _ _ => rfl, ⟨rfl, rfl, rfl, rfl, rfl⟩⟩
  | true =>
    refine ⟨put s x { nd with data := none }, by simp [dropData, setData_of hm], by simp, ?_, ⟨rfl, rfl, rfl, rfl, rfl⟩⟩
    intro i hi
    simp [hi]

theorem first_ne {a b : List (Nat × Option D)} {x : Nat} {d : Option D} (hx : x ∉ ids a) :
    (if first (a ++ (x, d) :: b) none = some x then first b none else first (a ++ (x, d) :: b) none)
      = first (a ++ b) none := by
  cases a with
  | nil => simp [first]
  | cons y a =>
    have : y.1 ≠ x := fun he => hx (by simp [ids, he])
    simp [first, this]

theorem last_ne {a b : List (Nat × Option D)} {x : Nat} {d : Option D} (hx : x ∉ ids b) :
    (if last (a ++ (x, d) :: b) none = some x then last a none else last (a ++ (x, d) :: b) none)
      = last (a ++ b) none := by
  simp only [last_append, last]
  rcases last_mem b none with ⟨h1, _⟩ | ⟨i, hi, h1⟩
  · subst h1; simp [last]
  · rw [h1, h1]
    have : i ≠ x := fun he => hx (he ▸ hi)
    simp [this]

theorem removeItem_split {s : LL D} {a b fr : List (Nat × Option D)} {x made : Nat} {d : Option D}
    (h : Inv s { live := a ++ (x, d) :: b, free := fr, made := made }) (destroy : Bool) :
    ∃ s', removeItem s x destroy = .ok s' ∧
      Inv s' { live := a ++ b, free := dropped destroy (x, d) :: fr, made := made } := by
  have hseg := (seg_append a ((x, d) :: b)).mp h.seg
  obtain ⟨hsa, hxm, hsb⟩ := hseg
  simp only [first_cons] at hsa hxm hsb
  have hids : ids (a ++ (x, d) :: b) = ids a ++ x :: ids b := by simp [ids]
  have hsep := h.sep
  have hnd := hsep.1
  simp only at hnd
  rw [hids, List.nodup_append, List.nodup_cons] at hnd
  have hxa : x ∉ ids a := fun hi => hnd.2.2 x hi x (by simp) rfl
  have hxb : x ∉ ids b := hnd.2.1.1
  have hab : ∀ i ∈ ids a, i ∉ ids b := fun i hi hib => hnd.2.2 i hi i (by simp [hib]) rfl
  have hxf : x ∉ ids fr := hsep.2.2 x (by rw [hids]; simp)
  have haf : ∀ i ∈ ids a, i ∉ ids fr := fun i hi => hsep.2.2 i (by rw [hids]; simp [hi])
  have hbf : ∀ i ∈ ids b, i ∉ ids fr := fun i hi => hsep.2.2 i (by rw [hids]; simp [hi])
  obtain ⟨s1, e1, g1, f1, sf1⟩ := setNextOpt_ok hsa hnd.1 (first b none)
  have hsb1 : Seg s1.mem none (some x) b := seg_frame hsb (fun i hi => f1 i (fun hia => hab i hia hi))
  obtain ⟨s2, e2, g2, f2, sf2⟩ := setPrevOpt_ok hsb1 hnd.2.1.2 (last a none)
  have g1' : Seg s2.mem (first b none) none a := seg_frame g1 (fun i hi => f2 i (hab i hi))
  have hx2 : s2.mem x = some ⟨d, first b none, last a none⟩ := by
    rw [f2 x hxb, f1 x hxa, hxm]
  have sf := sf1.trans sf2
  let s3 : LL D := { s2 with
    front := if s2.front = some x then first b none else s2.front,
    back := if s2.back = some x then last a none else s2.back }
  obtain ⟨s4, e4, g4, f4, sf4⟩ := dropData_ok (s := s3) (x := x) hx2 destroy
  have hm4 : ∀ i, i ≠ x → s4.mem i = s2.mem i := fun i hi => f4 i hi
  have hch4 : Chain s4.mem fr := by
    refine chain_frame h.chain ?_
    intro i hi nd hm
    refine ⟨nd.prev, ?_⟩
    rw [hm4 i (fun he => hxf (he ▸ hi)), f2 i (fun hib => hbf i hib hi), f1 i (fun hia => haf i hia hi), hm]
  have hf4 : s4.free = first fr none := by
    rw [sf4.free]
    show s2.free = _
    rw [sf.free, h.free]
  obtain ⟨s5, e5, g5, hfr5, f5, fr5, bk5, sz5, fs5⟩ := setFreeItem_ok hch4 hf4 hxf g4
  refine ⟨{ s5 with size := s5.size - 1 }, ?_, ?_⟩
  · simp only [removeItem, get_of hxm, Res.ok_bind, e1, e2]
    have e4' := e4
    simp only [s3] at e4'
    rw [e4']
    simp only [Res.ok_bind, e5, Res.pure_eq]
  · have hm5 : ∀ i, i ≠ x → i ∉ ids fr → s5.mem i = s2.mem i := fun i h1 h2 => by rw [f5 i h1 h2, hm4 i h1]
    refine ⟨?_, ?_, ?_, ?_, ?_, ?_, ?_, ?_, ?_⟩
    · rw [seg_append]
      refine ⟨seg_frame g1' (fun i hi => ?_), seg_frame g2 (fun i hi => ?_)⟩
      · exact hm5 i (fun he => hxa (he ▸ hi)) (haf i hi)
      · exact hm5 i (fun he => hxb (he ▸ hi)) (hbf i hi)
    · exact g5
    · show s5.front = _
      rw [fr5, sf4.front]
      show (if s2.front = some x then first b none else s2.front) = _
      rw [sf.front, h.front]
      exact first_ne hxa
    · show s5.back = _
      rw [bk5, sf4.back]
      show (if s2.back = some x then last a none else s2.back) = _
      rw [sf.back, h.back]
      exact last_ne hxb
    · exact hfr5
    · show s5.size - 1 = _
      rw [sz5, sf4.size]
      show s2.size - 1 = _
      rw [sf.size, h.size]
      simp
    · show s5.fresh = _
      rw [fs5, sf4.fresh]
      show s2.fresh = _
      rw [sf.fresh, h.fresh]
    · have hidab : ids (a ++ b) = ids a ++ ids b := by simp [ids]
      refine ⟨?_, ?_, ?_⟩
      · rw [hidab, List.nodup_append]
        exact ⟨hnd.1, hnd.2.1.2, fun i hi j hj => hnd.2.2 i hi j (by simp [hj])⟩
      · simp only [ids, dropped, List.map_cons, List.nodup_cons]
        exact ⟨hxf, hsep.2.1⟩
      · intro i hi hi'
        rw [hidab, List.mem_append] at hi
        simp only [ids, dropped, List.map_cons, List.mem_cons] at hi'
        rcases hi' with hi' | hi'
        · subst hi'
          rcases hi with hi | hi
          · exact hxa hi
          · exact hxb hi
        · rcases hi with hi | hi
          · exact haf i hi hi'
          · exact hbf i hi hi'
    · intro i hi
      refine h.old i ?_
      simp only [hids]
      simp only [ids, dropped, List.map_cons, List.map_append, List.mem_cons, List.mem_append] at hi ⊢
      rcases hi with (hi | hi) | hi | hi
      · exact .inl (.inl hi)
      · exact .inl (.inr (.inr hi))
      · exact .inl (.inr (.inl hi))
      · exact .inr hi

theorem find_split {l : List (Nat × Option D)} {p : Nat × Option D → Bool} {x : Nat × Option D}
    (h : l.find? p = some x) : ∃ a b, l = a ++ x :: b ∧ l.eraseP p = a ++ b ∧ p x = true := by
  obtain ⟨hp, a, b, rfl, ha⟩ := List.find?_eq_some_iff_append.mp h
  refine ⟨a, b, rfl, ?_, hp⟩
  rw [List.eraseP_append_right _ (by intro y hy; simpa using ha y hy), List.eraseP_cons_of_pos hp]

theorem removeItem_inv {s : LL D} {t : Spec D} (h : Inv s t) (x : Nat) (destroy : Bool)
    (hx : ∃ d, (x, d) ∈ t.live) :
    ∃ s', removeItem s x destroy = .ok s' ∧ Inv s' (specStep t (.removeItem x destroy)).1 := by
  obtain ⟨d, hd⟩ := hx
  have hs : (t.live.find? (fun y => decide (y.1 = x))).isSome := by
    rw [List.find?_isSome]
    exact ⟨_, hd, by simp⟩
  obtain ⟨y, hy⟩ := Option.isSome_iff_exists.mp hs
  obtain ⟨a, b, hl, he, hp⟩ := find_split hy
  obtain ⟨y1, y2⟩ := y
  simp only [decide_eq_true_eq] at hp
  subst hp
  obtain ⟨live, free, made⟩ := t
  simp only at hl he hy
  subst hl
  obtain ⟨s', h1, h2⟩ := removeItem_split h destroy
  refine ⟨s', h1, ?_⟩
  simp only [specStep, Spec.remove, hy, he]
  exact h2

theorem search_ok {s : LL D} {p : Option D → Bool} : ∀ (l : List (Nat × Option D)) (pv : Option Nat) (fuel : Nat),
    Seg s.mem none pv l → l.length ≤ fuel →
    search s p fuel (first l none) = .ok (l.find? (fun x => p x.2)) := by
  intro l
  induction l with
  | nil => intro pv fuel _ _; cases fuel <;> rfl
  | cons x l ih =>
    intro pv fuel h hf
    obtain ⟨k, rfl⟩ : ∃ k, fuel = k + 1 := ⟨fuel - 1, by simp at hf; omega⟩
    simp only [first_cons, search, get_of h.1, Res.ok_bind]
    by_cases hp : p x.2
    · simp [hp]
    · rw [if_neg hp, List.find?_cons]
      simp only [Bool.not_eq_true] at hp
      simp only [hp]
      exact ih _ k h.2 (by simp at hf; omega)

theorem length_le_of_nodup (l : List Nat) (n : Nat) (hn : l.Nodup) (h : ∀ i ∈ l, i < n) : l.length ≤ n := by
  have hsub : l ⊆ List.range n := fun i hi => List.mem_range.mpr (h i hi)
  have := (List.subperm_of_subset hn hsub).length_le
  simpa using this

theorem live_le {s : LL D} {t : Spec D} (h : Inv s t) : t.live.length ≤ s.fresh := by
  rw [h.fresh]
  have := length_le_of_nodup (ids t.live) t.made h.sep.1 (fun i hi => h.old i (.inl hi))
  simpa [ids] using this

theorem free_le {s : LL D} {t : Spec D} (h : Inv s t) : t.free.length ≤ s.fresh := by
  rw [h.fresh]
  have := length_le_of_nodup (ids t.free) t.made h.sep.2.1 (fun i hi => h.old i (.inr hi))
  simpa [ids] using this

theorem removeBy_inv {s : LL D} {t : Spec D} (h : Inv s t) (p : Option D → Bool) (destroy : Bool) :
    ∃ s', removeBy s p destroy = .ok (s', t.live.any (fun x => p x.2)) ∧
      Inv s' (specStep t (.removeBy p destroy)).1 := by
  unfold removeBy
  rw [h.front, search_ok t.live none _ h.seg (live_le h)]
  simp only [Res.ok_bind]
  cases hf : t.live.find? (fun x => p x.2) with
  | none =>
    refine ⟨s, ?_, ?_⟩
    · rw [List.find?_eq_none] at hf
      have : t.live.any (fun x => p x.2) = false := by
        rw [List.any_eq_false]; exact hf
      simp [this]
    · simp only [specStep, Spec.remove, hf]
      exact h
  | some y =>
    obtain ⟨a, b, hl, he, hp⟩ := find_split hf
    obtain ⟨y1, y2⟩ := y
    obtain ⟨live, free, made⟩ := t
    simp only at hl he hf
    subst hl
    obtain ⟨s', h1, h2⟩ := removeItem_split h destroy
    refine ⟨s', ?_, ?_⟩
    · simp only [h1, Res.ok_bind, Res.pure_eq]
      congr 2
      symm
      rw [List.any_eq_true]
      exact ⟨(y1, y2), by simp, hp⟩
    · simp only [specStep, Spec.remove, hf, he]
      exact h2

theorem removeLoop_ok (destroy : Bool) : ∀ (l fr : List (Nat × Option D)) (s : LL D) (pv : Option Nat) (fuel : Nat),
    Seg s.mem none pv l → Chain s.mem fr → s.free = first fr none → Sep l fr → l.length ≤ fuel →
    ∃ s', removeLoop destroy fuel (first l none) s = .ok s' ∧
      Chain s'.mem ((l.map (dropped destroy)).reverse ++ fr) ∧
      s'.free = first ((l.map (dropped destroy)).reverse ++ fr) none ∧ s'.fresh = s.fresh := by
  intro l
  induction l with
  | nil =>
    intro fr s pv fuel _ hch hfree _ _
    refine ⟨s, ?_, hch, hfree, rfl⟩
    cases fuel <;> rfl
  | cons x l ih =>
    intro fr s pv fuel hseg hch hfree hsep hf
    obtain ⟨k, rfl⟩ : ∃ k, fuel = k + 1 := ⟨fuel - 1, by simp at hf; omega⟩
    have hnd := hsep.1
    simp only [ids, List.map_cons, List.nodup_cons] at hnd
    have hxf : x.1 ∉ ids fr := hsep.2.2 x.1 (by simp [ids])
    have hlf : ∀ i ∈ ids l, i ∉ ids fr := fun i hi => hsep.2.2 i (by
      simp only [ids, List.map_cons, List.mem_cons] at hi ⊢; exact .inr hi)
    obtain ⟨s1, e1, g1, f1, sf1⟩ := dropData_ok hseg.1 destroy
    have hch1 : Chain s1.mem fr := by
      refine chain_frame hch ?_
      intro i hi nd hm
      exact ⟨nd.prev, by rw [f1 i (fun he => hxf (he ▸ hi)), hm]⟩
    obtain ⟨s2, e2, g2, hfr2, f2, _, _, _, fs2⟩ := setFreeItem_ok hch1 (by rw [sf1.free, hfree]) hxf g1
    have hseg2 : Seg s2.mem none (some x.1) l := by
      refine seg_frame hseg.2 ?_
      intro i hi
      have hix : i ≠ x.1 := fun he => hnd.1 (he ▸ hi)
      rw [f2 i hix (hlf i hi), f1 i hix]
    have hsep2 : Sep l (dropped destroy x :: fr) := by
      refine ⟨hnd.2, ?_, ?_⟩
      · simp only [ids, dropped, List.map_cons, List.nodup_cons]
        exact ⟨hxf, hsep.2.1⟩
      · intro i hi hi'
        simp only [ids, dropped, List.map_cons, List.mem_cons] at hi'
        rcases hi' with hi' | hi'
        · subst hi'; exact hnd.1 hi
        · exact hlf i hi hi'
    obtain ⟨s3, e3, g3, h3, h4⟩ := ih (dropped destroy x :: fr) s2 _ k hseg2 g2 hfr2 hsep2 (by simp at hf; omega)
    refine ⟨s3, ?_, ?_, ?_, ?_⟩
    · simp only [first_cons, removeLoop, get_of hseg.1, Res.ok_bind, e1, e2]
      exact e3
    · simpa using g3
    · rw [h3]; simp
    · rw [h4, fs2, sf1.fresh]

theorem removeAll_inv {s : LL D} {t : Spec D} (h : Inv s t) (destroy : Bool) :
    ∃ s', removeAll s destroy = .ok s' ∧ Inv s' (specStep t (.removeAll destroy)).1 := by
  obtain ⟨s1, e, g, hf, hfs⟩ := removeLoop_ok destroy t.live t.free s none s.fresh h.seg h.chain h.free h.sep (live_le h)
  have hids : ids ((t.live.map (dropped destroy)).reverse ++ t.free) = (ids t.live).reverse ++ ids t.free := by
    simp [ids, dropped, Function.comp_def]
  refine ⟨{ s1 with size := 0, front := none, back := none }, ?_, trivial, g, rfl, rfl, hf, rfl, ?_, ?_, ?_⟩
  · simp only [removeAll, h.front, e, Res.ok_bind, Res.pure_eq]
  · show s1.fresh = _
    rw [hfs, h.fresh]
    rfl
  · refine ⟨by simp [specStep, ids], ?_, by simp [specStep, ids]⟩
    simp only [specStep]
    rw [hids, List.nodup_append, List.nodup_reverse]
    refine ⟨h.sep.1, h.sep.2.1, ?_⟩
    intro i hi j hj he
    subst he
    exact h.sep.2.2 i (by simpa using hi) hj
  · intro i hi
    simp only [specStep] at hi ⊢
    rw [hids] at hi
    refine h.old i ?_
    simpa [ids] using hi

theorem setData_inv {s : LL D} {t : Spec D} (h : Inv s t) (x : Nat) (d : Option D)
    (hx : ∃ d, (x, d) ∈ t.live) :
    ∃ s', setData s x d = .ok s' ∧ Inv s' (specStep t (.setData x d)).1 := by
  obtain ⟨a, d0, b, hl, hna, hnb⟩ := split_live hx h.sep.1
  have hmap : ∀ l : List (Nat × Option D), x ∉ ids l → l.map (fun y => if y.1 = x then (x, d) else y) = l := by
    intro l hl
    induction l with
    | nil => rfl
    | cons y l ih =>
      simp only [ids, List.map_cons, List.mem_cons, not_or] at hl
      rw [List.map_cons, if_neg (fun he => hl.1 he.symm), ih hl.2]
  have hspec : (specStep t (.setData x d)).1 = { t with live := a ++ (x, d) :: b } := by
    simp only [specStep, hl, List.map_append, List.map_cons, hmap a hna, hmap b hnb, if_pos]
  rw [hspec]
  have hseg := h.seg
  rw [hl] at hseg
  rw [seg_append] at hseg
  have hids : ids (a ++ (x, d) :: b) = ids t.live := by rw [hl]; simp [ids]
  refine ⟨put s x ⟨d, first b none, last a none⟩, ?_, ?_, ?_, ?_, ?_, h.free, ?_, h.fresh, ?_, ?_⟩
  · rw [setData_of hseg.2.1]
  · rw [seg_append]
    refine ⟨seg_frame hseg.1 ?_, by simp [first], seg_frame hseg.2.2 ?_⟩
    · intro i hi
      have : i ≠ x := fun he => hna (he ▸ hi)
      simp [this]
    · intro i hi
      have : i ≠ x := fun he => hnb (he ▸ hi)
      simp [this]
  · refine chain_frame h.chain ?_
    intro i hi nd hm
    have : i ≠ x := fun he => h.sep.2.2 x (by rw [hl]; simp [ids]) (he ▸ hi)
    exact ⟨nd.prev, by simp [this, hm]⟩
  · rw [put_front, h.front, hl]
    cases a <;> rfl
  · rw [put_back, h.back, hl]
    simp only [last_append, last]
  · rw [put_size, h.size, hl]
    simp
  · exact ⟨by simp only; rw [hids]; exact h.sep.1, h.sep.2.1, fun i hi => h.sep.2.2 i (by rw [← hids]; exact hi)⟩
  · intro i hi
    refine h.old i ?_
    rw [← hids]
    exact hi

theorem walkNext_ok {s : LL D} : ∀ (l : List (Nat × Option D)) (fuel : Nat), Chain s.mem l → l.length ≤ fuel →
    walkNext s fuel (first l none) = .ok l := by
  intro l
  induction l with
  | nil => intro fuel _ _; cases fuel <;> rfl
  | cons x l ih =>
    intro fuel h hf
    obtain ⟨k, rfl⟩ : ∃ k, fuel = k + 1 := ⟨fuel - 1, by simp at hf; omega⟩
    obtain ⟨⟨pv, hm⟩, hc⟩ := h
    simp only [first_cons, walkNext, get_of hm, Res.ok_bind]
    rw [ih k hc (by simp at hf; omega)]
    rfl

theorem chain_of_seg {mem : Nat → Option (Node D)} {p : Option Nat} {l : List (Nat × Option D)}
    (h : Seg mem none p l) : Chain mem l := by
  induction l generalizing p with
  | nil => trivial
  | cons x l ih => exact ⟨⟨p, h.1⟩, ih h.2⟩

theorem walkPrev_ok {s : LL D} : ∀ (n : Nat) (l : List (Nat × Option D)) (nx : Option Nat) (fuel : Nat),
    l.length = n → Seg s.mem nx none l → n ≤ fuel →
    walkPrev s fuel (last l none) = .ok l.reverse := by
  intro n
  induction n with
  | zero =>
    intro l nx fuel hl _ _
    rw [List.length_eq_zero_iff] at hl
    subst hl
    cases fuel <;> rfl
  | succ n ih =>
    intro l nx fuel hl h hf
    rcases List.eq_nil_or_concat l with h0 | ⟨a, x, h0⟩
    · subst h0; simp at hl
    · rw [List.concat_eq_append] at h0
      subst h0
      rw [seg_append] at h
      obtain ⟨k, rfl⟩ : ∃ k, fuel = k + 1 := ⟨fuel - 1, by omega⟩
      have hlast : last (a ++ [x]) none = some x.1 := by simp [last_append, last]
      rw [hlast]
      simp only [walkPrev, get_of h.2.1, Res.ok_bind]
      rw [ih a _ k (by simpa using hl) h.1 (by omega)]
      simp

theorem step_inv {s : LL D} {t : Spec D} (h : Inv s t) (op : Op D) (ha : Allowed t op) :
    ∃ s', step s op = .ok (s', (specStep t op).2) ∧ Inv s' (specStep t op).1 := by
  cases op with
  | pushFront x =>
    obtain ⟨s', h1, h2⟩ := pushFront_inv h x
    exact ⟨s', by simp [step, h1, specStep], h2⟩
  | pushBack x =>
    obtain ⟨s', h1, h2⟩ := pushBack_inv h x
    exact ⟨s', by simp [step, h1, specStep], h2⟩
  | insertBefore x a =>
    obtain ⟨s', h1, h2⟩ := insertBefore_inv h x a ha
    exact ⟨s', by simp [step, h1, specStep], h2⟩
  | insertAfter x a =>
    obtain ⟨s', h1, h2⟩ := insertAfter_inv h x a ha
    exact ⟨s', by simp [step, h1, specStep], h2⟩
  | removeItem a destroy =>
    obtain ⟨s', h1, h2⟩ := removeItem_inv h a destroy ha
    exact ⟨s', by simp [step, h1, specStep], h2⟩
  | removeBy p destroy =>
    obtain ⟨s', h1, h2⟩ := removeBy_inv h p destroy
    exact ⟨s', by simp [step, h1, specStep], h2⟩
  | removeAll destroy =>
    obtain ⟨s', h1, h2⟩ := removeAll_inv h destroy
    exact ⟨s', by simp [step, h1, specStep], h2⟩
  | setData a d =>
    obtain ⟨s', h1, h2⟩ := setData_inv h a d ha
    exact ⟨s', by simp [step, h1, specStep], h2⟩

theorem run_inv (ops : List (Op D)) : ∀ {s : LL D} {t : Spec D}, Inv s t → AllowedRun t ops →
    ∃ s', run s ops = .ok (s', (specRun t ops).2) ∧ Inv s' (specRun t ops).1 := by
  induction ops with
  | nil => intro s t h _; exact ⟨s, rfl, h⟩
  | cons op ops ih =>
    intro s t h ha
    obtain ⟨s1, h1, h2⟩ := step_inv h op ha.1
    obtain ⟨s2, h3, h4⟩ := ih h2 ha.2
    exact ⟨s2, by simp [run, h1, h3, specRun], h4⟩

theorem walks {s : LL D} {t : Spec D} (h : Inv s t) :
    walkNext s s.fresh s.front = .ok t.live ∧ walkPrev s s.fresh s.back = .ok t.live.reverse ∧
      s.size = t.live.length ∧ walkNext s s.fresh s.free = .ok t.free := by
  refine ⟨?_, ?_, h.size, ?_⟩
  · rw [h.front]; exact walkNext_ok _ _ (chain_of_seg h.seg) (live_le h)
  · rw [h.back]; exact walkPrev_ok _ _ _ _ rfl h.seg (live_le h)
  · rw [h.free]; exact walkNext_ok _ _ h.chain (free_le h)

theorem find_ok {s : LL D} {t : Spec D} (h : Inv s t) (p : Option D → Bool) :
    find s p = .ok ((t.live.map (·.2)).find? p) := by
  unfold find
  rw [h.front, search_ok _ _ _ h.seg (live_le h)]
  simp only [Res.ok_bind, Res.pure_eq, List.find?_map]
  rfl

/-- With a destroyer at every removal nothing is left in recycled items. -/
theorem clean_run (ops : List (Op D)) : ∀ (t : Spec D), (∀ x ∈ t.free, x.2 = none) →
    (∀ op ∈ ops, destroys op = true) → ∀ x ∈ (specRun t ops).1.free, x.2 = none := by
  induction ops with
  | nil => intro t h _; exact h
  | cons op ops ih =>
    intro t h hd
    refine ih _ ?_ (fun o ho => hd o (by simp [ho]))
    have hop := hd op (by simp)
    have htake : ∀ x ∈ t.take.2.free, x.2 = none := by
      unfold Spec.take
      cases hf : t.free with
      | nil => simp
      | cons f fs => intro x hx; exact h x (by rw [hf]; exact List.mem_cons_of_mem _ hx)
    have hrem : ∀ p, ∀ x ∈ (t.remove p true).free, x.2 = none := by
      intro p
      unfold Spec.remove
      split
      · intro x hx
        simp only [List.mem_cons] at hx
        rcases hx with rfl | hx
        · rfl
        · exact h x hx
      · exact h
    cases op with
    | pushFront x => exact htake
    | pushBack x => exact htake
    | insertBefore x a => exact htake
    | insertAfter x a => exact htake
    | setData a d => exact h
    | removeItem a d =>
      simp only [destroys] at hop; subst hop; exact hrem _
    | removeBy p d =>
      simp only [destroys] at hop; subst hop; exact hrem _
    | removeAll d =>
      simp only [destroys] at hop; subst hop
      intro x hx
      simp only [specStep, List.mem_append, List.mem_reverse, List.mem_map] at hx
      rcases hx with ⟨y, _, rfl⟩ | hx
      · rfl
      · exact h x hx

theorem create_inv : Inv (create : LL D) Spec.empty :=
  ⟨trivial, trivial, rfl, rfl, rfl, rfl, rfl, ⟨by simp [Spec.empty, ids], by simp [Spec.empty, ids], by simp [Spec.empty, ids]⟩,
    by simp [Spec.empty, ids]⟩

end Verif.LinkedList
