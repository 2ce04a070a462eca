import Verif.Spec.Retain
import Verif.Proof.Exec

/-!
# Lemmas about reference counts
-/

namespace Verif.Retain

open Verif Verif.Spec.Retain

/-- The sum of `f` below `n`. -/
def total : Nat → (Nat → Nat) → Nat
  | 0, _ => 0
  | n + 1, f => total n f + f n

theorem total_congr {f f' : Nat → Nat} : ∀ n, (∀ y, y < n → f y = f' y) → total n f = total n f' := by
  intro n
  induction n with
  | zero => intro _; rfl
  | succ n ih => intro h; rw [total, total, ih (fun y hy => h y (by omega)), h n (by omega)]

theorem total_update {f f' : Nat → Nat} {k : Nat} : ∀ n, k < n → (∀ y, y ≠ k → f y = f' y) →
    total n f + f' k = total n f' + f k := by
  intro n
  induction n with
  | zero => intro h; omega
  | succ n ih =>
    intro h hf
    rw [total, total]
    by_cases hk : k = n
    · subst hk
      rw [total_congr (f := f) (f' := f') k (fun y hy => hf y (by omega))]
      omega
    · have := ih (by omega) hf
      rw [hf n (by omega)]
      omega

theorem total_pos {f : Nat → Nat} : ∀ n, 0 < total n f → ∃ y, y < n ∧ 0 < f y := by
  intro n
  induction n with
  | zero => intro h; simp [total] at h
  | succ n ih =>
    intro h
    rw [total] at h
    by_cases hn : 0 < f n
    · exact ⟨n, by omega, hn⟩
    · obtain ⟨y, h1, h2⟩ := ih (by omega)
      exact ⟨y, by omega, h2⟩

theorem total_le {f : Nat → Nat} : ∀ n, (∀ y, f y ≤ 1) → total n f ≤ n := by
  intro n h
  induction n with
  | zero => exact Nat.le_refl 0
  | succ n ih => rw [total]; have := h n; omega

/-- What a place in memory owns. -/
def owns (s : State) (y : Nat) : List Nat :=
  match s.node y with
  | some n => n.targets
  | none => []

/-- How often `x` is owned by nodes. -/
def inlinks (s : State) (x : Nat) : Nat := total s.next fun y => (owns s y).count x

def live (s : State) : Nat := total s.next fun y => if (s.node y).isSome then 1 else 0

/-- Counts are right; `w` are the releases still to be made. -/
structure Inv (g : Graph) (s : State) (w : List Nat) : Prop where
  made : s.next = g.made
  bound : ∀ x, s.next ≤ x → s.node x = none
  agree : ∀ x n, s.node x = some n → n.kind = g.kind x ∧ n.name = g.name x ∧ n.parent = g.parent x ∧ n.link = g.link x
  count : ∀ x n, s.node x = some n → 0 < n.count ∧ n.count = g.holds x + inlinks s x + w.count x
  target : ∀ x, 0 < g.holds x + inlinks s x + w.count x → ∃ n, s.node x = some n
  slots : ∀ x k, k ∉ (g.kind x).slots → g.link x k = none
  fits : ∀ y k x, g.link y k = some x → Fits g y k x ∧ x < g.made ∧ y < g.made

theorem get_ok {s : State} {x : Nat} {n : Node} (h : s.node x = some n) : get s x = .ok n := by
  unfold get; rw [h]

theorem put_same (s : State) (x : Nat) (n : Option Node) : (put s x n).node x = n := by simp [put]

theorem put_other (s : State) {x y : Nat} (n : Option Node) (h : y ≠ x) : (put s x n).node y = s.node y := by
  simp [put, h]

theorem put_next (s : State) (x : Nat) (n : Option Node) : (put s x n).next = s.next := rfl

theorem owns_same {s : State} {x : Nat} {n : Option Node} :
    owns (put s x n) x = (match n with | some n => n.targets | none => []) := by
  simp [owns, put]

theorem owns_other {s : State} {x y : Nat} {n : Option Node} (h : y ≠ x) : owns (put s x n) y = owns s y := by
  simp [owns, put, h]

theorem inlinks_put {s : State} {x : Nat} (n : Option Node) (hx : x < s.next) (z : Nat) :
    inlinks (put s x n) z + (owns s x).count z = inlinks s z + (owns (put s x n) x).count z := by
  have := total_update (f := fun y => (owns (put s x n) y).count z) (f' := fun y => (owns s y).count z) s.next hx
    (fun y hy => by rw [owns_other hy])
  exact this

theorem live_put_none {s : State} {x : Nat} (hx : x < s.next) {n : Node} (hn : s.node x = some n) :
    live (put s x none) + 1 = live s := by
  have := total_update (f := fun y => if ((put s x none).node y).isSome then 1 else 0)
    (f' := fun y => if (s.node y).isSome then 1 else 0) s.next hx (fun y hy => by simp only [put_other _ _ hy])
  simp only [put_same, hn, Option.isSome_some, if_true, Option.isSome_none, Bool.false_eq_true, if_false] at this
  exact this

theorem live_put_some {s : State} {x : Nat} {n m : Node} (hn : s.node x = some n) :
    live (put s x (some m)) = live s := by
  refine total_congr _ fun y _ => ?_
  by_cases h : y = x
  · subst h; simp [put_same, hn]
  · rw [put_other _ _ h]

theorem live_le (s : State) : live s ≤ s.next := total_le _ (fun y => by split <;> omega)

theorem targets_length (n : Node) : n.targets.length ≤ 3 := by
  unfold Node.targets
  refine Nat.le_trans (List.length_filterMap_le _ _) ?_
  cases n.kind <;> simp [Kind.slots]

theorem Inv.lt {g s w} (hi : Inv g s w) {x : Nat} {n : Node} (h : s.node x = some n) : x < s.next := by
  by_cases hx : x < s.next
  · exact hx
  · rw [hi.bound x (by omega)] at h; cases h

theorem owns_eq {s : State} {x : Nat} {n : Node} (h : s.node x = some n) : owns s x = n.targets := by
  simp [owns, h]

theorem release_inv {g : Graph} : ∀ f w s, Inv g s w → w.length + 3 * live s ≤ f →
    ∃ s', releaseAll f w s = .ok s' ∧ Inv g s' [] := by
  intro f
  induction f with
  | zero =>
    intro w s hi hf
    cases w with
    | nil => exact ⟨s, rfl, hi⟩
    | cons => simp only [List.length_cons] at hf; omega
  | succ f ih =>
    intro w s hi hf
    cases w with
    | nil => exact ⟨s, by unfold releaseAll; rfl, hi⟩
    | cons x w =>
      obtain ⟨n, hn⟩ := hi.target x (by simp only [List.count_cons_self]; omega)
      obtain ⟨hc0, hc⟩ := hi.count x n hn
      have hx := hi.lt hn
      simp only [List.count_cons_self] at hc
      unfold releaseAll
      rw [get_ok hn, Res.ok_bind]
      simp only [List.length_cons] at hf
      by_cases h1 : n.count = 1
      · rw [if_pos h1]
        have hin : ∀ z, inlinks (put s x none) z + n.targets.count z = inlinks s z := by
          intro z
          have := inlinks_put none hx z
          rw [owns_eq hn, owns_same] at this
          simpa using this
        have hl := live_put_none hx hn
        have ht := targets_length n
        have hw : ∀ z, (n.targets ++ w).count z = n.targets.count z + w.count z := by
          intro z; rw [List.count_append]
        refine ih _ _ ⟨hi.made, ?_, ?_, ?_, ?_, hi.slots, hi.fits⟩ (by simp only [List.length_append]; omega)
        · intro z hz
          by_cases h : z = x
          · subst h; exact put_same _ _ _
          · rw [put_other _ _ h]; exact hi.bound z hz
        · intro z m hm
          by_cases h : z = x
          · subst h; rw [put_same] at hm; cases hm
          · rw [put_other _ _ h] at hm; exact hi.agree z m hm
        · intro z m hm
          by_cases h : z = x
          · subst h; rw [put_same] at hm; cases hm
          · rw [put_other _ _ h] at hm
            have := hi.count z m hm
            have h2 := hin z
            have h3 := hw z
            rw [List.count_cons_of_ne (fun e => h e.symm)] at this
            omega
        · intro z hz
          have h2 := hin z
          have h3 := hw z
          by_cases h : z = x
          · subst h; omega
          · rw [put_other _ _ h]
            refine hi.target z ?_
            rw [List.count_cons_of_ne (fun e => h e.symm)]
            omega
      · rw [if_neg h1]
        have hin : ∀ z, inlinks (put s x (some { n with count := n.count - 1 })) z = inlinks s z := by
          intro z
          have := inlinks_put (some { n with count := n.count - 1 }) hx z
          rw [owns_eq hn, owns_same] at this
          simp only [Node.targets] at this
          omega
        have hl := live_put_some (m := { n with count := n.count - 1 }) hn
        refine ih _ _ ⟨hi.made, ?_, ?_, ?_, ?_, hi.slots, hi.fits⟩ (by omega)
        · intro z hz
          rw [put_other _ _ (by rw [put_next] at hz; omega)]
          exact hi.bound z hz
        · intro z m hm
          by_cases h : z = x
          · subst h; rw [put_same] at hm; cases hm; exact hi.agree z n hn
          · rw [put_other _ _ h] at hm; exact hi.agree z m hm
        · intro z m hm
          rw [hin z]
          by_cases h : z = x
          · subst h; rw [put_same] at hm; cases hm; simp only; omega
          · rw [put_other _ _ h] at hm
            have := hi.count z m hm
            rw [List.count_cons_of_ne (fun e => h e.symm)] at this
            omega
        · intro z hz
          rw [hin z] at hz
          by_cases h : z = x
          · subst h; exact ⟨_, put_same _ _ _⟩
          · rw [put_other _ _ h]
            refine hi.target z ?_
            rw [List.count_cons_of_ne (fun e => h e.symm)]
            omega

theorem release_ok {g : Graph} {s : State} {x : Nat} (hi : Inv g s [x]) : ∃ s', release s x = .ok s' ∧ Inv g s' [] :=
  release_inv _ _ _ hi (by have := live_le s; simp only [List.length_singleton]; omega)

/-- What is reachable is alive. -/
theorem reach_alive {g : Graph} {s : State} {w : List Nat} (hi : Inv g s w) {x : Nat} (h : Reach g x) : Alive s x := by
  induction h with
  | held h => exact hi.target _ (by omega)
  | @link y k x _ hk ih =>
    obtain ⟨n, hn⟩ := ih
    obtain ⟨e1, _, _, e4⟩ := hi.agree y n hn
    refine hi.target x ?_
    have hm : x ∈ owns s y := by
      rw [owns_eq hn, Node.targets, List.mem_filterMap]
      refine ⟨k, ?_, by rw [e4]; exact hk⟩
      rw [e1]
      by_cases h : k ∈ (g.kind y).slots
      · exact h
      · rw [hi.slots y k h] at hk; cases hk
    have : 0 < inlinks s x := by
      have h1 : 0 < (owns s y).count x := List.count_pos_iff.2 hm
      by_cases h0 : 0 < inlinks s x
      · exact h0
      · exfalso
        have hy := hi.lt hn
        have h2 := total_update (f := fun z => (owns s z).count x)
          (f' := fun z => if z = y then 0 else (owns s z).count x) s.next hy (fun z hz => by simp [hz])
        simp only [if_true] at h2
        have : inlinks s x = total s.next fun z => (owns s z).count x := rfl
        omega
    omega

/-- What is alive is reachable, if there is no circle. -/
theorem alive_reach {g : Graph} {s : State} (hi : Inv g s []) (hc : NoCircle g) {x : Nat} (h : Alive s x) : Reach g x := by
  obtain ⟨rank, hr⟩ := hc
  have key : ∀ r x, rank x < r → Alive s x → Reach g x := by
    intro r
    induction r with
    | zero => intro x h; omega
    | succ r ih =>
      rintro x hx ⟨n, hn⟩
      obtain ⟨h0, h1⟩ := hi.count x n hn
      simp only [List.count_nil] at h1
      by_cases hh : 0 < g.holds x
      · exact .held hh
      · obtain ⟨y, hy, h2⟩ := total_pos s.next (f := fun y => (owns s y).count x) (by
          show 0 < inlinks s x; omega)
        have hm : x ∈ owns s y := List.count_pos_iff.1 h2
        cases hny : s.node y with
        | none => simp [owns, hny] at hm
        | some m =>
          rw [owns_eq hny, Node.targets, List.mem_filterMap] at hm
          obtain ⟨k, _, hk⟩ := hm
          rw [(hi.agree y m hny).2.2.2] at hk
          have := hr y k x hk
          exact .link (ih y (by omega) ⟨m, hny⟩) hk
  exact key _ x (Nat.lt_succ_self _) h

/-- Cutting a pointer does not cut off the node it belongs to. -/
theorem reach_cut {g : Graph} {y : Nat} {k : Slot} {z : Nat} (h : Reach g z) : Reach (cut g y k) z ∨ Reach (cut g y k) y := by
  induction h with
  | held h => exact Or.inl (.held h)
  | @link u j x _ hk ih =>
    rcases ih with ih | ih
    · by_cases hu : u = y
      · subst hu; exact Or.inr ih
      · refine Or.inl (.link ih (k := j) ?_)
        simp only [cut, change, if_neg hu]
        exact hk
    · exact Or.inr ih

theorem reach_cut_self {g : Graph} {y : Nat} {k : Slot} (h : Reach g y) : Reach (cut g y k) y := by
  rcases reach_cut (k := k) h with h | h <;> exact h

theorem count_upd (n : Node) {k : Slot} (hk : k ∈ n.kind.slots) (t : Option Nat) (z : Nat) :
    ({ n with link := upd n.link k t } : Node).targets.count z + (n.link k).toList.count z =
      n.targets.count z + t.toList.count z := by
  obtain ⟨kind, name, count, link, parent⟩ := n
  simp only [Node.targets] at *
  have fm : ∀ (l : List Slot) (f : Slot → Option Nat), (l.filterMap f).count z = (l.map fun j => (f j).toList.count z).sum := by
    intro l f
    induction l with
    | nil => rfl
    | cons a l ih =>
      simp only [List.map_cons, List.sum_cons, ← ih, List.filterMap_cons]
      cases f a with
      | none => simp
      | some b => simp only [Option.toList_some, List.count_cons, List.count_nil]; omega
  rw [fm, fm]
  cases kind <;> cases k <;>
    first
    | (exfalso; revert hk; simp [Kind.slots]; done)
    | (simp only [Kind.slots, List.map_cons, List.map_nil, List.sum_cons, List.sum_nil, upd, if_true, reduceCtorEq,
        if_false]; omega)

/-- Retaining. -/
theorem retain_inv {g g' : Graph} {s : State} {x : Nat} {n : Node} (hi : Inv g s []) (hn : s.node x = some n)
    (hg : g' = { g with holds := change g.holds x (g.holds x + 1) }) :
    Inv g' (put s x (some { n with count := n.count + 1 })) [] := by
  have hx := hi.lt hn
  subst hg
  have hin : ∀ z, inlinks (put s x (some { n with count := n.count + 1 })) z = inlinks s z := by
    intro z
    have := inlinks_put (some { n with count := n.count + 1 }) hx z
    rw [owns_eq hn, owns_same] at this
    simp only [Node.targets] at this
    omega
  refine ⟨hi.made, ?_, ?_, ?_, ?_, hi.slots, hi.fits⟩
  · intro z hz
    rw [put_other _ _ (by rw [put_next] at hz; omega)]
    exact hi.bound z hz
  · intro z m hm
    by_cases h : z = x
    · subst h; rw [put_same] at hm; cases hm; exact hi.agree z n hn
    · rw [put_other _ _ h] at hm; exact hi.agree z m hm
  · intro z m hm
    rw [hin z]
    by_cases h : z = x
    · subst h; rw [put_same] at hm; cases hm
      have := hi.count z n hn
      simp only [change, if_true]
      omega
    · rw [put_other _ _ h] at hm
      have := hi.count z m hm
      simp only [change, if_neg h]
      exact this
  · intro z hz
    rw [hin z] at hz
    by_cases h : z = x
    · subst h; exact ⟨_, put_same _ _ _⟩
    · rw [put_other _ _ h]
      refine hi.target z ?_
      simp only [change, if_neg h] at hz
      exact hz

theorem fits_change {g : Graph} {y : Nat} {k : Slot} {t : Option Nat}
    (hf : ∀ y k x, g.link y k = some x → Fits g y k x ∧ x < g.made ∧ y < g.made)
    (ht : ∀ x, t = some x → Fits g y k x ∧ x < g.made ∧ y < g.made) :
    ∀ z j x, change g.link y (change (g.link y) k t) z j = some x → Fits g z j x ∧ x < g.made ∧ z < g.made := by
  intro z j x h
  simp only [change] at h
  by_cases hz : z = y
  · subst hz
    rw [if_pos rfl] at h
    by_cases hj : j = k
    · subst hj
      simp only [change, if_true] at h
      exact ht x h
    · simp only [change, if_neg hj] at h
      exact hf z j x h
  · rw [if_neg hz] at h
    exact hf z j x h

theorem slots_change {g : Graph} {y : Nat} {k : Slot} {t : Option Nat} (hk : k ∈ (g.kind y).slots)
    (hs : ∀ x k, k ∉ (g.kind x).slots → g.link x k = none) :
    ∀ x j, j ∉ (g.kind x).slots → change g.link y (change (g.link y) k t) x j = none := by
  intro x j h
  simp only [change]
  by_cases hx : x = y
  · subst hx
    rw [if_pos rfl]
    by_cases hj : j = k
    · subst hj; exact absurd hk h
    · simp only [change, if_neg hj]; exact hs x j h
  · rw [if_neg hx]; exact hs x j h

/-- Changing a pointer. What it pointed to is still counted if `o` is among the releases to be made. -/
theorem link_inv {g : Graph} {s : State} {y : Nat} {k : Slot} {n : Node} {w w' : List Nat} {t : Option Nat}
    (hi : Inv g s w) (hn : s.node y = some n) (hk : k ∈ (g.kind y).slots)
    (ht : ∀ x, t = some x → Fits g y k x ∧ Alive s x)
    (hw : ∀ z, w'.count z + t.toList.count z = w.count z + (n.link k).toList.count z) :
    Inv (effect g (.set y k t)) (put s y (some { n with link := upd n.link k t })) w' := by
  have hy := hi.lt hn
  obtain ⟨a1, a2, a3, a4⟩ := hi.agree y n hn
  have hin : ∀ z, inlinks (put s y (some { n with link := upd n.link k t })) z + (n.link k).toList.count z =
      inlinks s z + t.toList.count z := by
    intro z
    have h1 := inlinks_put (some { n with link := upd n.link k t }) hy z
    rw [owns_eq hn, owns_same] at h1
    have h2 := count_upd n (k := k) (by rw [a1]; exact hk) t z
    simp only at h1
    omega
  have hcount : ∀ z, inlinks (put s y (some { n with link := upd n.link k t })) z + w'.count z =
      inlinks s z + w.count z := by
    intro z
    have := hin z
    have := hw z
    omega
  refine ⟨hi.made, ?_, ?_, ?_, ?_, slots_change hk hi.slots, fits_change hi.fits ?_⟩
  · intro z hz
    rw [put_other _ _ (by rw [put_next] at hz; omega)]
    exact hi.bound z hz
  · intro z m hm
    by_cases h : z = y
    · subst h; rw [put_same] at hm; cases hm
      refine ⟨a1, a2, a3, ?_⟩
      funext j
      simp only [effect, change, if_true, upd, a4]
    · rw [put_other _ _ h] at hm
      obtain ⟨b1, b2, b3, b4⟩ := hi.agree z m hm
      refine ⟨b1, b2, b3, ?_⟩
      rw [b4]
      simp only [effect, change, if_neg h]
  · intro z m hm
    have hc := hcount z
    have key : ∀ m, s.node z = some m → 0 < m.count ∧
        m.count = g.holds z + inlinks (put s y (some { n with link := upd n.link k t })) z + w'.count z := by
      intro m hm
      have := hi.count z m hm
      omega
    by_cases h : z = y
    · subst h; rw [put_same] at hm; cases hm
      exact key n hn
    · rw [put_other _ _ h] at hm
      exact key m hm
  · intro z hz
    have hc := hcount z
    by_cases h : z = y
    · subst h; exact ⟨_, put_same _ _ _⟩
    · rw [put_other _ _ h]
      refine hi.target z ?_
      have : (effect g (.set y k t)).holds z = g.holds z := rfl
      omega
  · intro x hx
    obtain ⟨h1, m, hm⟩ := ht x hx
    have := hi.lt hm
    have := hi.made
    exact ⟨h1, by omega, by omega⟩

/-- Counting a release that is still to be made. -/
theorem pending_inv {g : Graph} {s : State} {x : Nat} {n : Node} (hi : Inv g s []) (hn : s.node x = some n) :
    Inv g (put s x (some { n with count := n.count + 1 })) [x] := by
  have h := retain_inv hi hn rfl
  refine ⟨h.made, h.bound, h.agree, ?_, ?_, h.slots, h.fits⟩
  · intro z m hm
    have := h.count z m hm
    by_cases hz : z = x
    · subst hz
      simp only [change, if_true, List.count_nil] at this
      simp only [List.count_cons_self, List.count_nil]
      omega
    · simp only [change, if_neg hz] at this
      rw [List.count_cons_of_ne (fun e => hz e.symm)]
      exact this
  · intro z hz'
    by_cases hz : z = x
    · subst hz; exact ⟨_, put_same _ _ _⟩
    · refine h.target z ?_
      rw [List.count_cons_of_ne (fun e => hz e.symm)] at hz'
      simp only [change, if_neg hz]
      exact hz'

theorem put_comm {s : State} {x y : Nat} (a b : Option Node) (h : x ≠ y) : put (put s x a) y b = put (put s y b) x a := by
  unfold put
  congr 1
  funext z
  by_cases h1 : z = x
  · subst h1; simp [h]
  · simp [h1]

theorem put_put {s : State} {x : Nat} (a b : Option Node) : put (put s x a) x b = put s x b := by
  unfold put
  congr 1
  funext z
  by_cases h1 : z = x <;> simp [h1]

theorem effect_cut (g : Graph) (y : Nat) (k : Slot) (t : Option Nat) : effect (cut g y k) (.set y k t) = effect g (.set y k t) := by
  simp only [effect, cut]
  congr 1
  funext z
  simp only [change]
  by_cases hz : z = y
  · subst hz
    simp only [if_true]
    funext j
    simp only [change]
    by_cases hj : j = k <;> simp [hj]
  · simp [hz]

theorem assign_inv {g : Graph} {s : State} {y : Nat} {k : Slot} {t : Option Nat} (hi : Inv g s []) (hy : Reach g y)
    (hk : k ∈ (g.kind y).slots) (ht : ∀ x, t = some x → Reach (cut g y k) x ∧ Fits g y k x) :
    ∃ s', assign s y k t = .ok s' ∧ Inv (effect g (.set y k t)) s' [] := by
  obtain ⟨n, hn⟩ := reach_alive hi hy
  have h1 : Inv (cut g y k) (put s y (some { n with link := upd n.link k none })) (n.link k).toList :=
    link_inv (t := none) hi hn hk (by simp) (by simp)
  have h2 : ∃ s2, releaseOpt (put s y (some { n with link := upd n.link k none })) (n.link k) = .ok s2 ∧
      Inv (cut g y k) s2 [] := by
    cases hl : n.link k with
    | none => rw [hl] at h1; exact ⟨_, rfl, h1⟩
    | some o => rw [hl] at h1; exact release_ok h1
  obtain ⟨s2, h3, h4⟩ := h2
  obtain ⟨n2, hn2⟩ := reach_alive h4 (reach_cut_self hy)
  have hl2 : n2.link k = none := by
    rw [(h4.agree y n2 hn2).2.2.2]
    simp [cut, change]
  unfold assign
  rw [get_ok hn, Res.ok_bind, h3, Res.ok_bind, get_ok hn2, Res.ok_bind, ← effect_cut]
  cases t with
  | none => exact ⟨_, rfl, link_inv h4 hn2 hk (by simp) (by simp [hl2])⟩
  | some x =>
    obtain ⟨hx, hf⟩ := ht x rfl
    obtain ⟨m, hm⟩ := reach_alive h4 hx
    have h5 := pending_inv h4 hm
    simp only [retainOpt, retain]
    by_cases hxy : x = y
    · subst hxy
      rw [hn2] at hm
      cases hm
      rw [get_ok (put_same _ _ _), Res.ok_bind, put_put]
      refine ⟨_, rfl, ?_⟩
      have h6 := link_inv (t := some x) (w' := []) h5 (put_same _ _ _) hk
        (fun z hz => by cases hz; exact ⟨hf, _, put_same _ _ _⟩) (by simp [hl2])
      rw [put_put] at h6
      exact h6
    · rw [get_ok (by rw [put_other _ _ hxy]; exact hm), Res.ok_bind, put_comm _ _ (fun e => hxy e.symm)]
      refine ⟨_, rfl, ?_⟩
      exact link_inv (t := some x) (w' := []) h5 (by rw [put_other _ _ (fun e => hxy e.symm)]; exact hn2) hk
        (fun z hz => by cases hz; exact ⟨hf, _, put_same _ _ _⟩) (by simp [hl2])

theorem make_link {g : Graph} {k : Kind} {name : Option Bytes} (z : Nat) (j : Slot) (x : Nat) :
    (make g k name none).link z j = some x → z ≠ g.made ∧ g.link z j = some x := by
  intro h
  simp only [make, change] at h
  by_cases hz : z = g.made
  · rw [if_pos hz] at h; simp only [change, ite_self] at h; cases h
  · rw [if_neg hz] at h; exact ⟨hz, h⟩

theorem alloc_inv {g : Graph} {s : State} (hi : Inv g s []) (k : Kind) (name : Option Bytes)
    (hh : ∀ x, g.made ≤ x → g.holds x = 0) : Inv (make g k name none) (alloc s k name) [] := by
  have hfresh : s.node s.next = none := hi.bound _ (Nat.le_refl _)
  have hin : ∀ z, inlinks (alloc s k name) z = inlinks s z := by
    intro z
    unfold inlinks
    show total (s.next + 1) _ = _
    rw [total]
    have h0 : (owns (alloc s k name) s.next).count z = 0 := by
      simp only [owns, alloc, put, if_true, Node.targets]
      cases k <;> simp [Kind.slots]
    rw [h0, Nat.add_zero]
    refine total_congr _ fun y hy => ?_
    have : y ≠ s.next := by omega
    simp only [owns, alloc, put, if_neg this]
  have hz0 : inlinks s s.next = 0 := by
    by_cases h : 0 < inlinks s s.next
    · obtain ⟨n, hn⟩ := hi.target s.next (by omega)
      rw [hfresh] at hn; cases hn
    · omega
  have hmade := hi.made
  refine ⟨by show s.next + 1 = g.made + 1; omega, ?_, ?_, ?_, ?_, ?_, ?_⟩
  · intro x hx
    have h1 : s.next + 1 ≤ x := hx
    have : x ≠ s.next := by omega
    simp only [alloc, put, if_neg this]
    exact hi.bound x (by omega)
  · intro x n hn
    simp only [alloc, put] at hn
    by_cases hx : x = s.next
    · rw [if_pos hx] at hn
      cases hn
      have : x = g.made := by omega
      subst this
      simp only [make, change, if_true, true_and]
      funext j
      simp only [change]
      split <;> rfl
    · rw [if_neg hx] at hn
      have : x ≠ g.made := by omega
      simp only [make, change, if_neg this]
      exact hi.agree x n hn
  · intro x n hn
    rw [hin x]
    simp only [alloc, put] at hn
    by_cases hx : x = s.next
    · rw [if_pos hx] at hn
      cases hn
      have : x = g.made := by omega
      subst this
      simp only [make, change, if_true, List.count_nil]
      rw [hx, hz0]
      omega
    · rw [if_neg hx] at hn
      have : x ≠ g.made := by omega
      simp only [make, change, if_neg this]
      exact hi.count x n hn
  · intro x h
    rw [hin x] at h
    by_cases hx : x = s.next
    · exact ⟨_, by simp only [alloc, put, if_pos hx]; rfl⟩
    · have : x ≠ g.made := by omega
      simp only [make, change, if_neg this] at h
      obtain ⟨n, hn⟩ := hi.target x h
      exact ⟨n, by simp only [alloc, put, if_neg hx]; exact hn⟩
  · intro x j hj
    simp only [make, change] at hj ⊢
    by_cases hx : x = g.made
    · rw [if_pos hx]; simp only [change, ite_self]
    · rw [if_neg hx] at hj ⊢
      exact hi.slots x j hj
  · intro z j x h
    obtain ⟨hz, h⟩ := make_link z j x h
    obtain ⟨h1, h2, h3⟩ := hi.fits z j x h
    have hx : x ≠ g.made := by omega
    refine ⟨?_, by show x < g.made + 1; omega, by show z < g.made + 1; omega⟩
    unfold Fits at *
    cases j <;> simp only [make, change, if_neg hz, if_neg hx] at * <;> exact h1

/-- Nothing is held that was not made. -/
def Bounded (g : Graph) : Prop := ∀ x, g.made ≤ x → g.holds x = 0

theorem reach_make {g : Graph} {k : Kind} {name : Option Bytes} (hb : Bounded g)
    (hf : ∀ y k x, g.link y k = some x → Fits g y k x ∧ x < g.made ∧ y < g.made) {x : Nat} (h : Reach g x) :
    Reach (make g k name none) x := by
  induction h with
  | @held x h =>
    refine .held ?_
    have : x ≠ g.made := by
      rintro rfl
      have := hb _ (Nat.le_refl _)
      omega
    simp only [make, change, if_neg this]
    exact h
  | @link y j x _ hk ih =>
    refine .link ih (k := j) ?_
    have : y ≠ g.made := by have := (hf y j x hk).2.2; omega
    simp only [make, change, if_neg this]
    exact hk

theorem reach_lt {g : Graph} (hb : Bounded g)
    (hf : ∀ y k x, g.link y k = some x → Fits g y k x ∧ x < g.made ∧ y < g.made) {x : Nat} (h : Reach g x) : x < g.made := by
  cases h with
  | held h =>
    by_cases hx : x < g.made
    · exact hx
    · have := hb x (by omega); omega
  | link _ hk => exact (hf _ _ _ hk).2.1

theorem cut_make (g : Graph) (k : Kind) (name : Option Bytes) : cut (make g k name none) g.made .value = make g k name none := by
  unfold cut make
  congr 1
  funext z
  by_cases hz : z = g.made
  · subst hz
    simp only [change, if_true]
    funext j
    simp only [change]
    by_cases hj : j = Slot.value <;> simp [hj]
  · simp [change, hz]

theorem step_inv {g : Graph} {s : State} {op : Op} (hi : Inv g s []) (hb : Bounded g) (ha : Allowed g op) :
    ∃ s', step s op = .ok s' ∧ Inv (effect g op) s' [] ∧ Bounded (effect g op) := by
  have bmake : ∀ k name v, Bounded (make g k name v) := by
    intro k name v x hx
    have hx : g.made + 1 ≤ x := hx
    have : x ≠ g.made := by omega
    simp only [make, change, if_neg this]
    exact hb x (by omega)
  cases op with
  | newValue => exact ⟨_, rfl, alloc_inv hi _ _ hb, bmake _ _ _⟩
  | newObject name => exact ⟨_, rfl, alloc_inv hi _ _ hb, bmake _ _ _⟩
  | newProperty name value =>
    cases value with
    | none => exact ⟨_, rfl, alloc_inv hi _ _ hb, bmake _ _ _⟩
    | some v =>
      obtain ⟨hv, hvk⟩ := ha v rfl
      have h1 := alloc_inv hi .property name hb
      have hv' : Reach (make g .property name none) v := reach_make hb hi.fits hv
      have hvm : v ≠ g.made := by have := reach_lt hb hi.fits hv; omega
      have hself : Reach (make g .property name none) g.made := .held (by simp [make, change])
      obtain ⟨s', h2, h3⟩ := assign_inv (k := .value) (t := some v) h1 hself (by simp [make, change, Kind.slots])
        (fun x hx => by
          cases hx
          refine ⟨by rw [cut_make]; exact hv', ?_⟩
          simp only [Fits, make, change, if_neg hvm]
          exact hvk)
      refine ⟨s', ?_, ?_, bmake _ _ _⟩
      · simp only [step]
        rw [hi.made]
        exact h2
      · have : effect (make g .property name none) (.set g.made .value (some v)) = effect g (.newProperty name (some v)) := by
          simp only [effect, make]
          congr 1
          funext z
          by_cases hz : z = g.made
          · subst hz
            simp only [change, if_true]
            funext j
            simp only [change]
            by_cases hj : j = Slot.value <;> simp [hj]
          · simp [change, hz]
        rw [← this]
        exact h3
  | retain x =>
    obtain ⟨n, hn⟩ := reach_alive hi ha
    refine ⟨_, by simp only [step, retain, get_ok hn, Res.ok_bind, Res.pure_eq], retain_inv hi hn rfl, ?_⟩
    intro z hz
    have := reach_lt hb hi.fits ha
    have hz : g.made ≤ z := hz
    simp only [effect, change, if_neg (show z ≠ x by omega)]
    exact hb z hz
  | release x =>
    have ha : 0 < g.holds x := ha
    have h1 : Inv (effect g (.release x)) s [x] := by
      refine ⟨hi.made, hi.bound, hi.agree, ?_, ?_, hi.slots, hi.fits⟩
      · intro z n hn
        have := hi.count z n hn
        simp only [effect, change]
        by_cases hz : z = x
        · subst hz
          simp only [if_true, List.count_cons_self, List.count_nil] at *
          omega
        · rw [if_neg hz, List.count_cons_of_ne (fun e => hz e.symm)]
          exact this
      · intro z hz'
        refine hi.target z ?_
        simp only [effect, change] at hz'
        by_cases hz : z = x
        · subst hz; omega
        · rw [if_neg hz, List.count_cons_of_ne (fun e => hz e.symm)] at hz'
          exact hz'
    obtain ⟨s', h2, h3⟩ := release_ok h1
    refine ⟨s', h2, h3, ?_⟩
    intro z hz
    have hz : g.made ≤ z := hz
    simp only [effect, change]
    split
    · rename_i e; subst e; have := hb z hz; omega
    · exact hb z hz
  | set y k t =>
    obtain ⟨h1, h2, h3⟩ := ha
    obtain ⟨n, hn⟩ := reach_alive hi h1
    obtain ⟨s', h4, h5⟩ := assign_inv hi h1 h2 h3
    refine ⟨s', ?_, h5, hb⟩
    simp only [step, get_ok hn, Res.ok_bind]
    rw [if_pos (by rw [(hi.agree y n hn).1]; exact h2)]
    exact h4
  | use x =>
    obtain ⟨n, hn⟩ := reach_alive hi ha
    exact ⟨s, by simp only [step, get_ok hn, Res.ok_bind, Res.pure_eq], hi, hb⟩
  | setParent o p =>
    have ha : Reach g o := ha
    obtain ⟨n, hn⟩ := reach_alive hi ha
    have ho := hi.lt hn
    refine ⟨_, by simp only [step, get_ok hn, Res.ok_bind, Res.pure_eq]; rfl, ?_, hb⟩
    have hin : ∀ z, inlinks (put s o (some { n with parent := p })) z = inlinks s z := by
      intro z
      have := inlinks_put (some { n with parent := p }) ho z
      rw [owns_eq hn, owns_same] at this
      simp only [Node.targets] at this
      omega
    refine ⟨hi.made, ?_, ?_, ?_, ?_, hi.slots, hi.fits⟩
    · intro z hz
      rw [put_other _ _ (by rw [put_next] at hz; omega)]
      exact hi.bound z hz
    · intro z m hm
      obtain h | h := Classical.em (z = o)
      · subst h; rw [put_same] at hm; cases hm
        obtain ⟨a1, a2, _, a4⟩ := hi.agree z n hn
        exact ⟨a1, a2, by simp [effect, change], a4⟩
      · rw [put_other _ _ h] at hm
        obtain ⟨a1, a2, a3, a4⟩ := hi.agree z m hm
        exact ⟨a1, a2, by simp only [effect, change, if_neg h]; exact a3, a4⟩
    · intro z m hm
      rw [hin z]
      by_cases h : z = o
      · subst h; rw [put_same] at hm; cases hm; exact hi.count z n hn
      · rw [put_other _ _ h] at hm; exact hi.count z m hm
    · intro z hz
      rw [hin z] at hz
      by_cases h : z = o
      · subst h; exact ⟨_, put_same _ _ _⟩
      · rw [put_other _ _ h]; exact hi.target z hz
  | useParent o =>
    obtain ⟨h1, h2⟩ := ha
    obtain ⟨n, hn⟩ := reach_alive hi h1
    refine ⟨s, ?_, hi, hb⟩
    simp only [step, get_ok hn, Res.ok_bind]
    have hp := (hi.agree o n hn).2.2.1
    cases hpar : n.parent with
    | none => rfl
    | some p =>
      obtain ⟨m, hm⟩ := reach_alive hi (h2 p (by rw [← hp]; exact hpar))
      simp only [get_ok hm, Res.ok_bind, Res.pure_eq]

theorem init_inv : Inv Graph.empty State.init [] where
  made := rfl
  bound _ _ := rfl
  agree _ _ h := by cases h
  count _ _ h := by cases h
  target x h := by simp [Graph.empty, inlinks, State.init, total] at h
  slots _ _ _ := rfl
  fits _ _ _ h := by cases h

theorem run_inv {g : Graph} {s : State} : ∀ ops, Inv g s [] → Bounded g → Careful g ops →
    ∃ s', run s ops = .ok s' ∧ Inv (ops.foldl effect g) s' [] ∧ Bounded (ops.foldl effect g) := by
  intro ops
  induction ops generalizing g s with
  | nil => intro hi hb _; exact ⟨s, rfl, hi, hb⟩
  | cons op ops ih =>
    rintro hi hb ⟨h1, h2⟩
    obtain ⟨s1, e1, i1, b1⟩ := step_inv hi hb h1
    obtain ⟨s2, e2, i2, b2⟩ := ih i1 b1 h2
    exact ⟨s2, by simp only [run, e1, Res.ok_bind, e2], i2, b2⟩

theorem after_inv {ops : List Op} (h : Careful Graph.empty ops) :
    ∃ s, run State.init ops = .ok s ∧ Inv (after ops) s [] ∧ Bounded (after ops) :=
  run_inv ops init_inv (fun _ _ => rfl) h

end Verif.Retain
