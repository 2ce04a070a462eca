import Verif.Spec.Vector

namespace Verif.Vector

open Verif

/-- The slots hold the items followed by at least one free slot (or there is no allocation). -/
def Holds {α} (v : Vec α) (l : List α) : Prop :=
  v.count = l.length ∧
  ((v.slots = [] ∧ l = []) ∨ ∃ m, v.slots = l.map some ++ List.replicate (m + 1) none)

theorem push_holds {α} {v : Vec α} {l : List α} (h : Holds v l) (x : α) :
    ∃ v', pushBack v x = .ok v' ∧ Holds v' (l ++ [x]) := by
  obtain ⟨hc, h | ⟨m, h⟩⟩ := h
  · obtain ⟨h1, h2⟩ := h
    subst h2
    refine ⟨{ slots := (List.replicate block none).set 0 (some x), count := 1 }, ?_, ?_⟩
    · simp [pushBack, grow, store, h1, hc, block]
    · refine ⟨rfl, .inr ⟨14, rfl⟩⟩
  · have hg : ∃ k, grow v = l.map some ++ none :: List.replicate (k + 1) none := by
      unfold grow
      rw [h, hc]
      by_cases hm : m = 0
      · subst hm
        refine ⟨15, ?_⟩
        rw [if_neg (by simp), if_pos (by simp)]
        simp [block]
      · refine ⟨m - 1, ?_⟩
        rw [if_neg (by simp), if_neg (by simp; omega)]
        rw [show m + 1 = (m - 1 + 1) + 1 by omega, List.replicate_succ]
    obtain ⟨k, hk⟩ := hg
    refine ⟨{ slots := l.map some ++ some x :: List.replicate (k + 1) none, count := l.length + 1 }, ?_, ?_⟩
    · simp [pushBack, hk, store, hc]
    · exact ⟨by simp, .inr ⟨k, by simp⟩⟩

theorem load_at {α} (l : List α) (t : List (Option α)) (i : Nat) (hi : i < l.length) :
    load (l.map some ++ t) i = .ok (some l[i]) := by
  unfold load
  rw [List.getElem?_append_left (by simpa using hi)]
  simp [hi]

/-- Searching from `i` finds what searching the items from `i` finds. -/
theorem search_holds {α} (p : α → Bool) (l : List α) (t : List (Option α)) :
    ∀ n i, i + n = l.length →
      search p (l.map some ++ t) n i = .ok (((l.drop i).findIdx? p).map (· + i)) := by
  intro n
  induction n with
  | zero =>
    intro i hi
    rw [List.drop_eq_nil_of_le (by omega)]
    rfl
  | succ n ih =>
    intro i hi
    have hlt : i < l.length := by omega
    unfold search
    rw [load_at l t i hlt]
    simp only [Res.ok_bind]
    rw [List.drop_eq_getElem_cons hlt, List.findIdx?_cons]
    by_cases hp : p l[i]
    · simp [hp]
    · rw [if_neg hp, if_neg hp, ih (i + 1) (by omega)]
      simp only [Option.map_map]
      congr 2
      funext k
      simp only [Function.comp]
      omega

theorem shift_ok {α} : ∀ (n i : Nat) (pre : List (Option α)) (x : Option α) (mid : List (Option α))
    (y : Option α) (post : List (Option α)), pre.length = i → mid.length + 1 = n →
      shift n i (pre ++ x :: (mid ++ y :: post)) = .ok (pre ++ mid ++ y :: y :: post) := by
  intro n
  induction n with
  | zero => intro i pre x mid y post _ h; omega
  | succ n ih =>
    intro i pre x mid y post hi hm
    unfold shift
    cases mid with
    | nil =>
      have hn : n = 0 := by simp at hm; omega
      subst hn
      have h1 : load (pre ++ x :: ([] ++ y :: post)) (i + 1) = .ok y := by
        unfold load
        rw [List.getElem?_append_right (by omega)]
        simp [← hi]
      rw [h1]
      simp only [Res.ok_bind, store, List.nil_append]
      rw [if_pos (by simp; omega)]
      simp [shift, ← hi]
    | cons z mid =>
      have h1 : load (pre ++ x :: (z :: mid ++ y :: post)) (i + 1) = .ok z := by
        unfold load
        rw [List.getElem?_append_right (by omega)]
        simp [← hi]
      rw [h1]
      simp only [Res.ok_bind, store, List.cons_append]
      rw [if_pos (by simp; omega)]
      simp only [Res.ok_bind]
      have : (pre ++ x :: z :: (mid ++ y :: post)).set i z = (pre ++ [z]) ++ z :: (mid ++ y :: post) := by
        simp [← hi]
      rw [this, ih (i + 1) (pre ++ [z]) z mid y post (by simp [hi]) (by simp at hm; omega)]
      simp

theorem clear_ok {α} : ∀ (n i : Nat) (pre post : List (Option α)), pre.length = i → post.length = n →
    clear n i (pre ++ post) = .ok (pre ++ List.replicate n none) := by
  intro n
  induction n with
  | zero =>
    intro i pre post _ h
    rw [List.length_eq_zero_iff] at h
    subst h
    simp [clear]
  | succ n ih =>
    intro i pre post hi hp
    cases post with
    | nil => simp at hp
    | cons x post =>
      unfold clear store
      rw [if_pos (by simp; omega)]
      simp only [Res.ok_bind]
      have : (pre ++ x :: post).set i none = (pre ++ [none]) ++ post := by simp [← hi]
      rw [this, ih (i + 1) (pre ++ [none]) post (by simp [hi]) (by simpa using hp)]
      simp [List.replicate_succ]

theorem findIdx_split {α} (p : α → Bool) (l : List α) (i : Nat) (h : l.findIdx? p = some i) :
    i < l.length ∧ l.eraseP p = l.take i ++ l.drop (i + 1) := by
  induction l generalizing i with
  | nil => simp at h
  | cons a l ih =>
    rw [List.findIdx?_cons] at h
    by_cases hp : p a
    · simp only [hp, if_pos, Option.some.injEq] at h
      subst h
      simp [hp]
    · rw [if_neg hp] at h
      cases hj : l.findIdx? p with
      | none => simp [hj] at h
      | some j =>
        simp only [hj, Option.map_some, Option.some.injEq] at h
        subst h
        obtain ⟨h1, h2⟩ := ih j hj
        refine ⟨by simpa using h1, ?_⟩
        simp [hp, h2]

theorem remove_holds {α} {v : Vec α} {l : List α} (h : Holds v l) (p : α → Bool) :
    ∃ v', removeBy v p = .ok (v', l.any p) ∧ Holds v' (l.eraseP p) := by
  obtain ⟨hc, h | ⟨m, h⟩⟩ := h
  · obtain ⟨h1, h2⟩ := h
    subst h2
    refine ⟨v, ?_, hc, .inl ⟨h1, rfl⟩⟩
    simp [removeBy, hc, search]
  · unfold removeBy
    rw [hc, h, search_holds p l _ l.length 0 (by omega)]
    simp only [List.drop_zero, Res.ok_bind]
    cases hf : l.findIdx? p with
    | none =>
      have hn : ∀ x ∈ l, p x = false := by
        rw [List.findIdx?_eq_none_iff] at hf
        simpa using hf
      refine ⟨v, ?_, ?_⟩
      · simp only [Option.map_none, Res.pure_eq]
        congr 2
        symm
        rw [List.any_eq_false]
        intro x hx
        simp [hn x hx]
      · rw [List.eraseP_of_forall_not (by intro x hx; simp [hn x hx])]
        exact ⟨hc, .inr ⟨m, h⟩⟩
    | some i =>
      obtain ⟨hi, he⟩ := findIdx_split p l i hf
      have hany : l.any p = true := by
        rw [List.findIdx?_eq_some_iff_getElem] at hf
        obtain ⟨hl, hp, _⟩ := hf
        rw [List.any_eq_true]
        exact ⟨l[i], by simp, hp⟩
      have hsplit : l.map some ++ List.replicate (m + 1) none
          = (l.take i).map some ++ some l[i] :: ((l.drop (i + 1)).map some ++ none :: List.replicate m none) := by
        have hl : l = l.take i ++ l[i] :: l.drop (i + 1) := by simp
        have hm := congrArg (List.map some) hl
        rw [List.map_append, List.map_cons] at hm
        rw [hm, List.replicate_succ]
        simp only [List.append_assoc, List.cons_append]
      simp only [Option.map_some, Nat.add_zero]
      rw [hsplit, shift_ok (l.length - i) i _ _ _ _ _ (by simp; omega) (by simp; omega)]
      simp only [Res.ok_bind]
      have hre : List.map some (l.take i) ++ List.map some (l.drop (i + 1)) ++ none :: none :: List.replicate m none
          = (List.map some (l.eraseP p) ++ [none]) ++ List.replicate (m + 1) none := by
        rw [he]
        simp [List.replicate_succ]
      have hel : (l.eraseP p).length + 1 = l.length := by
        rw [he]
        simp
        omega
      rw [hre, clear_ok _ _ _ _ (by simp; omega) (by simp; omega)]
      refine ⟨_, by simp only [Res.ok_bind, Res.pure_eq, hany]; rfl, ?_⟩
      refine ⟨by simp; omega, .inr ⟨m + 1, ?_⟩⟩
      have e : (List.map some (l.eraseP p) ++ [none] ++ List.replicate (m + 1) none).length - l.length
        = m + 1 := by simp; omega
      simp only [e]
      simp [List.replicate_succ]

theorem at_holds {α} {v : Vec α} {l : List α} (h : Holds v l) (i : Nat) : at' v i = .ok l[i]? := by
  obtain ⟨hc, h | ⟨m, h⟩⟩ := h
  · obtain ⟨h1, h2⟩ := h
    subst h2
    simp [at', hc]
  · unfold at'
    rw [hc]
    split
    · rw [List.getElem?_eq_none (by omega)]
    · rw [h, load_at l _ i (by omega), List.getElem?_eq_getElem (by omega)]

theorem find_holds {α} {v : Vec α} {l : List α} (h : Holds v l) (p : α → Bool) :
    find v p = .ok (l.find? p) := by
  obtain ⟨hc, h | ⟨m, h⟩⟩ := h
  · obtain ⟨h1, h2⟩ := h
    subst h2
    simp [find, hc, search]
  · unfold find
    rw [hc, h, search_holds p l _ l.length 0 (by omega)]
    simp only [List.drop_zero, Res.ok_bind]
    cases hf : l.findIdx? p with
    | none =>
      rw [List.findIdx?_eq_none_iff] at hf
      simp only [Option.map_none, Res.pure_eq]
      congr 1
      symm
      rw [List.find?_eq_none]
      intro x hx
      simp [hf x hx]
    | some i =>
      simp only [Option.map_some, Nat.add_zero]
      rw [List.findIdx?_eq_some_iff_getElem] at hf
      obtain ⟨hl, hp, hmin⟩ := hf
      rw [load_at l _ i hl]
      congr 1
      symm
      rw [List.find?_eq_some_iff_getElem]
      exact ⟨hp, i, hl, rfl, fun j hj => by simpa using hmin j hj⟩

theorem step_holds {α} {v : Vec α} {l : List α} (h : Holds v l) (op : Op α) :
    ∃ v', step v op = .ok (v', (specStep l op).2) ∧ Holds v' (specStep l op).1 := by
  cases op with
  | push x =>
    obtain ⟨v', h1, h2⟩ := push_holds h x
    exact ⟨v', by simp [step, h1, specStep], h2⟩
  | removeBy p =>
    obtain ⟨v', h1, h2⟩ := remove_holds h p
    exact ⟨v', by simp [step, h1, specStep], h2⟩
  | at' i => exact ⟨v, by simp [step, at_holds h, specStep], h⟩
  | size => exact ⟨v, by simp [step, size, h.1, specStep], h⟩
  | find p => exact ⟨v, by simp [step, find_holds h, specStep], h⟩

theorem run_holds {α} (ops : List (Op α)) : ∀ {v : Vec α} {l : List α}, Holds v l →
    ∃ v', run v ops = .ok (v', (specRun l ops).2) ∧ Holds v' (specRun l ops).1 := by
  induction ops with
  | nil => intro v l h; exact ⟨v, rfl, h⟩
  | cons op ops ih =>
    intro v l h
    obtain ⟨v1, h1, h2⟩ := step_holds h op
    obtain ⟨v2, h3, h4⟩ := ih h2
    exact ⟨v2, by simp [run, h1, h3, specRun], h4⟩

end Verif.Vector
