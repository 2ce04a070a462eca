import Verif.Spec.Reconnect
import Verif.Proof.Exec

/-!
# Proofs about remaking the connection
-/

namespace Verif.Reconnect

open Verif.Dispatch (Listener fill clear maxListeners)

theorem fill_at {l t t'} (h : fill l t = some t') : ∃ k, t[k]? = some none ∧ t' = t.set k (some l) := by
  induction t generalizing t' with
  | nil => cases h
  | cons x r ih =>
    cases x with
    | none => cases h; exact ⟨0, rfl, rfl⟩
    | some y =>
      simp only [fill, Option.map_eq_some_iff] at h
      obtain ⟨r', hr, rfl⟩ := h
      obtain ⟨k, h1, h2⟩ := ih hr
      exact ⟨k + 1, by simpa using h1, by simp [h2]⟩

theorem clear_at {p t t' i} (h : clear p t = some (t', i)) :
    ∃ k l, t[k]? = some (some l) ∧ p l = true ∧ l.id = i ∧ t' = t.set k none := by
  induction t generalizing t' with
  | nil => cases h
  | cons x r ih =>
    cases x with
    | none =>
      simp only [clear, Option.map_eq_some_iff] at h
      obtain ⟨⟨r', i'⟩, hr, he⟩ := h
      cases he
      obtain ⟨k, l, h1, h2, h3, h4⟩ := ih hr
      exact ⟨k + 1, l, by simpa using h1, h2, h3, by simp [h4]⟩
    | some y =>
      simp only [clear] at h
      split at h
      · next hp => cases h; exact ⟨0, y, rfl, hp, rfl, rfl⟩
      · simp only [Option.map_eq_some_iff] at h
        obtain ⟨⟨r', i'⟩, hr, he⟩ := h
        cases he
        obtain ⟨k, l, h1, h2, h3, h4⟩ := ih hr
        exact ⟨k + 1, l, by simpa using h1, h2, h3, by simp [h4]⟩

theorem clear_nothing {p t} (h : clear p t = none) : ∀ l, some l ∈ t → p l = false := by
  induction t with
  | nil => simp
  | cons x r ih =>
    cases x with
    | none =>
      simp only [clear, Option.map_eq_none_iff] at h
      intro l hl
      exact ih h l (by simpa using hl)
    | some y =>
      simp only [clear] at h
      split at h
      · cases h
      · next hp =>
        simp only [Option.map_eq_none_iff] at h
        intro l hl
        rcases List.mem_cons.mp hl with he | hl
        · cases he; simpa using hp
        · exact ih h l hl

/-- The entry at an index is in use, with a topic and an id. -/
def HasAt (s : State) (k : Nat) (t : Bytes) (i : Nat) : Prop :=
  ∃ l, s.slots[k]? = some (some l) ∧ l.expr = t ∧ l.id = i

theorem listens_iff (s : State) (t i) : Listens s t i ↔ ∃ k, HasAt s k t i := by
  unfold Listens HasAt
  constructor
  · rintro ⟨cb, h⟩
    obtain ⟨k, hk⟩ := List.mem_iff_getElem?.mp h
    exact ⟨k, _, hk, rfl, rfl⟩
  · rintro ⟨k, ⟨i', t', cb⟩, hk, rfl, rfl⟩
    exact ⟨cb, List.mem_iff_getElem?.mpr ⟨k, hk⟩⟩

/-- How far the thread has come in telling the router. -/
def toldTo : Place → Option Nat
  | .telling _ _ i => some i
  | .reading _ _ i => some i
  | _ => none

/-- A listener that was added, or whose removal is not done. -/
def Live (s : State) (t : Bytes) (i : Nat) : Prop :=
  (∃ k, HasAt s k t i) ∨ ∃ n, jobOf (s.place n) = some (.remove t i)

structure Inv (s : State) : Prop where
  closed : s.closed = false
  plain : ∀ n j t, s.place n ≠ .opening j t true
  flat : ∀ n j t i, s.place n ≠ .nested j t i
  noAlias : ∀ n t i, jobOf (s.place n) ≠ some (.alias t i)
  one : ∀ n m, Remaking (s.place n) → Remaking (s.place m) → n = m
  prog : s.inProgress = true ↔ ∃ n, Remaking (s.place n)
  down : s.link = false → s.routes = []
  noNames : s.aliases = []
  shut : ∀ n j t f, s.place n = .opening j t f → s.link = false
  openUp : ∀ n i, toldTo (s.place n) = some i → s.link = true
  entry : ∀ n j t i, s.place n = .reading j t i → ∃ t' i', HasAt s i t' i'
  slot : ∀ k k' t t' i, HasAt s k t i → HasAt s k' t' i → k = k'
  adds : ∀ n t i, jobOf (s.place n) = some (.add t i) → ∃ k, HasAt s k t i
  apart : ∀ n t i k, jobOf (s.place n) = some (.remove t i) → ¬ HasAt s k t i
  dist : ∀ t i t' i', Live s t i → Live s t' i' → t = t' ∨ i = i' → t = t' ∧ i = i'
  sound : ∀ t i, (t, i) ∈ s.routes → Live s t i
  full : s.link = true → ∀ k t i, HasAt s k t i → (∀ n m, toldTo (s.place n) = some m → k < m) →
    (∀ n, jobOf (s.place n) ≠ some (.add t i)) → (t, i) ∈ s.routes

theorem inv_init : Inv init where
  closed := rfl
  plain n j t h := by simp only [init] at h; split at h <;> cases h
  flat n j t i h := by simp only [init] at h; split at h <;> cases h
  noAlias n t i h := by simp only [init] at h; split at h <;> cases h
  one n m h := by simp only [init] at h; split at h <;> cases h
  prog := by
    constructor
    · intro h; cases h
    · rintro ⟨n, h⟩; simp only [init] at h; split at h <;> cases h
  down h := rfl
  noNames := rfl
  shut n j t f h := by simp only [init] at h; split at h <;> cases h
  openUp n i h := by simp only [init] at h; split at h <;> cases h
  entry n j t i h := by simp only [init] at h; split at h <;> cases h
  slot k k' t t' i h := by
    obtain ⟨l, h, _⟩ := h
    simp only [init, List.getElem?_replicate] at h
    split at h <;> cases h
  adds n t i h := by simp only [init] at h; split at h <;> cases h
  apart n t i k h := by simp only [init] at h; split at h <;> cases h
  dist t i t' i' h := by
    rcases h with ⟨k, l, h, _⟩ | ⟨n, h⟩
    · simp only [init, List.getElem?_replicate] at h
      split at h <;> cases h
    · simp only [init] at h; split at h <;> cases h
  sound t i h := by cases h
  full _ k t i h := by
    obtain ⟨l, h, _⟩ := h
    simp only [init, List.getElem?_replicate] at h
    split at h <;> cases h

/-- What the invariant says about a thread's place. -/
structure Fits (s : State) (p : Place) : Prop where
  plain : ∀ j t, p ≠ .opening j t true
  flat : ∀ j t i, p ≠ .nested j t i
  noAlias : ∀ t i, jobOf p ≠ some (.alias t i)
  shut : ∀ j t f, p = .opening j t f → s.link = false
  openUp : ∀ i, toldTo p = some i → s.link = true
  entry : ∀ j t i, p = .reading j t i → ∃ t' i', HasAt s i t' i'

theorem move_place (s : State) (n p m) : (move s n p).place m = if m = n then p else s.place m := rfl

theorem move_has (s : State) (n p k t i) : HasAt (move s n p) k t i ↔ HasAt s k t i := Iff.rfl

/-- A thread goes to another place with the same job. -/
theorem Inv.same {s : State} (hi : Inv s) {n : Nat} {p : Place}
    (hf : Fits s p) (hr : Remaking p ↔ Remaking (s.place n)) (hj : jobOf p = jobOf (s.place n))
    (ht : s.link = true → ∀ k t i, HasAt s k t i → (∀ m, toldTo p = some m → k < m) →
      (∀ m, toldTo (s.place n) = some m → k < m) ∨ (t, i) ∈ s.routes) :
    Inv (move s n p) := by
  have hjob : ∀ m, jobOf ((move s n p).place m) = jobOf (s.place m) := by
    intro m; rw [move_place]; split
    · next h => rw [hj, h]
    · rfl
  have hrem : ∀ m, Remaking ((move s n p).place m) ↔ Remaking (s.place m) := by
    intro m; rw [move_place]; split
    · next h => rw [hr, h]
    · rfl
  have hlive : ∀ t i, Live (move s n p) t i ↔ Live s t i := by
    intro t i; simp only [Live, hjob, move_has]
  constructor
  · exact hi.closed
  · intro m j t h
    rw [move_place] at h; split at h
    · exact hf.plain _ _ h
    · exact hi.plain _ _ _ h
  · intro m j t i h
    rw [move_place] at h; split at h
    · exact hf.flat _ _ _ h
    · exact hi.flat _ _ _ _ h
  · intro m t i; rw [hjob]; exact hi.noAlias m t i
  · intro a b; rw [hrem, hrem]; exact hi.one a b
  · simp only [hrem]; exact hi.prog
  · exact hi.down
  · exact hi.noNames
  · intro m j t f h
    rw [move_place] at h; split at h
    · exact hf.shut _ _ _ h
    · exact hi.shut _ _ _ _ h
  · intro m i h
    rw [move_place] at h; split at h
    · exact hf.openUp _ h
    · exact hi.openUp _ _ h
  · intro m j t i h
    rw [move_place] at h; split at h
    · exact hf.entry _ _ _ h
    · exact hi.entry _ _ _ _ h
  · exact hi.slot
  · intro m t i; rw [hjob]; exact hi.adds m t i
  · intro m t i k; rw [hjob]; exact hi.apart m t i k
  · intro t i t' i'; rw [hlive, hlive]; exact hi.dist t i t' i'
  · intro t i h; rw [hlive]; exact hi.sound t i h
  · intro hl k t i hk hm ha
    have h1 : ∀ m, toldTo p = some m → k < m := by
      intro m hp
      exact hm n m (by simp [move_place, hp])
    rcases ht hl k t i hk h1 with h2 | h2
    · refine hi.full hl k t i hk ?_ ?_
      · intro m x hx
        by_cases hmn : m = n
        · subst hmn; exact h2 x hx
        · exact hm m x (by simpa [move_place, hmn] using hx)
      · intro m; have := ha m; rwa [hjob] at this
    · exact h2

/-- The link goes down, or stays down. -/
theorem Inv.cut {s : State} (hi : Inv s) (hn : ∀ n, ¬ Telling (s.place n)) : Inv (cut s) := by
  constructor
  · exact hi.closed
  · exact hi.plain
  · exact hi.flat
  · exact hi.noAlias
  · exact hi.one
  · exact hi.prog
  · intro _; rfl
  · rfl
  · intro n j t f _; rfl
  · intro n i h
    have := hn n
    cases hp : s.place n <;> simp [Reconnect.cut, hp, toldTo, Telling] at h this
  · exact hi.entry
  · exact hi.slot
  · exact hi.adds
  · exact hi.apart
  · exact hi.dist
  · intro t i h; cases h
  · intro h; cases h

theorem Inv.tick {s : State} (hi : Inv s) (c r : Nat) : Inv { s with clock := c, reconnectTime := r } := by
  obtain ⟨h1, h2, h3, h4, h5, h6, h7, h8, h9, h10, h11, h12, h13, h14, h15, h16, h17⟩ := hi
  exact ⟨h1, h2, h3, h4, h5, h6, h7, h8, h9, h10, h11, h12, h13, h14, h15, h16, h17⟩

/-- A thread with nothing to do, or whose job changes nothing, takes up something that changes nothing, or
the other way round. -/
theorem Inv.job {s : State} (hi : Inv s) {n : Nat} {p : Place}
    (hf : Fits s p) (hr : ¬ Remaking p) (hr' : ¬ Remaking (s.place n))
    (hj : jobOf p = none ∨ jobOf p = some .other)
    (hj' : s.link = true → ∀ t i, jobOf (s.place n) = some (.add t i) → (t, i) ∈ s.routes)
    (hj'' : ∀ t i, jobOf (s.place n) = some (.remove t i) → (t, i) ∉ s.routes) :
    Inv (move s n p) := by
  have hjob : ∀ m j, jobOf ((move s n p).place m) = some j → j = .other ∨ jobOf (s.place m) = some j := by
    intro m j; rw [move_place]; split
    · rcases hj with h | h <;> rw [h] <;> simp
      rintro rfl; exact .inl rfl
    · exact .inr
  have hjob' : ∀ m j, jobOf (s.place m) = some j → m = n ∨ jobOf ((move s n p).place m) = some j := by
    intro m j; rw [move_place]; split
    · next h => exact fun _ => .inl h
    · exact .inr
  have hrem : ∀ m, Remaking ((move s n p).place m) ↔ Remaking (s.place m) := by
    intro m; rw [move_place]; split
    · next h => subst h; simp [hr, hr']
    · rfl
  have hlive : ∀ t i, Live (move s n p) t i → Live s t i := by
    rintro t i (h | ⟨m, h⟩)
    · exact .inl h
    · rcases hjob m _ h with h | h
      · cases h
      · exact .inr ⟨m, h⟩
  constructor
  · exact hi.closed
  · intro m j t h
    rw [move_place] at h; split at h
    · exact hf.plain _ _ h
    · exact hi.plain _ _ _ h
  · intro m j t i h
    rw [move_place] at h; split at h
    · exact hf.flat _ _ _ h
    · exact hi.flat _ _ _ _ h
  · intro m t i h
    rcases hjob m _ h with h | h
    · cases h
    · exact hi.noAlias m t i h
  · intro a b; rw [hrem, hrem]; exact hi.one a b
  · simp only [hrem]; exact hi.prog
  · exact hi.down
  · exact hi.noNames
  · intro m j t f h
    rw [move_place] at h; split at h
    · exact hf.shut _ _ _ h
    · exact hi.shut _ _ _ _ h
  · intro m i h
    rw [move_place] at h; split at h
    · exact hf.openUp _ h
    · exact hi.openUp _ _ h
  · intro m j t i h
    rw [move_place] at h; split at h
    · exact hf.entry _ _ _ h
    · exact hi.entry _ _ _ _ h
  · exact hi.slot
  · intro m t i h
    rcases hjob m _ h with h | h
    · cases h
    · exact hi.adds m t i h
  · intro m t i k h
    rcases hjob m _ h with h | h
    · cases h
    · exact hi.apart m t i k h
  · intro t i t' i' h h'; exact hi.dist t i t' i' (hlive _ _ h) (hlive _ _ h')
  · intro t i h
    rcases hi.sound t i h with h1 | ⟨m, h1⟩
    · exact .inl h1
    · rcases hjob' m _ h1 with rfl | h2
      · exact absurd h (hj'' t i h1)
      · exact .inr ⟨m, h2⟩
  · intro hl k t i hk hm ha
    by_cases hn : jobOf (s.place n) = some (.add t i)
    · exact hj' hl t i hn
    · refine hi.full hl k t i hk ?_ ?_
      · intro m x hx
        refine hm m x ?_
        rw [move_place]
        split
        · next h =>
          subst h
          exfalso
          cases hp : s.place m <;> simp [hp, toldTo, Remaking] at hx hr'
        · exact hx
      · intro m hx
        rcases hjob' m _ hx with rfl | h2
        · exact hn hx
        · exact ha m h2

/-- The thread that remakes the link goes on, or begins, or ends. -/
theorem Inv.shift {s : State} (hi : Inv s) {n : Nat} {p : Place} {b l : Bool}
    (hone : ∀ m, m ≠ n → ¬ Remaking (s.place m)) (hb : b = true ↔ Remaking p)
    (hl : l = false → s.routes = []) (hf : Fits { s with link := l } p)
    (hj : jobOf p = jobOf (s.place n) ∨ (jobOf p = none ∧ l = false))
    (ht : l = true → ∀ k t i, HasAt s k t i → (∀ m, toldTo p = some m → k < m) →
      s.link = true ∧ ∀ m, toldTo (s.place n) = some m → k < m) :
    Inv (move { s with link := l, inProgress := b } n p) := by
  have hjob : ∀ m j, jobOf ((move { s with link := l, inProgress := b } n p).place m) = some j →
      jobOf (s.place m) = some j := by
    intro m j; rw [move_place]; split
    · next h =>
      subst h
      rcases hj with h | ⟨h, _⟩ <;> rw [h]
      · exact id
      · intro h; cases h
    · exact id
  have hlive : ∀ t i, Live (move { s with link := l, inProgress := b } n p) t i → Live s t i := by
    rintro t i (h | ⟨m, h⟩)
    · exact .inl h
    · exact .inr ⟨m, hjob m _ h⟩
  have hoff : ∀ m, m ≠ n → toldTo (s.place m) = none := by
    intro m hm
    have := hone m hm
    cases hp : s.place m <;> simp [hp, toldTo, Remaking] at this ⊢
  constructor
  · exact hi.closed
  · intro m j t h
    rw [move_place] at h; split at h
    · exact hf.plain _ _ h
    · exact hi.plain _ _ _ h
  · intro m j t i h
    rw [move_place] at h; split at h
    · exact hf.flat _ _ _ h
    · exact hi.flat _ _ _ _ h
  · intro m t i h
    exact hi.noAlias m t i (hjob m _ h)
  · intro x y hx hy
    rw [move_place] at hx hy
    split at hx
    · next h1 =>
      split at hy
      · next h2 => rw [h1, h2]
      · next h2 => exact absurd hy (hone _ h2)
    · next h1 => exact absurd hx (hone _ h1)
  · show b = true ↔ _
    rw [hb]
    constructor
    · intro h; exact ⟨n, by rw [move_place, if_pos rfl]; exact h⟩
    · rintro ⟨m, hm⟩
      rw [move_place] at hm
      split at hm
      · exact hm
      · next h1 => exact absurd hm (hone _ h1)
  · exact hl
  · exact hi.noNames
  · intro m j t f h
    rw [move_place] at h; split at h
    · exact hf.shut _ _ _ h
    · next h1 =>
      have := hone m h1
      change s.place m = _ at h
      rw [h] at this
      exact absurd trivial this
  · intro m i h
    rw [move_place] at h; split at h
    · exact hf.openUp _ h
    · next h1 =>
      have := hoff m h1
      change toldTo (s.place m) = _ at h
      rw [h] at this; cases this
  · intro m j t i h
    rw [move_place] at h; split at h
    · exact hf.entry _ _ _ h
    · exact hi.entry _ _ _ _ h
  · exact hi.slot
  · intro m t i h; exact hi.adds m t i (hjob m _ h)
  · intro m t i k h; exact hi.apart m t i k (hjob m _ h)
  · intro t i t' i' h h'; exact hi.dist t i t' i' (hlive _ _ h) (hlive _ _ h')
  · intro t i h
    change (t, i) ∈ s.routes at h
    rcases hj with hj | ⟨_, hj⟩
    · rcases hi.sound t i h with h1 | ⟨m, h1⟩
      · exact .inl h1
      · refine .inr ⟨m, ?_⟩
        rw [move_place]; split
        · next h => rw [hj, ← h]; exact h1
        · exact h1
    · rw [hl hj] at h; cases h
  · intro hlt k t i hk hm ha
    change l = true at hlt
    have h1 : ∀ m, toldTo p = some m → k < m := by
      intro m hp
      exact hm n m (by simp [move_place, hp])
    obtain ⟨h2, h3⟩ := ht hlt k t i hk h1
    refine hi.full h2 k t i hk ?_ ?_
    · intro m x hx
      by_cases hmn : m = n
      · subst hmn; exact h3 x hx
      · rw [hoff m hmn] at hx; cases hx
    · intro m hx
      refine ha m ?_
      rw [move_place]; split
      · next h =>
        rcases hj with hj | ⟨_, hj⟩
        · rw [hj, ← h]; exact hx
        · rw [hlt] at hj; cases hj
      · exact hx

/-- The router's routes change. -/
theorem Inv.reroute {s : State} (hi : Inv s) {R : List (Bytes × Nat)} (hup : s.link = true)
    (hs : ∀ t i, (t, i) ∈ R → Live s t i)
    (hf : ∀ k t i, HasAt s k t i → (t, i) ∈ s.routes → (t, i) ∈ R) : Inv { s with routes := R } := by
  obtain ⟨h1, h2, h3, h4, h5, h6, h7, h8, h9, h10, h11, h12, h13, h14, h15, h16, h17⟩ := hi
  refine ⟨h1, h2, h3, h4, h5, h6, ?_, h8, h9, h10, h11, h12, h13, h14, h15, hs, ?_⟩
  · intro h; rw [hup] at h; cases h
  · intro hl k t i hk hm ha
    exact hf k t i hk (h17 hl k t i hk hm ha)

theorem Inv.routeAdd {s : State} (hi : Inv s) {t : Bytes} {i : Nat} (hl : Live s t i) :
    ∃ R, routeAdd s t i = { s with routes := R } ∧ ∀ x, x ∈ R ↔ x ∈ s.routes ∨ x = (t, i) := by
  unfold Reconnect.routeAdd
  split
  · next h =>
    obtain ⟨⟨t', i'⟩, hr, he⟩ := List.any_eq_true.mp h
    have he : i' = i := by simpa using he
    subst he
    obtain ⟨rfl, _⟩ := hi.dist _ _ _ _ (hi.sound _ _ hr) hl (.inr rfl)
    rw [if_pos]
    · refine ⟨s.routes, rfl, ?_⟩
      intro x
      constructor
      · exact .inl
      · rintro (h | rfl)
        · exact h
        · exact hr
    · rw [Bool.or_eq_true]
      exact .inl (List.any_eq_true.mpr ⟨_, hr, by simp⟩)
  · refine ⟨_, rfl, ?_⟩
    intro x; simp

theorem Inv.routeRemove {s : State} (hi : Inv s) {t : Bytes} {i : Nat} (hl : Live s t i) :
    ∃ R, routeRemove s t = { s with routes := R } ∧ ∀ x, x ∈ R ↔ x ∈ s.routes ∧ x ≠ (t, i) := by
  unfold Reconnect.routeRemove
  split
  · next r hr =>
    obtain ⟨t', i'⟩ := r
    have h1 := List.mem_of_find?_eq_some hr
    have h2 : t' = t := by simpa using List.find?_some hr
    subst h2
    obtain ⟨_, rfl⟩ := hi.dist _ _ _ _ (hi.sound _ _ h1) hl (.inl rfl)
    refine ⟨s.routes.filter (fun x => x.2 ≠ i'), by simp only [hi.noNames, List.filter_nil], ?_⟩
    rintro ⟨t'', i''⟩
    simp only [List.mem_filter, decide_eq_true_eq]
    constructor
    · rintro ⟨h3, h4⟩
      exact ⟨h3, fun h => h4 (by cases h; rfl)⟩
    · rintro ⟨h3, h4⟩
      refine ⟨h3, fun h => h4 ?_⟩
      subst h
      obtain ⟨rfl, _⟩ := hi.dist _ _ _ _ (hi.sound _ _ h3) hl (.inr rfl)
      rfl
  · next hr =>
    refine ⟨s.routes, by simp only [hi.noNames, List.filter_nil], ?_⟩
    intro x
    constructor
    · intro h
      refine ⟨h, ?_⟩
      rintro rfl
      have := List.find?_eq_none.mp hr _ h
      simp at this
    · exact fun h => h.1

theorem has_set {s : State} {k0 : Nat} {v : Option Listener} {sl : List (Option Listener)}
    (hsl : sl = s.slots.set k0 v) (hk0 : k0 < s.slots.length) (k t i) :
    HasAt { s with slots := sl } k t i ↔
      (k = k0 ∧ ∃ l, v = some l ∧ l.expr = t ∧ l.id = i) ∨ (k ≠ k0 ∧ HasAt s k t i) := by
  subst hsl
  simp only [HasAt, List.getElem?_set]
  by_cases h : k0 = k
  · subst h
    simp [hk0]
  · have h' : ¬ k = k0 := fun e => h e.symm
    simp [h, h']

/-- A listener is put into the table. -/
theorem Inv.fill {s : State} (hi : Inv s) {n : Nat} {t : Bytes} {i c : Nat} {sl : List (Option Listener)}
    (hp : s.place n = .idle) (ha : Allowed s (.add n t i)) (hf : fill ⟨i, t, 0⟩ s.slots = some sl) :
    Inv (move { s with slots := sl } n (.sending (.add t i) c)) := by
  obtain ⟨k0, hk0, hsl⟩ := fill_at hf
  have hlt : k0 < s.slots.length := by
    rw [List.getElem?_eq_some_iff] at hk0; exact hk0.1
  have hhas : ∀ k t' i', HasAt (move { s with slots := sl } n (.sending (.add t i) c)) k t' i' ↔
      (k = k0 ∧ t' = t ∧ i' = i) ∨ HasAt s k t' i' := by
    intro k t' i'
    rw [move_has, has_set hsl hlt]
    constructor
    · rintro (⟨rfl, l, hl, rfl, rfl⟩ | ⟨h1, h2⟩)
      · cases hl; exact .inl ⟨rfl, rfl, rfl⟩
      · exact .inr h2
    · rintro (⟨rfl, rfl, rfl⟩ | h)
      · exact .inl ⟨rfl, _, rfl, rfl, rfl⟩
      · refine .inr ⟨?_, h⟩
        rintro rfl
        obtain ⟨l, hl, _⟩ := h
        rw [hk0] at hl; cases hl
  obtain ⟨hu, hnew⟩ := ha
  have hnew' : ∀ k t' i', HasAt s k t' i' → t' ≠ t ∧ i' ≠ i := by
    intro k t' i' h
    exact hnew t' i' ((listens_iff _ _ _).mpr ⟨k, h⟩)
  have hjob : ∀ m j, jobOf ((move { s with slots := sl } n (.sending (.add t i) c)).place m) = some j →
      (m = n ∧ j = .add t i) ∨ (m ≠ n ∧ jobOf (s.place m) = some j) := by
    intro m j; rw [move_place]; split
    · next h => intro hj; cases hj; exact .inl ⟨h, rfl⟩
    · next h => exact fun hj => .inr ⟨h, hj⟩
  have hrem : ∀ m, Remaking ((move { s with slots := sl } n (.sending (.add t i) c)).place m) ↔
      Remaking (s.place m) := by
    intro m; rw [move_place]; split
    · next h => subst h; rw [hp]; rfl
    · rfl
  have htold : ∀ m, toldTo ((move { s with slots := sl } n (.sending (.add t i) c)).place m) =
      toldTo (s.place m) := by
    intro m; rw [move_place]; split
    · next h => subst h; rw [hp]; rfl
    · rfl
  have hlive : ∀ t' i', Live (move { s with slots := sl } n (.sending (.add t i) c)) t' i' →
      (t' = t ∧ i' = i) ∨ (Live s t' i' ∧ t' ≠ t ∧ i' ≠ i) := by
    rintro t' i' (⟨k, h⟩ | ⟨m, h⟩)
    · rcases (hhas _ _ _).mp h with ⟨_, h1, h2⟩ | h
      · exact .inl ⟨h1, h2⟩
      · exact .inr ⟨.inl ⟨k, h⟩, hnew' k _ _ h⟩
    · rcases hjob m _ h with ⟨_, h⟩ | ⟨_, h⟩
      · cases h
      · refine .inr ⟨.inr ⟨m, h⟩, ?_, ?_⟩
        · intro he; exact hu ⟨m, t', i', .inl he, .inr h⟩
        · intro he; exact hu ⟨m, t', i', .inr he, .inr h⟩
  constructor
  · exact hi.closed
  · intro m j t h
    rw [move_place] at h; split at h
    · cases h
    · exact hi.plain _ _ _ h
  · intro m j t i h
    rw [move_place] at h; split at h
    · cases h
    · exact hi.flat _ _ _ _ h
  · intro m t i h
    rcases hjob m _ h with ⟨_, h⟩ | ⟨_, h⟩
    · cases h
    · exact hi.noAlias m t i h
  · intro a b; rw [hrem, hrem]; exact hi.one a b
  · simp only [hrem]; exact hi.prog
  · exact hi.down
  · exact hi.noNames
  · intro m j t f h
    rw [move_place] at h; split at h
    · cases h
    · exact hi.shut _ _ _ _ h
  · intro m i h
    rw [htold] at h; exact hi.openUp _ _ h
  · intro m j t i h
    rw [move_place] at h; split at h
    · cases h
    · obtain ⟨t', i', h⟩ := hi.entry _ _ _ _ h
      exact ⟨t', i', (hhas _ _ _).mpr (.inr h)⟩
  · intro k k' t1 t2 i1 h h'
    rcases (hhas _ _ _).mp h with ⟨h1, h2, h3⟩ | h1 <;> rcases (hhas _ _ _).mp h' with ⟨h4, h5, h6⟩ | h4
    · rw [h1, h4]
    · exact absurd h3 (hnew' _ _ _ h4).2
    · exact absurd h6 (hnew' _ _ _ h1).2
    · exact hi.slot _ _ _ _ _ h1 h4
  · intro m t' i' h
    rcases hjob m _ h with ⟨_, h⟩ | ⟨_, h⟩
    · cases h; exact ⟨k0, (hhas _ _ _).mpr (.inl ⟨rfl, rfl, rfl⟩)⟩
    · obtain ⟨k, h⟩ := hi.adds m _ _ h
      exact ⟨k, (hhas _ _ _).mpr (.inr h)⟩
  · intro m t' i' k h h'
    rcases hjob m _ h with ⟨_, h⟩ | ⟨_, h⟩
    · cases h
    · rcases (hhas _ _ _).mp h' with ⟨_, h1, _⟩ | h1
      · exact hu ⟨m, t', i', .inl h1, .inr h⟩
      · exact hi.apart _ _ _ _ h h1
  · intro t1 i1 t2 i2 h h' he
    rcases hlive _ _ h with ⟨rfl, rfl⟩ | ⟨h1, h2, h3⟩ <;> rcases hlive _ _ h' with ⟨rfl, rfl⟩ | ⟨h4, h5, h6⟩
    · exact ⟨rfl, rfl⟩
    · rcases he with he | he
      · exact absurd he.symm h5
      · exact absurd he.symm h6
    · rcases he with he | he
      · exact absurd he h2
      · exact absurd he h3
    · exact hi.dist _ _ _ _ h1 h4 he
  · intro t' i' h
    rcases hi.sound t' i' h with ⟨k, h1⟩ | ⟨m, h1⟩
    · exact .inl ⟨k, (hhas _ _ _).mpr (.inr h1)⟩
    · refine .inr ⟨m, ?_⟩
      rw [move_place]; split
      · next he => subst he; rw [hp] at h1; cases h1
      · exact h1
  · intro hl k t' i' hk hm hna
    simp only [htold] at hm
    rcases (hhas _ _ _).mp hk with ⟨_, rfl, rfl⟩ | hk
    · exact absurd (by rw [move_place, if_pos rfl]; rfl) (hna n)
    · refine hi.full hl k t' i' hk hm ?_
      intro m hx
      refine hna m ?_
      rw [move_place]; split
      · next he => subst he; rw [hp] at hx; cases hx
      · exact hx

/-- A listener is taken from the table. -/
theorem Inv.clear {s : State} (hi : Inv s) {n : Nat} {t : Bytes} {i c x : Nat} {sl : List (Option Listener)}
    (hp : s.place n = .idle) (ha : Allowed s (.remove n t i))
    (hf : clear (fun l => l.id = i) s.slots = some (sl, x)) :
    Inv (move { s with slots := sl } n (.sending (.remove t i) c)) := by
  obtain ⟨k0, l0, hk0, hl0, _, hsl⟩ := clear_at hf
  have hl0 : l0.id = i := by simpa using hl0
  have hlt : k0 < s.slots.length := by
    rw [List.getElem?_eq_some_iff] at hk0; exact hk0.1
  obtain ⟨hin, hu, hread⟩ := ha
  obtain ⟨k1, hk1⟩ := (listens_iff _ _ _).mp hin
  have hk01 : k0 = k1 := hi.slot k0 k1 l0.expr t i ⟨l0, hk0, rfl, hl0⟩ hk1
  subst hk01
  have hhas : ∀ k t' i', HasAt (move { s with slots := sl } n (.sending (.remove t i) c)) k t' i' ↔
      k ≠ k0 ∧ HasAt s k t' i' := by
    intro k t' i'
    rw [move_has, has_set hsl hlt]
    simp
  have hoff : ∀ k t' i', k ≠ k0 → HasAt s k t' i' → t' ≠ t ∧ i' ≠ i := by
    intro k t' i' hk h
    constructor
    · rintro rfl
      obtain ⟨_, rfl⟩ := hi.dist _ _ _ _ (.inl ⟨k, h⟩) (.inl ⟨k0, hk1⟩) (.inl rfl)
      exact hk (hi.slot _ _ _ _ _ h hk1)
    · rintro rfl
      exact hk (hi.slot _ _ _ _ _ h hk1)
  have hjob : ∀ m j, jobOf ((move { s with slots := sl } n (.sending (.remove t i) c)).place m) = some j →
      (m = n ∧ j = .remove t i) ∨ (m ≠ n ∧ jobOf (s.place m) = some j) := by
    intro m j; rw [move_place]; split
    · next h => intro hj; cases hj; exact .inl ⟨h, rfl⟩
    · next h => exact fun hj => .inr ⟨h, hj⟩
  have hrem : ∀ m, Remaking ((move { s with slots := sl } n (.sending (.remove t i) c)).place m) ↔
      Remaking (s.place m) := by
    intro m; rw [move_place]; split
    · next h => subst h; rw [hp]; rfl
    · rfl
  have htold : ∀ m, toldTo ((move { s with slots := sl } n (.sending (.remove t i) c)).place m) =
      toldTo (s.place m) := by
    intro m; rw [move_place]; split
    · next h => subst h; rw [hp]; rfl
    · rfl
  have hlive : ∀ t' i', Live (move { s with slots := sl } n (.sending (.remove t i) c)) t' i' → Live s t' i' := by
    rintro t' i' (⟨k, h⟩ | ⟨m, h⟩)
    · exact .inl ⟨k, ((hhas _ _ _).mp h).2⟩
    · rcases hjob m _ h with ⟨_, h⟩ | ⟨_, h⟩
      · cases h; exact .inl ⟨k0, hk1⟩
      · exact .inr ⟨m, h⟩
  constructor
  · exact hi.closed
  · intro m j t h
    rw [move_place] at h; split at h
    · cases h
    · exact hi.plain _ _ _ h
  · intro m j t i h
    rw [move_place] at h; split at h
    · cases h
    · exact hi.flat _ _ _ _ h
  · intro m t i h
    rcases hjob m _ h with ⟨_, h⟩ | ⟨_, h⟩
    · cases h
    · exact hi.noAlias m t i h
  · intro a b; rw [hrem, hrem]; exact hi.one a b
  · simp only [hrem]; exact hi.prog
  · exact hi.down
  · exact hi.noNames
  · intro m j t f h
    rw [move_place] at h; split at h
    · cases h
    · exact hi.shut _ _ _ _ h
  · intro m i h
    rw [htold] at h; exact hi.openUp _ _ h
  · intro m j t' k h
    rw [move_place] at h; split at h
    · cases h
    · obtain ⟨t'', i', h1⟩ := hi.entry _ _ _ _ h
      refine ⟨t'', i', (hhas _ _ _).mpr ⟨?_, h1⟩⟩
      rintro rfl
      exact hread m j t' k h l0 hk0 hl0
  · intro k k' t1 t2 i1 h h'
    exact hi.slot _ _ _ _ _ ((hhas _ _ _).mp h).2 ((hhas _ _ _).mp h').2
  · intro m t' i' h
    rcases hjob m _ h with ⟨_, h⟩ | ⟨_, h⟩
    · cases h
    · obtain ⟨k, hk⟩ := hi.adds m _ _ h
      refine ⟨k, (hhas _ _ _).mpr ⟨?_, hk⟩⟩
      rintro rfl
      have : t' = t ∧ i' = i := by
        obtain ⟨l, h1, h2, h3⟩ := hk
        obtain ⟨l', h4, h5, h6⟩ := hk1
        rw [h1] at h4; cases h4
        exact ⟨h2.symm.trans h5, h3.symm.trans h6⟩
      exact hu ⟨m, t', i', .inl this.1, .inl h⟩
  · intro m t' i' k h h'
    obtain ⟨h1, h2⟩ := (hhas _ _ _).mp h'
    rcases hjob m _ h with ⟨_, h⟩ | ⟨_, h⟩
    · cases h
      exact (hoff k _ _ h1 h2).1 rfl
    · exact hi.apart _ _ _ _ h h2
  · intro t1 i1 t2 i2 h h' he
    exact hi.dist _ _ _ _ (hlive _ _ h) (hlive _ _ h') he
  · intro t' i' h
    rcases hi.sound t' i' h with ⟨k, hx⟩ | ⟨m, hx⟩
    · by_cases hk : k = k0
      · subst hk
        refine .inr ⟨n, ?_⟩
        rw [move_place, if_pos rfl]
        obtain ⟨l, h1, h2, h3⟩ := hx
        obtain ⟨l', h4, h5, h6⟩ := hk1
        rw [h1] at h4; cases h4
        rw [← h2, ← h3, ← h5, ← h6]; rfl
      · exact .inl ⟨k, (hhas _ _ _).mpr ⟨hk, hx⟩⟩
    · refine .inr ⟨m, ?_⟩
      rw [move_place]; split
      · next he => subst he; rw [hp] at hx; cases hx
      · exact hx
  · intro hl k t' i' hk hm hna
    simp only [htold] at hm
    refine hi.full hl k t' i' ((hhas _ _ _).mp hk).2 hm ?_
    intro m hx
    refine hna m ?_
    rw [move_place]; split
    · next he => subst he; rw [hp] at hx; cases hx
    · exact hx

theorem jobOf_resume (s : State) (j t) : jobOf (resume s j t) = j := by cases j <;> rfl

theorem jobOf_giveUp (s : State) (j) : jobOf (giveUp s j) = none := by cases j <;> rfl

theorem Fits.resume {s s' : State} {j : Option Job} {t : Nat} (hj : ∀ t i, j ≠ some (.alias t i)) :
    Fits s (resume s' j t) ∧ ¬ Remaking (resume s' j t) ∧ toldTo (resume s' j t) = none := by
  cases j with
  | none => exact ⟨⟨nofun, nofun, nofun, nofun, nofun, nofun⟩, nofun, rfl⟩
  | some j =>
    refine ⟨⟨nofun, nofun, ?_, nofun, nofun, nofun⟩, nofun, rfl⟩
    intro t i h
    exact hj t i h

theorem Fits.giveUp {s s' : State} {j : Option Job} :
    Fits s (giveUp s' j) ∧ ¬ Remaking (giveUp s' j) := by
  cases j with
  | none => exact ⟨⟨nofun, nofun, nofun, nofun, nofun, nofun⟩, nofun⟩
  | some j => exact ⟨⟨nofun, nofun, nofun, nofun, nofun, nofun⟩, nofun⟩

/-- A thread that is not remaking the link goes to another such place with its job. -/
theorem Inv.still {s : State} (hi : Inv s) {n : Nat} {p : Place}
    (hn : ¬ Remaking (s.place n)) (hp : ¬ Remaking p) (hne : ∀ j t i, p ≠ .nested j t i)
    (hj : jobOf p = jobOf (s.place n)) : Inv (move s n p) := by
  have hnone : toldTo p = none := by cases p <;> first | rfl | exact absurd trivial hp
  have hnone' : toldTo (s.place n) = none := by
    cases h : s.place n <;> first | rfl | (rw [h] at hn; exact absurd trivial hn)
  refine hi.same ⟨?_, hne, ?_, ?_, ?_, ?_⟩ ?_ hj ?_
  · rintro j t rfl; exact hp trivial
  · rw [hj]; exact hi.noAlias n
  · rintro j t f rfl; exact absurd trivial hp
  · intro i h; rw [hnone] at h; cases h
  · rintro j t i rfl; exact absurd trivial hp
  · simp [hn, hp]
  · intro _ k t i _ _
    left; rw [hnone']; intro m h; cases h

theorem inv_step {s e s' o} (hi : Inv s) (ha : Allowed s e) (hs : step s e = .ok (s', o)) : Inv s' := by
  cases e with
  | add n t i =>
    simp only [step] at hs
    split at hs
    · next hp =>
      split at hs
      · next sl hf => cases hs; exact hi.fill hp ha hf
      · cases hs
        refine hi.still ?_ nofun nofun (by rw [hp])
        rw [hp]; exact nofun
    · cases hs
  | remove n t i =>
    simp only [step] at hs
    split at hs
    · next hp =>
      split at hs
      · next sl x hf => cases hs; exact hi.clear hp ha hf
      · cases hs
        refine hi.still ?_ nofun nofun (by rw [hp])
        rw [hp]; exact nofun
    · cases hs
  | alias n t i => exact ha.elim
  | other n =>
    simp only [step] at hs
    split at hs
    · next hp =>
      cases hs
      refine hi.job ⟨nofun, nofun, nofun, nofun, nofun, nofun⟩ nofun ?_ (.inr rfl) ?_ ?_ <;> rw [hp]
      · exact nofun
      · exact nofun
      · exact nofun
    · cases hs
  | send n =>
    simp only [step] at hs
    split at hs
    · next j t hp =>
      split at hs
      · next hl =>
        cases hs
        have hr : ¬ Remaking (s.place n) := by rw [hp]; exact nofun
        have hfit : ∀ s, Fits s .idle := fun s => ⟨nofun, nofun, nofun, nofun, nofun, nofun⟩
        have hjn : jobOf (s.place n) = some j := by rw [hp]; rfl
        cases j with
        | add t' i =>
          obtain ⟨R, hR, hm⟩ := hi.routeAdd (.inl (hi.adds n t' i hjn))
          simp only [deliver, hR]
          have hi2 : Inv { s with routes := R } := hi.reroute hl
            (by
              intro t'' i'' h
              rcases (hm _).mp h with h | h
              · exact hi.sound _ _ h
              · cases h; exact .inl (hi.adds n t' i hjn))
            (fun k t'' i'' _ h => (hm _).mpr (.inl h))
          refine hi2.job (hfit _) nofun hr (.inl rfl) ?_ ?_
          · intro _ t'' i'' h
            change jobOf (s.place n) = _ at h
            rw [hjn] at h; cases h
            exact (hm _).mpr (.inr rfl)
          · intro t'' i'' h
            change jobOf (s.place n) = _ at h
            rw [hjn] at h; cases h
        | remove t' i =>
          obtain ⟨R, hR, hm⟩ := hi.routeRemove (.inr ⟨n, hjn⟩)
          simp only [deliver, hR]
          have hi2 : Inv { s with routes := R } := hi.reroute hl
            (by
              intro t'' i'' h
              exact hi.sound _ _ ((hm _).mp h).1)
            (by
              intro k t'' i'' hk h
              refine (hm _).mpr ⟨h, ?_⟩
              intro he; cases he
              exact hi.apart n _ _ k hjn hk)
          refine hi2.job (hfit _) nofun hr (.inl rfl) ?_ ?_
          · intro _ t'' i'' h
            change jobOf (s.place n) = _ at h
            rw [hjn] at h; cases h
          · intro t'' i'' h
            change jobOf (s.place n) = _ at h
            rw [hjn] at h; cases h
            intro hx
            exact ((hm _).mp hx).2 rfl
        | alias t' i => exact absurd hjn (hi.noAlias n t' i)
        | other =>
          simp only [deliver]
          refine hi.job (hfit _) nofun hr (.inl rfl) ?_ ?_ <;> rw [hjn] <;> exact nofun
      · rw [hi.closed] at hs
        simp only [Bool.false_eq_true, if_false] at hs
        cases hs
        refine hi.still ?_ nofun nofun (by rw [hp]; rfl)
        rw [hp]; exact nofun
    · cases hs
  | drop =>
    simp only [step] at hs
    cases hs
    exact (hi.cut ha).tick _ _
  | lost =>
    simp only [step] at hs
    split at hs
    · next t hp =>
      split at hs
      · cases hs
      · cases hs
        refine hi.still ?_ nofun nofun (by rw [hp]; rfl)
        rw [hp]; exact nofun
    · cases hs
  | claim n =>
    simp only [step] at hs
    split at hs
    · next j t hp =>
      rw [hi.closed] at hs
      simp only [Bool.false_eq_true, if_false] at hs
      have hr : ¬ Remaking (s.place n) := by rw [hp]; exact nofun
      have hj : ∀ t i, j ≠ some (.alias t i) := by
        intro t i h
        exact hi.noAlias n t i (by rw [hp]; exact h)
      split at hs
      · cases hs
        exact hi.still hr nofun nofun (by rw [hp]; rfl)
      · next hprog =>
        have hnone : ∀ m, ¬ Remaking (s.place m) := fun m h => hprog (hi.prog.mpr ⟨m, h⟩)
        split at hs
        · cases hs
          have hi2 := (hi.cut (fun m h => hnone m (by
            cases hm : s.place m <;> rw [hm] at h <;> first | exact h.elim | trivial))).tick s.clock s.clock
          refine Inv.shift (l := false) hi2 (fun m _ => hnone m) ⟨fun _ => trivial, fun _ => rfl⟩ (fun _ => rfl)
            ⟨nofun, nofun, hj, fun _ _ _ _ => rfl, nofun, nofun⟩ (.inl ?_) nofun
          show j = jobOf (s.place n)
          rw [hp]; rfl
        · cases hs
          have hf := Fits.resume (s := s) (s' := s) (t := t) hj
          refine hi.still hr hf.2.1 hf.1.flat ?_
          rw [jobOf_resume, hp]; rfl
    · cases hs
  | wake n =>
    simp only [step] at hs
    split at hs
    · next j t hp =>
      split at hs
      · cases hs
      · cases hs
        have hj : ∀ t i, j ≠ some (.alias t i) := by
          intro t i h
          exact hi.noAlias n t i (by rw [hp]; exact h)
        have hf := Fits.resume (s := s) (s' := s) (t := t) hj
        refine hi.still ?_ hf.2.1 hf.1.flat ?_
        · rw [hp]; exact nofun
        · rw [jobOf_resume, hp]; rfl
    · next j t i hp => exact absurd hp (hi.flat _ _ _ _)
    · cases hs
  | connect n a =>
    simp only [step] at hs
    split at hs
    · next j t first hp =>
      have hone : ∀ m, m ≠ n → ¬ Remaking (s.place m) := by
        intro m hm h
        exact hm (hi.one m n h (by rw [hp]; trivial))
      have hlink := hi.shut _ _ _ _ hp
      have hcut : cut s = s := by
        have h1 := hi.down hlink
        have h2 := hi.noNames
        cases s
        simp_all [cut]
      have hj : ∀ t i, j ≠ some (.alias t i) := by
        intro t i h
        exact hi.noAlias n t i (by rw [hp]; exact h)
      have hfirst : first = false := by
        cases first
        · rfl
        · exact absurd hp (hi.plain _ _ _)
      subst hfirst
      have hprog : s.inProgress = true := hi.prog.mpr ⟨n, by rw [hp]; trivial⟩
      have hcl := hi.closed
      rcases ha with rfl | rfl
      · simp only [Bool.false_eq_true, if_false, hcut] at hs
        cases hs
        have := Inv.shift (b := true) (l := true) (p := .telling j t 0) hi hone
          ⟨fun _ => trivial, fun _ => rfl⟩ nofun
          ⟨nofun, nofun, hj, nofun, fun _ _ => rfl, nofun⟩ (.inl (by rw [hp]; rfl))
          (by
            intro _ k t i _ h
            exact absurd (h 0 rfl) (by omega))
        simp only [hprog, hcl] at this ⊢
        exact this
      · simp only [hcut] at hs
        cases hs
        have hf := Fits.giveUp (s := { s with link := false }) (s' := s) (j := j)
        have := Inv.shift (b := false) (l := false) hi hone
          ⟨nofun, fun h => absurd h hf.2⟩ (fun _ => hi.down hlink) hf.1 (.inr ⟨jobOf_giveUp _ _, rfl⟩) nofun
        simp only [hlink, hcl] at this ⊢
        exact this
    · cases hs
  | look n =>
    simp only [step] at hs
    split at hs
    · next j t i hp =>
      have hj : ∀ t i, j ≠ some (.alias t i) := by
        intro t i h
        exact hi.noAlias n t i (by rw [hp]; exact h)
      have hlink : s.link = true := hi.openUp n i (by rw [hp]; rfl)
      have hone : ∀ m, m ≠ n → ¬ Remaking (s.place m) := by
        intro m hm h
        exact hm (hi.one m n h (by rw [hp]; trivial))
      split at hs
      · next hend =>
        cases hs
        have hf := Fits.resume (s := s) (s' := s) (t := t) hj
        have := Inv.shift (b := false) (l := true) (p := resume s j t) hi hone
          ⟨nofun, fun h => absurd h hf.2.1⟩ nofun
          ⟨hf.1.plain, hf.1.flat, hf.1.noAlias, fun j t f h => absurd (h ▸ trivial) hf.2.1,
            fun _ _ => rfl, hf.1.entry⟩
          (.inl (by rw [jobOf_resume, hp]; rfl))
          (by
            intro _ k t' i' hk _
            refine ⟨hlink, ?_⟩
            intro m hm
            rw [hp] at hm; cases hm
            obtain ⟨l, hl, _⟩ := hk
            have h1 := List.getElem?_eq_none_iff.mp hend
            have h2 := (List.getElem?_eq_some_iff.mp hl).1
            omega)
        rw [← hlink] at this
        exact this
      · next hnone =>
        cases hs
        refine hi.same ⟨nofun, nofun, hj, nofun, fun _ _ => hlink, nofun⟩ (by rw [hp]; exact Iff.rfl)
          (by rw [hp]; rfl) ?_
        intro _ k t' i' hk h
        left
        intro m hm
        rw [hp] at hm; cases hm
        have h1 : k < i + 1 := h _ rfl
        rcases Nat.lt_or_ge k i with h2 | h2
        · exact h2
        · have : k = i := by omega
          subst this
          obtain ⟨l, hl, _⟩ := hk
          rw [hnone] at hl; cases hl
      · next l hl =>
        cases hs
        refine hi.same ⟨nofun, nofun, hj, nofun, fun _ _ => hlink, ?_⟩ (by rw [hp]; exact Iff.rfl)
          (by rw [hp]; rfl) ?_
        · intro j' t' i' h
          cases h
          exact ⟨_, _, l, hl, rfl, rfl⟩
        · intro _ k t' i' hk h
          left
          intro m hm
          rw [hp] at hm; cases hm
          exact h _ rfl
    · cases hs
  | tell n =>
    simp only [step] at hs
    split at hs
    · next j t i hp =>
      have hj : ∀ t i, j ≠ some (.alias t i) := by
        intro t i h
        exact hi.noAlias n t i (by rw [hp]; exact h)
      have hlink : s.link = true := hi.openUp n i (by rw [hp]; rfl)
      split at hs
      · next l hl =>
        rw [if_pos hlink] at hs
        cases hs
        have hhas : HasAt s i l.expr l.id := ⟨l, hl, rfl, rfl⟩
        obtain ⟨R, hR, hm⟩ := hi.routeAdd (.inl ⟨i, hhas⟩)
        rw [hR]
        have hi2 : Inv { s with routes := R } := hi.reroute hlink
          (by
            intro t'' i'' h
            rcases (hm _).mp h with h | h
            · exact hi.sound _ _ h
            · cases h; exact .inl ⟨i, hhas⟩)
          (fun k t'' i'' _ h => (hm _).mpr (.inl h))
        have hp2 : ({ s with routes := R } : State).place n = .reading j t i := hp
        refine hi2.same ⟨nofun, nofun, hj, nofun, fun _ _ => hlink, nofun⟩ (by rw [hp2]; exact Iff.rfl)
          (by rw [hp2]; rfl) ?_
        intro _ k t' i' hk h
        have h1 : k < i + 1 := h _ rfl
        rcases Nat.lt_or_ge k i with h2 | h2
        · left
          intro m hm
          rw [hp2] at hm; cases hm
          exact h2
        · right
          have : k = i := by omega
          subst this
          obtain ⟨l', hl', rfl, rfl⟩ := hk
          change s.slots[k]? = _ at hl'
          rw [hl] at hl'; cases hl'
          exact (hm _).mpr (.inr rfl)
      · cases hs
    · cases hs

theorem inv {h s} (hx : Careful h s) : Inv s := by
  induction hx with
  | nil => exact inv_init
  | snoc _ ha hs ih => exact inv_step ih ha hs

theorem careful_step {s e} (hi : Inv s) : step s e ≠ .ub := by
  cases e with
  | tell n =>
    simp only [step]
    split
    · next j t i hp =>
      obtain ⟨t', i', l, hl, _⟩ := hi.entry _ _ _ _ hp
      simp only [hl]
      split <;> exact nofun
    · exact nofun
  | _ => simp only [step] <;> (repeat' split) <;> exact nofun

/-! ## Going on carefully -/

/-- Each step of a list is allowed when its turn comes. -/
def AllowedFrom (s : State) : List Event → Prop
  | [] => True
  | e :: es => Allowed s e ∧ ∀ s' o, step s e = .ok (s', o) → AllowedFrom s' es

theorem Careful.extend {h s es s' os} (hx : Careful h s) (ha : AllowedFrom s es)
    (hr : run s es = .ok (s', os)) : Careful (h ++ es.zip os) s' := by
  induction es generalizing h s os with
  | nil => cases hr; simpa using hx
  | cons e es ih =>
    simp only [run] at hr
    obtain ⟨⟨s1, o⟩, h1, hr⟩ := res_bind_ok hr
    simp only [] at hr
    obtain ⟨⟨s2, os'⟩, h2, hr⟩ := res_bind_ok hr
    cases hr
    have := ih (.snoc hx ha.1 h1) (ha.2 _ _ h1) h2
    simpa using this

/-- Steps that are always allowed. -/
def free : Event → Bool
  | .other _ => true
  | .send _ => true
  | .lost => true
  | .claim _ => true
  | .wake _ => true
  | .connect _ .made => true
  | .connect _ .refused => true
  | .look _ => true
  | .tell _ => true
  | _ => false

theorem allowed_free {s e} (h : free e = true) : Allowed s e := by
  cases e with
  | connect n a => cases a <;> first | exact .inl rfl | exact .inr rfl | cases h
  | _ => first | trivial | cases h

theorem allowedFrom_free {s es} (h : es.all free = true) : AllowedFrom s es := by
  induction es generalizing s with
  | nil => trivial
  | cons e es ih =>
    simp only [List.all_cons, Bool.and_eq_true] at h
    exact ⟨allowed_free h.1, fun _ _ _ => ih h.2⟩

/-- The thread that tells the router comes to the end of the table. -/
theorem finishes {h s} (hx : Careful h s) {n j t i} (hp : s.place n = .telling j t i) :
    ∃ h' s', Careful (h ++ h') s' ∧ s'.inProgress = false ∧ s'.link = true ∧ s'.slots = s.slots := by
  generalize hd : s.slots.length - i = d
  induction d generalizing h s i with
  | zero =>
    have hi := inv hx
    have hend : s.slots[i]? = none := List.getElem?_eq_none_iff.mpr (by omega)
    have hs : step s (.look n) = .ok (move { s with inProgress := false } n (resume s j t), .silent) := by
      simp [step, hp, hend]
    exact ⟨[(.look n, .silent)], _, .snoc hx trivial hs, rfl, hi.openUp n i (by rw [hp]; rfl), rfl⟩
  | succ d ih =>
    have hi := inv hx
    have hlink := hi.openUp n i (by rw [hp]; rfl)
    cases hsl : s.slots[i]? with
    | none => rw [List.getElem?_eq_none_iff] at hsl; omega
    | some x =>
      cases x with
      | none =>
        have hs : step s (.look n) = .ok (move s n (.telling j t (i + 1)), .silent) := by
          simp [step, hp, hsl]
        obtain ⟨h', s', h1, h2, h3, h4⟩ := ih (.snoc hx (e := .look n) trivial hs) (i := i + 1)
          (by rw [move_place, if_pos rfl]) (by change s.slots.length - (i + 1) = d; omega)
        exact ⟨_, s', by rw [List.append_assoc] at h1; exact h1, h2, h3, h4⟩
      | some l =>
        have hs : step s (.look n) = .ok (move s n (.reading j t i), .silent) := by
          simp [step, hp, hsl]
        have hs2 : step (move s n (.reading j t i)) (.tell n) =
            .ok (move (routeAdd (move s n (.reading j t i)) l.expr l.id) n (.telling j t (i + 1)), .sent) := by
          have h1 : (move s n (.reading j t i)).place n = .reading j t i := by rw [move_place, if_pos rfl]
          have h2 : (move s n (.reading j t i)).slots[i]? = some (some l) := hsl
          have h3 : (move s n (.reading j t i)).link = true := hlink
          simp only [step, h1, h2, h3, if_true]
        have hx1 := Careful.snoc hx (e := .look n) trivial hs
        have hsame : (routeAdd (move s n (.reading j t i)) l.expr l.id).slots = s.slots := by
          unfold routeAdd; repeat' split
          all_goals rfl
        obtain ⟨h', s', h1, h2, h3, h4⟩ := ih (.snoc hx1 (e := .tell n) trivial hs2) (i := i + 1)
          (by rw [move_place, if_pos rfl])
          (by
            change (routeAdd (move s n (.reading j t i)) l.expr l.id).slots.length - (i + 1) = d
            rw [hsame]; omega)
        refine ⟨_, s', by rw [List.append_assoc, List.append_assoc] at h1; exact h1, h2, h3, ?_⟩
        rw [h4]; exact hsame

/-! ## The link is never made again -/

/-- Everyone waits for someone who is not there. -/
structure Dead (s : State) : Prop where
  prog : s.inProgress = true
  link : s.link = false
  closed : s.closed = false
  nobody : ∀ n, ¬ Remaking (s.place n)

theorem Dead.move {s : State} (hd : Dead s) {n p} (hp : ¬ Remaking p) : Dead (move s n p) := by
  refine ⟨hd.prog, hd.link, hd.closed, ?_⟩
  intro m
  rw [move_place]; split
  · exact hp
  · exact hd.nobody m

theorem Dead.slots {s : State} (hd : Dead s) (t) : Dead { s with slots := t } :=
  ⟨hd.prog, hd.link, hd.closed, hd.nobody⟩

theorem dead_step {s e s' o} (hd : Dead s) (hs : step s e = .ok (s', o)) : Dead s' ∧ o ≠ .sent := by
  have hn := hd.nobody
  cases e with
  | add n t i =>
    simp only [step] at hs
    split at hs
    · split at hs
      · cases hs; exact ⟨(hd.slots _).move nofun, nofun⟩
      · cases hs; exact ⟨hd.move nofun, nofun⟩
    · cases hs
  | remove n t i =>
    simp only [step] at hs
    split at hs
    · split at hs
      · cases hs; exact ⟨(hd.slots _).move nofun, nofun⟩
      · cases hs; exact ⟨hd.move nofun, nofun⟩
    · cases hs
  | alias n t i =>
    simp only [step] at hs
    split at hs
    · cases hs; exact ⟨hd.move nofun, nofun⟩
    · cases hs
  | other n =>
    simp only [step] at hs
    split at hs
    · cases hs; exact ⟨hd.move nofun, nofun⟩
    · cases hs
  | send n =>
    simp only [step, hd.link, hd.closed] at hs
    split at hs
    · cases hs; exact ⟨hd.move nofun, nofun⟩
    · cases hs
  | drop =>
    simp only [step] at hs
    cases hs
    exact ⟨⟨hd.prog, rfl, hd.closed, hd.nobody⟩, nofun⟩
  | lost =>
    simp only [step, hd.link, hd.closed] at hs
    split at hs
    · cases hs; exact ⟨hd.move nofun, nofun⟩
    · cases hs
  | claim n =>
    simp only [step, hd.closed, hd.prog] at hs
    split at hs
    · cases hs; exact ⟨hd.move nofun, nofun⟩
    · cases hs
  | wake n =>
    simp only [step, hd.prog, if_true] at hs
    split at hs <;> cases hs
  | connect n a =>
    simp only [step] at hs
    split at hs
    · next hp => exact absurd (by rw [hp]; trivial) (hn n)
    · cases hs
  | look n =>
    simp only [step] at hs
    split at hs
    · next hp => exact absurd (by rw [hp]; trivial) (hn n)
    · cases hs
  | tell n =>
    simp only [step] at hs
    split at hs
    · next hp => exact absurd (by rw [hp]; trivial) (hn n)
    · cases hs

theorem dead {s h s'} (hd : Dead s) (hx : Exec step s h s') : Dead s' ∧ ∀ x ∈ h, x.2 ≠ .sent := by
  induction hx with
  | nil => exact ⟨hd, nofun⟩
  | snoc _ hs ih =>
    have := dead_step ih.1 hs
    refine ⟨this.1, ?_⟩
    intro x hx
    rcases List.mem_append.mp hx with hx | hx
    · exact ih.2 x hx
    · rw [List.mem_singleton] at hx; subst hx; exact this.2

/-! ## Threads that do nothing -/

/-- The thread a step is one of. -/
def actor : Event → Nat
  | .add n _ _ => n
  | .remove n _ _ => n
  | .alias n _ _ => n
  | .other n => n
  | .send n => n
  | .drop => 0
  | .lost => 0
  | .claim n => n
  | .wake n => n
  | .connect n _ => n
  | .look n => n
  | .tell n => n

theorem routeAdd_place (s : State) (t i) : (routeAdd s t i).place = s.place := by
  unfold routeAdd; repeat' split
  all_goals rfl

theorem deliver_place (s : State) (j) : (deliver s j).place = s.place := by
  cases j <;> simp only [deliver, routeAdd_place, routeRemove]
  split <;> rfl

theorem untouched_step {s e s' o m} (hs : step s e = .ok (s', o)) (hm : actor e ≠ m) :
    s'.place m = s.place m := by
  have hm' : m ≠ actor e := fun h => hm h.symm
  cases e <;> simp only [step] at hs <;> repeat' split at hs
  all_goals first
    | (cases hs; done)
    | (cases hs
       simp only [actor] at hm'
       simp [move, cut, hm', deliver_place, routeAdd_place])

theorem untouched {s es s' os m} (hr : run s es = .ok (s', os)) (hm : es.all (fun e => actor e ≠ m) = true) :
    s'.place m = s.place m := by
  induction es generalizing s os with
  | nil => cases hr; rfl
  | cons e es ih =>
    simp only [run] at hr
    obtain ⟨⟨s1, o⟩, h1, hr⟩ := res_bind_ok hr
    simp only [] at hr
    obtain ⟨⟨s2, os'⟩, h2, hr⟩ := res_bind_ok hr
    cases hr
    simp only [List.all_cons, Bool.and_eq_true, decide_eq_true_eq] at hm
    rw [ih h2 hm.2, untouched_step h1 hm.1]

/-- Of threads beyond the first two nothing is seen. -/
theorem untouched_two {es s' os} (hr : run init es = .ok (s', os)) (hm : es.all (fun e => actor e < 2) = true)
    {P : Place → Prop} (h0 : P (s'.place 0)) (h1 : P (s'.place 1)) (hP : P .idle) (n : Nat) : P (s'.place n) := by
  match n with
  | 0 => exact h0
  | 1 => exact h1
  | n + 2 =>
    rw [untouched hr (m := n + 2)]
    · exact hP
    · rw [List.all_eq_true] at hm ⊢
      intro e he
      have := hm e he
      simp only [decide_eq_true_eq] at this ⊢
      omega

/-! ## The table and what the application knows -/

theorem deliver_slots (s : State) (j) : (deliver s j).slots = s.slots := by
  cases j <;> simp only [deliver, routeAdd, routeRemove] <;> (repeat' split) <;> rfl

theorem routeAdd_slots (s : State) (t i) : (routeAdd s t i).slots = s.slots := by
  unfold routeAdd; repeat' split
  all_goals rfl

theorem held_snoc (h : History) (x) : held (h ++ [x]) = heldAfter (held h) x := by
  simp [held]

theorem held_eq {h s} (hx : Careful h s) : ∀ t i, (t, i) ∈ held h ↔ Listens s t i := by
  induction hx with
  | nil =>
    intro t i
    simp [held, Listens, init, List.mem_replicate]
  | @snoc h s e o s' hx ha hs ih =>
    have hi := inv hx
    have hkeep : s'.slots = s.slots → heldAfter (held h) (e, o) = held h →
        ∀ t i, (t, i) ∈ held (h ++ [(e, o)]) ↔ Listens s' t i := by
      intro h1 h2 t i
      rw [held_snoc, h2, ih]
      unfold Listens
      rw [h1]
    cases e with
    | add n t i =>
      simp only [step] at hs
      split at hs
      · split at hs
        · next sl hf =>
          cases hs
          obtain ⟨k0, hk0, hsl⟩ := fill_at hf
          have hlt : k0 < s.slots.length := (List.getElem?_eq_some_iff.mp hk0).1
          intro t' i'
          rw [held_snoc]
          simp only [heldAfter, List.mem_append, List.mem_singleton]
          rw [ih, listens_iff, listens_iff]
          simp only [move_has, has_set hsl hlt]
          constructor
          · rintro (⟨k, hk⟩ | h)
            · refine ⟨k, .inr ⟨?_, hk⟩⟩
              rintro rfl
              obtain ⟨l, hl, _⟩ := hk
              rw [hk0] at hl; cases hl
            · cases h
              exact ⟨k0, .inl ⟨rfl, _, rfl, rfl, rfl⟩⟩
          · rintro ⟨k, ⟨rfl, l, hl, rfl, rfl⟩ | ⟨_, hk⟩⟩
            · cases hl; exact .inr rfl
            · exact .inl ⟨k, hk⟩
        · cases hs; exact hkeep rfl rfl
      · cases hs
    | remove n t i =>
      simp only [step] at hs
      split at hs
      · split at hs
        · next sl x hf =>
          cases hs
          obtain ⟨k0, l0, hk0, hl0, _, hsl⟩ := clear_at hf
          have hl0 : l0.id = i := by simpa using hl0
          have hlt : k0 < s.slots.length := (List.getElem?_eq_some_iff.mp hk0).1
          obtain ⟨k1, hk1⟩ := (listens_iff _ _ _).mp ha.1
          have hk01 : k0 = k1 := hi.slot k0 k1 l0.expr t i ⟨l0, hk0, rfl, hl0⟩ hk1
          subst hk01
          intro t' i'
          rw [held_snoc]
          simp only [heldAfter, List.mem_filter, decide_eq_true_eq]
          rw [ih, listens_iff, listens_iff]
          simp only [move_has, has_set hsl hlt]
          constructor
          · rintro ⟨⟨k, hk⟩, hne⟩
            refine ⟨k, .inr ⟨?_, hk⟩⟩
            rintro rfl
            obtain ⟨l, h1, rfl, rfl⟩ := hk
            obtain ⟨l', h2, rfl, rfl⟩ := hk1
            rw [h1] at h2; cases h2
            exact hne rfl
          · rintro ⟨k, ⟨_, l, hl, _⟩ | ⟨hne, hk⟩⟩
            · cases hl
            · refine ⟨⟨k, hk⟩, ?_⟩
              intro he
              cases he
              exact hne (hi.slot _ _ _ _ _ hk hk1)
        · cases hs; exact hkeep rfl rfl
      · cases hs
    | alias n t i => exact ha.elim
    | _ =>
      simp only [step] at hs
      repeat' split at hs
      all_goals first
        | (cases hs; done)
        | (cases hs
           refine hkeep ?_ rfl
           simp [move, cut, deliver_slots, routeAdd_slots])

/-! ## The reader -/

/-- Where the reader can be. -/
def ReaderAt (p : Place) : Prop := p ≠ .idle ∧ jobOf p = none

structure Timed (s : State) : Prop where
  reader : ReaderAt (s.place 0)
  clock : s.reconnectTime < s.clock

theorem deliver_times (s : State) (j) : (deliver s j).reconnectTime = s.reconnectTime ∧
    (deliver s j).clock = s.clock := by
  cases j with
  | other => exact ⟨rfl, rfl⟩
  | _ => simp only [deliver, routeAdd, routeRemove] <;> (repeat' split) <;> exact ⟨rfl, rfl⟩

theorem routeAdd_times (s : State) (t i) : (routeAdd s t i).reconnectTime = s.reconnectTime ∧
    (routeAdd s t i).clock = s.clock := by
  unfold routeAdd; repeat' split
  all_goals exact ⟨rfl, rfl⟩

theorem Timed.move {s s1 : State} (ht : Timed s) {n p} (h1 : s1.place = s.place)
    (h2 : s1.reconnectTime ≤ s1.clock) (hp : ReaderAt (s.place n) → ReaderAt p) : Timed (move s1 n p) := by
  refine ⟨?_, ?_⟩
  · rw [move_place]; split
    · next h => subst h; exact hp ht.reader
    · rw [h1]; exact ht.reader
  · show s1.reconnectTime < s1.clock + 1; omega

theorem timed_step {s e s' o} (ht : Timed s) (hs : step s e = .ok (s', o)) : Timed s' := by
  have hc := ht.clock
  cases e with
  | drop =>
    simp only [step] at hs
    cases hs
    exact ⟨ht.reader, by show s.reconnectTime < s.clock + 1; omega⟩
  | _ =>
    simp only [step] at hs
    repeat' split at hs
    all_goals first
      | (cases hs; done)
      | (cases hs
         refine ht.move (by simp [cut, deliver_place, routeAdd_place])
           (by first | omega | (simp only [cut, deliver_times, routeAdd_times]; omega)) ?_
         grind [ReaderAt, jobOf, resume, giveUp])

theorem timed {h s} (hx : Careful h s) : Timed s := by
  induction hx with
  | nil => exact ⟨⟨nofun, rfl⟩, by decide⟩
  | snoc _ _ hs ih => exact timed_step ih hs

/-- Whoever is making the link again finishes. -/
theorem ends {h s} (hx : Careful h s) (hp : s.inProgress = true) :
    ∃ h' s', Careful (h ++ h') s' ∧ s'.inProgress = false ∧ s'.link = true ∧ s'.slots = s.slots := by
  have hi := inv hx
  obtain ⟨n, hn⟩ := hi.prog.mp hp
  cases hpl : s.place n with
  | telling j t i => exact finishes hx hpl
  | opening j t f =>
    cases f with
    | true => exact absurd hpl (hi.plain _ _ _)
    | false =>
      have hs : step s (.connect n .made) =
          .ok (move { cut s with link := true, closed := false } n (.telling j t 0), .silent) := by
        simp [step, hpl]
      obtain ⟨h', s', h1, h2, h3, h4⟩ := finishes (.snoc hx (e := .connect n .made) (.inl rfl) hs) (n := n)
        (j := j) (t := t) (i := 0) (by rw [move_place, if_pos rfl])
      exact ⟨_, s', by rw [List.append_assoc] at h1; exact h1, h2, h3, h4⟩
  | reading j t i =>
    obtain ⟨t', i', l, hl, _⟩ := hi.entry _ _ _ _ hpl
    have hlink := hi.openUp n i (by rw [hpl]; rfl)
    have hs : step s (.tell n) =
        .ok (move (routeAdd s l.expr l.id) n (.telling j t (i + 1)), .sent) := by
      simp [step, hpl, hl, hlink]
    obtain ⟨h', s', h1, h2, h3, h4⟩ := finishes (.snoc hx (e := .tell n) trivial hs) (n := n) (j := j)
      (t := t) (i := i + 1) (by rw [move_place, if_pos rfl])
    refine ⟨_, s', by rw [List.append_assoc] at h1; exact h1, h2, h3, ?_⟩
    rw [h4]
    exact routeAdd_slots s l.expr l.id
  | idle => rw [hpl] at hn; exact hn.elim
  | sending _ _ => rw [hpl] at hn; exact hn.elim
  | listening _ => rw [hpl] at hn; exact hn.elim
  | failed _ _ => rw [hpl] at hn; exact hn.elim
  | waiting _ _ => rw [hpl] at hn; exact hn.elim
  | nested _ _ _ => rw [hpl] at hn; exact hn.elim

/-- One more step before. -/
theorem after_step {h s e s1 o} {P : State → Prop} (hx : Careful h s) (ha : Allowed s e)
    (hs : step s e = .ok (s1, o)) (hP : ∀ h, Careful h s1 → ∃ h' s', Careful (h ++ h') s' ∧ P s') :
    ∃ h' s', Careful (h ++ h') s' ∧ P s' := by
  obtain ⟨h', s', h1, h2⟩ := hP _ (.snoc hx ha hs)
  exact ⟨_, s', by rw [List.append_assoc] at h1; exact h1, h2⟩

/-- The reader knows that the link is down, and its reading began after the last attempt to connect. -/
theorem back_failed {h s t} (hx : Careful h s) (hl : s.inProgress = false) (hp : s.place 0 = .failed none t)
    (ht : s.reconnectTime < t) :
    ∃ h' s', Careful (h ++ h') s' ∧ s'.inProgress = false ∧ s'.link = true ∧ s'.slots = s.slots := by
  have hs : step s (.claim 0) = .ok (move { cut s with inProgress := true, reconnectTime := s.clock } 0
      (.opening none t false), .silent) := by
    simp [step, hp, (inv hx).closed, hl, ht]
  refine after_step hx (e := .claim 0) trivial hs ?_
  intro h1 hx1
  have hz := ends hx1 rfl
  exact hz

theorem back_listening {h s t} (hx : Careful h s) (hl : s.inProgress = false) (hd : s.link = false)
    (hp : s.place 0 = .listening t) (ht : s.reconnectTime < t) :
    ∃ h' s', Careful (h ++ h') s' ∧ s'.inProgress = false ∧ s'.link = true ∧ s'.slots = s.slots := by
  have hs : step s .lost = .ok (move s 0 (.failed none t), .silent) := by
    simp [step, hp, (inv hx).closed, hd]
  refine after_step hx (e := .lost) trivial hs ?_
  intro h1 hx1
  have hz := back_failed hx1 hl rfl ht
  exact hz

/-- The reader's reading began before the last attempt: it begins again. -/
theorem back_failed' {h s t} (hx : Careful h s) (hl : s.inProgress = false) (hd : s.link = false)
    (hp : s.place 0 = .failed none t) :
    ∃ h' s', Careful (h ++ h') s' ∧ s'.inProgress = false ∧ s'.link = true ∧ s'.slots = s.slots := by
  by_cases ht : s.reconnectTime < t
  · exact back_failed hx hl hp ht
  · have hs : step s (.claim 0) = .ok (move s 0 (.listening s.clock), .silent) := by
      simp [step, hp, (inv hx).closed, hl, ht, resume]
    refine after_step hx (e := .claim 0) trivial hs ?_
    intro h1 hx1
    have hz := back_listening hx1 hl hd rfl (timed hx).clock
    exact hz

theorem comes_back {h s} (hx : Careful h s) :
    ∃ h' s', Careful (h ++ h') s' ∧ s'.inProgress = false ∧ s'.link = true ∧ s'.slots = s.slots := by
  cases hp : s.inProgress with
  | true => exact ends hx hp
  | false =>
    cases hl : s.link with
    | true => exact ⟨[], s, by simpa using hx, hp, hl, rfl⟩
    | false =>
      have hi := inv hx
      have hnone : ∀ n, ¬ Remaking (s.place n) := by
        intro n hn
        have := hi.prog.mpr ⟨n, hn⟩
        rw [hp] at this; cases this
      obtain ⟨hr1, hr2⟩ := (timed hx).reader
      have hn0 := hnone 0
      cases hpl : s.place 0 with
      | listening t =>
        have hs : step s .lost = .ok (move s 0 (.failed none t), .silent) := by
          simp [step, hpl, hi.closed, hl]
        refine after_step hx (e := .lost) trivial hs ?_
        intro h1 hx1
        have hz := back_failed' hx1 hp hl rfl
        exact hz
      | failed j t =>
        rw [hpl] at hr2
        change j = none at hr2
        subst hr2
        exact back_failed' hx hp hl hpl
      | waiting j t =>
        rw [hpl] at hr2
        change j = none at hr2
        subst hr2
        have hs : step s (.wake 0) = .ok (move s 0 (.listening s.clock), .silent) := by
          simp [step, hpl, hp, resume]
        refine after_step hx (e := .wake 0) trivial hs ?_
        intro h1 hx1
        have hz := back_listening hx1 hp hl rfl (timed hx).clock
        exact hz
      | idle => exact absurd hpl hr1
      | sending j t => rw [hpl] at hr2; cases hr2
      | nested j t i => exact absurd hpl (hi.flat _ _ _ _)
      | opening _ _ _ => rw [hpl] at hn0; exact absurd trivial hn0
      | telling _ _ _ => rw [hpl] at hn0; exact absurd trivial hn0
      | reading _ _ _ => rw [hpl] at hn0; exact absurd trivial hn0

end Verif.Reconnect
