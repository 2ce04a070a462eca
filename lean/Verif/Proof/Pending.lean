import Verif.Spec.Pending
import Verif.Proof.Exec

/-!
# Invariants of requests and responses
-/

namespace Verif.Pending

theorem exec_of_run {es s os} (h : run init es = .ok (s, os)) :
    es.length = os.length ∧ Exec step init (es.zip os) s := by
  have := Exec.extend (step := step) (s₀ := init) .nil (run := run) (fun _ => rfl)
    (fun _ _ _ => rfl) es s os h
  simpa using this

/-- Places at which a request holds the mutex. -/
def holds : Place → Bool
  | .locked | .sending | .relocked | .taken _ => true
  | _ => false

/-- Places after a successful wait. -/
def awake : Place → Bool
  | .woken | .relocked | .taken _ => true
  | _ => false

@[simp] theorem set_same (f : Nat → Option Entry) (r e) : set f r e r = e := by simp [set]

theorem set_other {f : Nat → Option Entry} {r e x} (h : x ≠ r) : set f r e x = f x := by simp [set, h]

structure Inv (h : History) (s : State) : Prop where
  own : ∀ r, s.owner = some (.request r) ↔ ∃ e, s.entries r = some e ∧ holds e.place = true
  ownR : s.owner = some .reader ↔ s.reader ≠ .idle
  fresh : ∀ r, s.begun ≤ r → s.entries r = none
  pend : ∀ r, r ∈ s.pending ↔ ∃ e, s.entries r = some e ∧ e.place ≠ .locked
  nodup : s.pending.Nodup
  sent : ∀ r e, s.entries r = some e → e.place ≠ .locked → ∃ a b ev, h = a ++ (ev, Obs.sent r e.seq) :: b
  back : ∀ r g res, (g, Obs.returned r res) ∈ h → s.entries r = none ∧ r < s.begun
  resp : ∀ r e m, s.entries r = some e → e.response = some m →
    e.place ≠ .locked ∧ m.seq = e.seq ∧ AnsweredBy h r e.seq m
  got : ∀ r e res, s.entries r = some e → e.place = .taken res → res = outcome e.response
  scanning : ∀ m, s.reader = .scanning m → ∃ a c f, h = a ++ (f, Obs.arrived m) :: c ∧
    ∀ r e, s.entries r = some e → e.place ≠ .locked → ∃ a1 b1 ev, a = a1 ++ (ev, Obs.sent r e.seq) :: b1
  posted : ∀ r e, s.entries r = some e → 0 < e.posted → e.response ≠ none
  woken : ∀ r e, s.entries r = some e → awake e.place = true → e.response = none →
    ∃ o, (Event.spurious r, o) ∈ h
  late : ∀ r e, s.entries r = some e → e.place = .timedOut → ∃ o, (Event.timeout r, o) ∈ h
  numS : ∀ m, s.reader = .scanning m → m.num < s.arrivals ∧
    (∀ r e m', s.entries r = some e → e.response = some m' → m'.num ≠ m.num) ∧
    (∀ g r m', (g, Obs.returned r (.ok m')) ∈ h → m'.num ≠ m.num)
  numR : ∀ r e m, s.entries r = some e → e.response = some m → m.num < s.arrivals ∧
    (∀ r' e' m', s.entries r' = some e' → e'.response = some m' → m'.num = m.num → r' = r) ∧
    (∀ g r m', (g, Obs.returned r (.ok m')) ∈ h → m'.num ≠ m.num)
  numB : ∀ g r m, (g, Obs.returned r (.ok m)) ∈ h → m.num < s.arrivals

theorem AnsweredBy.mono {h r q m} (hm : AnsweredBy h r q m) (x : History) : AnsweredBy (h ++ x) r q m := by
  obtain ⟨a, b, c, e, f, rfl, hr⟩ := hm
  exact ⟨a, b, c ++ x, e, f, by simp, hr⟩

theorem mem_snoc_nothing {h : History} {ev g r res} :
    (g, Obs.returned r res) ∈ h ++ [(ev, Obs.nothing)] ↔ (g, Obs.returned r res) ∈ h := by
  simp

/-- A request moves from one place to another, keeping its number and response. -/
theorem Inv.move {h s r e pl p o' ev} (hi : Inv h s) (he : s.entries r = some e)
    (hl : e.place ≠ .locked) (hl' : pl ≠ .locked)
    (ho : o' = s.owner ∧ holds pl = holds e.place ∨
      o' = none ∧ s.owner = some (.request r) ∧ holds pl = false ∨
      o' = some (.request r) ∧ s.owner = none ∧ holds pl = true)
    (hg : ∀ res, pl = .taken res → res = outcome e.response)
    (hp : p ≤ e.posted)
    (hw : awake pl = true → awake e.place = true ∨ 0 < e.posted ∨ ev = .spurious r)
    (ht : pl = .timedOut → ev = .timeout r) :
    Inv (h ++ [(ev, .nothing)])
      { s with owner := o', entries := set s.entries r (some { e with place := pl, posted := p }) } := by
  have key : ∀ x y, set s.entries r (some { e with place := pl, posted := p }) x = some y →
      ∃ y0, s.entries x = some y0 ∧ y.seq = y0.seq ∧ y.response = y0.response ∧ y.posted ≤ y0.posted ∧
        (x = r ∧ y0 = e ∧ y = { e with place := pl, posted := p } ∨ x ≠ r ∧ y = y0) := by
    intro x y hy
    by_cases hx : x = r
    · subst hx
      rw [set_same] at hy
      cases hy
      exact ⟨e, he, rfl, rfl, hp, .inl ⟨rfl, rfl, rfl⟩⟩
    · rw [set_other hx] at hy
      exact ⟨y, hy, rfl, rfl, Nat.le_refl _, .inr ⟨hx, rfl⟩⟩
  have hpl : ∀ x y y0, s.entries x = some y0 → (x = r ∧ y0 = e ∧ y = { e with place := pl, posted := p } ∨ x ≠ r ∧ y = y0) →
      (y0.place ≠ .locked ↔ y.place ≠ .locked) := by
    rintro x y y0 hy0 (⟨rfl, rfl, rfl⟩ | ⟨hx, rfl⟩)
    · simp [hl, hl']
    · rfl
  constructor <;> (try dsimp only)
  · intro x
    by_cases hx : x = r
    · subst hx
      simp only [set_same, Option.some.injEq, exists_eq_left']
      rcases ho with ⟨rfl, h2⟩ | ⟨rfl, h1, h2⟩ | ⟨rfl, h1, h2⟩
      · rw [hi.own, h2, he]; simp
      · simp [h2]
      · simp [h2]
    · rw [set_other hx]
      rcases ho with ⟨rfl, h2⟩ | ⟨rfl, h1, h2⟩ | ⟨rfl, h1, h2⟩
      · exact hi.own x
      · rw [← hi.own x, h1]; simp; exact fun h => hx h.symm
      · rw [← hi.own x, h1]; simp; exact fun h => hx h.symm
  · rcases ho with ⟨rfl, h2⟩ | ⟨rfl, h1, h2⟩ | ⟨rfl, h1, h2⟩
    · exact hi.ownR
    · have := hi.ownR; rw [h1] at this; simp at this; simp [this]
    · have := hi.ownR; rw [h1] at this; simp at this; simp [this]
  · intro x hx
    have h1 := hi.fresh x hx
    by_cases hxr : x = r
    · subst hxr; rw [he] at h1; cases h1
    · rw [set_other hxr]; exact h1
  · intro x
    rw [hi.pend]
    by_cases hx : x = r
    · subst hx; simp [he, hl, hl']
    · rw [set_other hx]
  · exact hi.nodup
  · intro x y hy hne
    obtain ⟨y0, h1, h2, h3, h4, h5⟩ := key x y hy
    obtain ⟨a, b, ev', hab⟩ := hi.sent x y0 h1 ((hpl x y y0 h1 h5).mpr hne)
    exact ⟨a, b ++ [(ev, .nothing)], ev', by rw [hab, h2]; simp⟩
  · intro x g res hm
    obtain ⟨h1, h2⟩ := hi.back x g res (mem_snoc_nothing.mp hm)
    refine ⟨?_, h2⟩
    by_cases hxr : x = r
    · subst hxr; rw [he] at h1; cases h1
    · rw [set_other hxr]; exact h1
  · intro x y m hy hm
    obtain ⟨y0, h1, h2, h3, h4, h5⟩ := key x y hy
    obtain ⟨h6, h7, h8⟩ := hi.resp x y0 m h1 (h3 ▸ hm)
    exact ⟨(hpl x y y0 h1 h5).mp h6, by rw [h7, h2], by rw [h2]; exact h8.mono _⟩
  · intro x y res hy hm
    obtain ⟨y0, h1, h2, h3, h4, h5⟩ := key x y hy
    rcases h5 with ⟨rfl, rfl, rfl⟩ | ⟨hx, rfl⟩
    · exact hg res hm
    · exact hi.got x y res h1 hm
  · intro m hm
    obtain ⟨a, c, f, hac, hs⟩ := hi.scanning m hm
    refine ⟨a, c ++ [(ev, .nothing)], f, by rw [hac]; simp, ?_⟩
    intro x y hy hne
    obtain ⟨y0, h1, h2, h3, h4, h5⟩ := key x y hy
    rw [h2]
    exact hs x y0 h1 ((hpl x y y0 h1 h5).mpr hne)
  · intro x y hy hpos
    obtain ⟨y0, h1, h2, h3, h4, h5⟩ := key x y hy
    rw [h3]
    exact hi.posted x y0 h1 (by omega)
  · intro x y hy haw hn
    obtain ⟨y0, h1, h2, h3, h4, h5⟩ := key x y hy
    rw [h3] at hn
    rcases h5 with ⟨rfl, rfl, rfl⟩ | ⟨hx, rfl⟩
    · rcases hw haw with hw | hw | rfl
      · obtain ⟨o, ho⟩ := hi.woken x y0 he hw hn
        exact ⟨o, List.mem_append_left _ ho⟩
      · exact absurd hn (hi.posted x y0 he hw)
      · exact ⟨.nothing, by simp⟩
    · obtain ⟨o, ho⟩ := hi.woken x y h1 haw hn
      exact ⟨o, List.mem_append_left _ ho⟩
  · intro x y hy htm
    obtain ⟨y0, h1, h2, h3, h4, h5⟩ := key x y hy
    rcases h5 with ⟨rfl, rfl, rfl⟩ | ⟨hx, rfl⟩
    · exact ⟨.nothing, by simp [ht htm]⟩
    · obtain ⟨o, ho⟩ := hi.late x y h1 htm
      exact ⟨o, List.mem_append_left _ ho⟩
  · intro m hm
    obtain ⟨h1, h2, h3⟩ := hi.numS m hm
    refine ⟨h1, ?_, ?_⟩
    · intro x y m' hy hm'
      obtain ⟨y0, h1', _, h3', _⟩ := key x y hy
      exact h2 x y0 m' h1' (h3' ▸ hm')
    · intro g x m' hx
      exact h3 g x m' (mem_snoc_nothing.mp hx)
  · intro x y m hy hm
    obtain ⟨y0, h1', _, h3', _⟩ := key x y hy
    obtain ⟨h1, h2, h3⟩ := hi.numR x y0 m h1' (h3' ▸ hm)
    refine ⟨h1, ?_, ?_⟩
    · intro x' y' m' hy' hm' hn
      obtain ⟨y0', h1'', _, h3'', _⟩ := key x' y' hy'
      exact h2 x' y0' m' h1'' (h3'' ▸ hm') hn
    · intro g x m' hx
      exact h3 g x m' (mem_snoc_nothing.mp hx)
  · intro g x m hx
    exact hi.numB g x m (mem_snoc_nothing.mp hx)

/-- A request returns. -/
theorem Inv.leave {h s r e o' ev res} (hi : Inv h s) (he : s.entries r = some e)
    (hl : e.place ≠ .locked)
    (ho : o' = none ∧ s.owner = some (.request r) ∨ o' = s.owner ∧ s.owner ≠ some (.request r))
    (hr : ∀ m, res = .ok m → e.response = some m) :
    Inv (h ++ [(ev, .returned r res)])
      { s with owner := o', pending := s.pending.erase r, entries := set s.entries r none } := by
  have key : ∀ x y, set s.entries r none x = some y → x ≠ r ∧ s.entries x = some y := by
    intro x y hy
    by_cases hx : x = r
    · subst hx; simp at hy
    · rw [set_other hx] at hy; exact ⟨hx, hy⟩
  have hret : ∀ g x res', (g, Obs.returned x res') ∈ h ++ [(ev, Obs.returned r res)] →
      (g, Obs.returned x res') ∈ h ∨ x = r ∧ res' = res := by
    intro g x res' hm
    rcases List.mem_append.mp hm with hm | hm
    · exact .inl hm
    · simp only [List.mem_singleton, Prod.mk.injEq, Obs.returned.injEq] at hm
      exact .inr hm.2
  constructor <;> (try dsimp only)
  · intro x
    by_cases hx : x = r
    · subst hx
      rcases ho with ⟨rfl, _⟩ | ⟨rfl, h2⟩
      · simp
      · simp [h2]
    · rw [set_other hx, ← hi.own x]
      rcases ho with ⟨rfl, h1⟩ | ⟨rfl, h2⟩
      · rw [h1]; simp; exact fun h => hx h.symm
      · rfl
  · rcases ho with ⟨rfl, h1⟩ | ⟨rfl, h2⟩
    · have := hi.ownR; rw [h1] at this; simp at this; simp [this]
    · exact hi.ownR
  · intro x hx
    by_cases hxr : x = r
    · subst hxr; simp
    · rw [set_other hxr]; exact hi.fresh x hx
  · intro x
    rw [hi.nodup.mem_erase_iff, hi.pend]
    by_cases hx : x = r
    · subst hx; simp
    · rw [set_other hx]; simp [hx]
  · exact hi.nodup.erase r
  · intro x y hy hne
    obtain ⟨_, h1⟩ := key x y hy
    obtain ⟨a, b, ev', hab⟩ := hi.sent x y h1 hne
    exact ⟨a, b ++ [(ev, .returned r res)], ev', by rw [hab]; simp⟩
  · intro x g res' hm
    rcases hret g x res' hm with hm | ⟨rfl, rfl⟩
    · obtain ⟨h1, h2⟩ := hi.back x g res' hm
      refine ⟨?_, h2⟩
      by_cases hxr : x = r
      · subst hxr; simp
      · rw [set_other hxr]; exact h1
    · refine ⟨by simp, ?_⟩
      by_cases hb : s.begun ≤ x
      · have := hi.fresh x hb; rw [he] at this; cases this
      · show x < s.begun; omega
  · intro x y m hy hm
    obtain ⟨_, h1⟩ := key x y hy
    obtain ⟨h6, h7, h8⟩ := hi.resp x y m h1 hm
    exact ⟨h6, h7, h8.mono _⟩
  · intro x y res' hy hm
    exact hi.got x y res' (key x y hy).2 hm
  · intro m hm
    obtain ⟨a, c, f, hac, hs⟩ := hi.scanning m hm
    refine ⟨a, c ++ [(ev, .returned r res)], f, by rw [hac]; simp, ?_⟩
    intro x y hy hne
    exact hs x y (key x y hy).2 hne
  · intro x y hy hpos
    exact hi.posted x y (key x y hy).2 hpos
  · intro x y hy haw hn
    obtain ⟨o, ho⟩ := hi.woken x y (key x y hy).2 haw hn
    exact ⟨o, List.mem_append_left _ ho⟩
  · intro x y hy htm
    obtain ⟨o, ho⟩ := hi.late x y (key x y hy).2 htm
    exact ⟨o, List.mem_append_left _ ho⟩
  · intro m hm
    obtain ⟨h1, h2, h3⟩ := hi.numS m hm
    refine ⟨h1, ?_, ?_⟩
    · intro x y m' hy hm'
      exact h2 x y m' (key x y hy).2 hm'
    · intro g x m' hx
      rcases hret g x _ hx with hx | ⟨rfl, rfl⟩
      · exact h3 g x m' hx
      · exact h2 x e m' he (hr m' rfl)
  · intro x y m hy hm
    obtain ⟨hxr, hy0⟩ := key x y hy
    obtain ⟨h1, h2, h3⟩ := hi.numR x y m hy0 hm
    refine ⟨h1, ?_, ?_⟩
    · intro x' y' m' hy' hm' hn
      exact h2 x' y' m' (key x' y' hy').2 hm' hn
    · intro g x' m' hx
      rcases hret g x' _ hx with hx | ⟨rfl, rfl⟩
      · exact h3 g x' m' hx
      · intro hn
        exact hxr (h2 x' e m' he (hr m' rfl) hn).symm
  · intro g x m hx
    rcases hret g x _ hx with hx | ⟨rfl, rfl⟩
    · exact hi.numB g x m hx
    · exact (hi.numR x e m he (hr m rfl)).1

theorem inv_init : Inv [] init := by
  constructor <;> simp [init]

theorem holds_cases {p : Place} : holds p = true ∨ holds p = false := by cases p <;> simp [holds]

theorem scan_some {f m rs r} (h : scan f m rs = .ok (some r)) :
    r ∈ rs ∧ ∃ e, f r = some e ∧ e.seq = m.seq := by
  induction rs with
  | nil => simp [scan] at h
  | cons x rs ih =>
    simp only [scan] at h
    split at h
    · cases h
    · rename_i e he
      split at h
      · rename_i hq
        cases h
        exact ⟨by simp, e, he, hq⟩
      · obtain ⟨h1, h2⟩ := ih h
        exact ⟨List.mem_cons_of_mem _ h1, h2⟩

theorem scan_defined {f m rs} (h : ∀ r ∈ rs, f r ≠ none) : scan f m rs ≠ .ub := by
  induction rs with
  | nil => simp [scan]
  | cons x rs ih =>
    simp only [scan]
    split
    · rename_i hx
      exact absurd hx (h x (by simp))
    · split
      · simp
      · exact ih (fun r hr => h r (by simp [hr]))

theorem scan_none {f m rs} (h : scan f m rs = .ok none) : ∀ r ∈ rs, ∀ e, f r = some e → e.seq ≠ m.seq := by
  induction rs with
  | nil => simp
  | cons x rs ih =>
    simp only [scan] at h
    split at h
    · cases h
    · rename_i e he
      split at h
      · cases h
      · rename_i hq
        intro r hr e' he'
        rcases List.mem_cons.mp hr with rfl | hr
        · rw [he] at he'; cases he'; exact hq
        · exact ih h r hr e' he'

theorem not_mem_of_entry {h s r e} (hi : Inv h s) (he : s.entries r = some e) :
    ∀ g res, (g, Obs.returned r res) ∉ h := by
  intro g res hm
  have := (hi.back r g res hm).1
  rw [he] at this
  cases this

/-- Only `owner`, `counter`, `reader` change, and nothing is seen. -/
theorem Inv.quiet {h s ev o' c rd} (hi : Inv h s)
    (ho : o' = s.owner ∧ rd = s.reader ∨ o' = none ∧ s.owner = some .reader ∧ rd = .idle ∨
      o' = s.owner ∧ s.owner = some .reader ∧ rd = .scanned) :
    Inv (h ++ [(ev, .nothing)]) { s with owner := o', counter := c, reader := rd } := by
  have hrd : ∀ m, rd = .scanning m → s.reader = .scanning m := by
    intro m hm
    rcases ho with ⟨_, h2⟩ | ⟨_, _, h2⟩ | ⟨_, _, h2⟩
    · rw [← h2]; exact hm
    · rw [h2] at hm; cases hm
    · rw [h2] at hm; cases hm
  constructor <;> (try dsimp only)
  · intro x
    rcases ho with ⟨rfl, _⟩ | ⟨rfl, h1, _⟩ | ⟨rfl, _, _⟩
    · exact hi.own x
    · rw [← hi.own x, h1]; simp
    · exact hi.own x
  · rcases ho with ⟨rfl, rfl⟩ | ⟨rfl, h1, rfl⟩ | ⟨rfl, h1, rfl⟩
    · exact hi.ownR
    · simp
    · simp [h1]
  · exact hi.fresh
  · exact hi.pend
  · exact hi.nodup
  · intro x y hy hne
    obtain ⟨a, b, ev', hab⟩ := hi.sent x y hy hne
    exact ⟨a, b ++ [(ev, .nothing)], ev', by rw [hab]; simp⟩
  · intro x g res hm
    exact hi.back x g res (mem_snoc_nothing.mp hm)
  · intro x y m hy hm
    obtain ⟨h6, h7, h8⟩ := hi.resp x y m hy hm
    exact ⟨h6, h7, h8.mono _⟩
  · exact hi.got
  · intro m hm
    obtain ⟨a, c, f, hac, hs⟩ := hi.scanning m (hrd m hm)
    exact ⟨a, c ++ [(ev, .nothing)], f, by rw [hac]; simp, hs⟩
  · exact hi.posted
  · intro x y hy haw hn
    obtain ⟨o, ho⟩ := hi.woken x y hy haw hn
    exact ⟨o, List.mem_append_left _ ho⟩
  · intro x y hy htm
    obtain ⟨o, ho⟩ := hi.late x y hy htm
    exact ⟨o, List.mem_append_left _ ho⟩
  · intro m hm
    obtain ⟨h1, h2, h3⟩ := hi.numS m (hrd m hm)
    exact ⟨h1, h2, fun g x m' hx => h3 g x m' (mem_snoc_nothing.mp hx)⟩
  · intro x y m hy hm
    obtain ⟨h1, h2, h3⟩ := hi.numR x y m hy hm
    exact ⟨h1, h2, fun g x m' hx => h3 g x m' (mem_snoc_nothing.mp hx)⟩
  · intro g x m hx
    exact hi.numB g x m (mem_snoc_nothing.mp hx)

/-- A request begins. -/
theorem Inv.begin {h s} (hi : Inv h s) (ho : s.owner = none) :
    Inv (h ++ [(.lock, .nothing)])
      { s with
        owner := some (.request s.begun)
        begun := s.begun + 1
        entries := set s.entries s.begun (some ⟨.locked, 0, 0, none⟩) } := by
  have hnone := hi.fresh s.begun (Nat.le_refl _)
  have hidle : s.reader = .idle := by
    have := hi.ownR; rw [ho] at this; simpa using this
  have key : ∀ x y, set s.entries s.begun (some ⟨.locked, 0, 0, none⟩) x = some y →
      (x = s.begun ∧ y = ⟨.locked, 0, 0, none⟩) ∨ (x ≠ s.begun ∧ s.entries x = some y) := by
    intro x y hy
    by_cases hx : x = s.begun
    · subst hx; rw [set_same] at hy; cases hy; exact .inl ⟨rfl, rfl⟩
    · rw [set_other hx] at hy; exact .inr ⟨hx, hy⟩
  constructor <;> (try dsimp only)
  · intro x
    by_cases hx : x = s.begun
    · subst hx; simp [holds]
    · rw [set_other hx, ← hi.own x, ho]; simp; exact fun h => hx h.symm
  · simp [hidle]
  · intro x hx
    have hx' : s.begun + 1 ≤ x := hx
    rw [set_other (by omega)]
    exact hi.fresh x (by omega)
  · intro x
    rw [hi.pend]
    by_cases hx : x = s.begun
    · subst hx; simp [hnone]
    · rw [set_other hx]
  · exact hi.nodup
  · intro x y hy hne
    rcases key x y hy with ⟨rfl, rfl⟩ | ⟨_, hy⟩
    · simp at hne
    · obtain ⟨a, b, ev', hab⟩ := hi.sent x y hy hne
      exact ⟨a, b ++ [(.lock, .nothing)], ev', by rw [hab]; simp⟩
  · intro x g res hm
    obtain ⟨h1, h2⟩ := hi.back x g res (mem_snoc_nothing.mp hm)
    refine ⟨by rw [set_other (by omega)]; exact h1, ?_⟩
    show x < s.begun + 1; omega
  · intro x y m hy hm
    rcases key x y hy with ⟨rfl, rfl⟩ | ⟨_, hy⟩
    · cases hm
    · obtain ⟨h6, h7, h8⟩ := hi.resp x y m hy hm
      exact ⟨h6, h7, h8.mono _⟩
  · intro x y res hy hm
    rcases key x y hy with ⟨rfl, rfl⟩ | ⟨_, hy⟩
    · cases hm
    · exact hi.got x y res hy hm
  · intro m hm
    have hm' : s.reader = .scanning m := hm
    rw [hidle] at hm'; cases hm'
  · intro x y hy hpos
    rcases key x y hy with ⟨rfl, rfl⟩ | ⟨_, hy⟩
    · simp at hpos
    · exact hi.posted x y hy hpos
  · intro x y hy haw hn
    rcases key x y hy with ⟨rfl, rfl⟩ | ⟨_, hy⟩
    · simp [awake] at haw
    · obtain ⟨o, ho⟩ := hi.woken x y hy haw hn
      exact ⟨o, List.mem_append_left _ ho⟩
  · intro x y hy htm
    rcases key x y hy with ⟨rfl, rfl⟩ | ⟨_, hy⟩
    · cases htm
    · obtain ⟨o, ho⟩ := hi.late x y hy htm
      exact ⟨o, List.mem_append_left _ ho⟩
  · intro m hm
    have hm' : s.reader = .scanning m := hm
    rw [hidle] at hm'; cases hm'
  · intro x y m hy hm
    rcases key x y hy with ⟨rfl, rfl⟩ | ⟨_, hy⟩
    · cases hm
    · obtain ⟨h1, h2, h3⟩ := hi.numR x y m hy hm
      refine ⟨h1, ?_, fun g x m' hx => h3 g x m' (mem_snoc_nothing.mp hx)⟩
      intro x' y' m' hy' hm' hn
      rcases key x' y' hy' with ⟨rfl, rfl⟩ | ⟨_, hy'⟩
      · cases hm'
      · exact h2 x' y' m' hy' hm' hn
  · intro g x m hx
    exact hi.numB g x m (mem_snoc_nothing.mp hx)

/-- A request enters the list. -/
theorem Inv.enter {h s r e c ev} (hi : Inv h s) (he : s.entries r = some e) (hl : e.place = .locked) :
    Inv (h ++ [(ev, .sent r s.counter)])
      { s with
        counter := c
        pending := r :: s.pending
        entries := set s.entries r (some ⟨.sending, s.counter, 0, none⟩) } := by
  have hown : s.owner = some (.request r) := (hi.own r).mpr ⟨e, he, by rw [hl]; rfl⟩
  have hidle : s.reader = .idle := by
    have := hi.ownR; rw [hown] at this; simpa using this
  have hnp : r ∉ s.pending := by
    rw [hi.pend]; rintro ⟨e', he', hne⟩
    rw [he] at he'; cases he'; exact hne hl
  have key : ∀ x y, set s.entries r (some ⟨.sending, s.counter, 0, none⟩) x = some y →
      (x = r ∧ y = ⟨.sending, s.counter, 0, none⟩) ∨ (x ≠ r ∧ s.entries x = some y) := by
    intro x y hy
    by_cases hx : x = r
    · subst hx; rw [set_same] at hy; cases hy; exact .inl ⟨rfl, rfl⟩
    · rw [set_other hx] at hy; exact .inr ⟨hx, hy⟩
  have hret : ∀ g x res', (g, Obs.returned x res') ∈ h ++ [(ev, Obs.sent r s.counter)] →
      (g, Obs.returned x res') ∈ h := by
    intro g x res' hm
    simpa using hm
  constructor <;> (try dsimp only)
  · intro x
    by_cases hx : x = r
    · subst hx; simp [holds, hown]
    · rw [set_other hx]; exact hi.own x
  · exact hi.ownR
  · intro x hx
    by_cases hxr : x = r
    · subst hxr
      have := hi.fresh x hx; rw [he] at this; cases this
    · rw [set_other hxr]; exact hi.fresh x hx
  · intro x
    by_cases hx : x = r
    · subst hx; simp
    · rw [set_other hx, List.mem_cons, hi.pend]; simp [hx]
  · exact List.nodup_cons.mpr ⟨hnp, hi.nodup⟩
  · intro x y hy hne
    rcases key x y hy with ⟨rfl, rfl⟩ | ⟨_, hy⟩
    · exact ⟨h, [], ev, rfl⟩
    · obtain ⟨a, b, ev', hab⟩ := hi.sent x y hy hne
      exact ⟨a, b ++ [(ev, .sent r s.counter)], ev', by rw [hab]; simp⟩
  · intro x g res hm
    obtain ⟨h1, h2⟩ := hi.back x g res (hret _ _ _ hm)
    refine ⟨?_, h2⟩
    rw [set_other]
    · exact h1
    · rintro rfl; rw [he] at h1; cases h1
  · intro x y m hy hm
    rcases key x y hy with ⟨rfl, rfl⟩ | ⟨_, hy⟩
    · cases hm
    · obtain ⟨h6, h7, h8⟩ := hi.resp x y m hy hm
      exact ⟨h6, h7, h8.mono _⟩
  · intro x y res hy hm
    rcases key x y hy with ⟨rfl, rfl⟩ | ⟨_, hy⟩
    · cases hm
    · exact hi.got x y res hy hm
  · intro m hm
    have hm' : s.reader = .scanning m := hm
    rw [hidle] at hm'; cases hm'
  · intro x y hy hpos
    rcases key x y hy with ⟨rfl, rfl⟩ | ⟨_, hy⟩
    · simp at hpos
    · exact hi.posted x y hy hpos
  · intro x y hy haw hn
    rcases key x y hy with ⟨rfl, rfl⟩ | ⟨_, hy⟩
    · simp [awake] at haw
    · obtain ⟨o, ho⟩ := hi.woken x y hy haw hn
      exact ⟨o, List.mem_append_left _ ho⟩
  · intro x y hy htm
    rcases key x y hy with ⟨rfl, rfl⟩ | ⟨_, hy⟩
    · cases htm
    · obtain ⟨o, ho⟩ := hi.late x y hy htm
      exact ⟨o, List.mem_append_left _ ho⟩
  · intro m hm
    have hm' : s.reader = .scanning m := hm
    rw [hidle] at hm'; cases hm'
  · intro x y m hy hm
    rcases key x y hy with ⟨rfl, rfl⟩ | ⟨_, hy⟩
    · cases hm
    · obtain ⟨h1, h2, h3⟩ := hi.numR x y m hy hm
      refine ⟨h1, ?_, fun g x m' hx => h3 g x m' (hret _ _ _ hx)⟩
      intro x' y' m' hy' hm' hn
      rcases key x' y' hy' with ⟨rfl, rfl⟩ | ⟨_, hy'⟩
      · cases hm'
      · exact h2 x' y' m' hy' hm' hn
  · intro g x m hx
    exact hi.numB g x m (hret _ _ _ hx)

/-- A response arrives. -/
theorem Inv.arrive {h s q u ev} (hi : Inv h s) (ho : s.owner = none) :
    Inv (h ++ [(ev, .arrived ⟨s.arrivals, q, u⟩)])
      { s with
        owner := some .reader
        reader := .scanning ⟨s.arrivals, q, u⟩
        arrivals := s.arrivals + 1 } := by
  have hret : ∀ g x res', (g, Obs.returned x res') ∈ h ++ [(ev, Obs.arrived ⟨s.arrivals, q, u⟩)] →
      (g, Obs.returned x res') ∈ h := by
    intro g x res' hm
    simpa using hm
  constructor <;> (try dsimp only)
  · intro x
    rw [← hi.own x, ho]; simp
  · simp
  · exact hi.fresh
  · exact hi.pend
  · exact hi.nodup
  · intro x y hy hne
    obtain ⟨a, b, ev', hab⟩ := hi.sent x y hy hne
    exact ⟨a, b ++ [(ev, .arrived ⟨s.arrivals, q, u⟩)], ev', by rw [hab]; simp⟩
  · intro x g res hm
    exact hi.back x g res (hret _ _ _ hm)
  · intro x y m hy hm
    obtain ⟨h6, h7, h8⟩ := hi.resp x y m hy hm
    exact ⟨h6, h7, h8.mono _⟩
  · exact hi.got
  · intro m hm
    simp only [Reader.scanning.injEq] at hm
    subst hm
    exact ⟨h, [], ev, rfl, hi.sent⟩
  · exact hi.posted
  · intro x y hy haw hn
    obtain ⟨o, ho⟩ := hi.woken x y hy haw hn
    exact ⟨o, List.mem_append_left _ ho⟩
  · intro x y hy htm
    obtain ⟨o, ho⟩ := hi.late x y hy htm
    exact ⟨o, List.mem_append_left _ ho⟩
  · intro m hm
    simp only [Reader.scanning.injEq] at hm
    subst hm
    refine ⟨by simp, ?_, ?_⟩
    · intro x y m' hy hm'
      have := (hi.numR x y m' hy hm').1
      simp only; omega
    · intro g x m' hx
      have := hi.numB g x m' (hret _ _ _ hx)
      simp only; omega
  · intro x y m hy hm
    obtain ⟨h1, h2, h3⟩ := hi.numR x y m hy hm
    exact ⟨by omega, h2, fun g x m' hx => h3 g x m' (hret _ _ _ hx)⟩
  · intro g x m hx
    have := hi.numB g x m (hret _ _ _ hx)
    omega

/-- A response is put in an entry. -/
theorem Inv.answer {h s r e m ev} (hi : Inv h s) (hm : s.reader = .scanning m)
    (he : s.entries r = some e) (hp : r ∈ s.pending) (hq : e.seq = m.seq) :
    Inv (h ++ [(ev, .nothing)])
      { s with
        reader := .scanned
        entries := set s.entries r (some { e with response := some m, posted := e.posted + 1 }) } := by
  have hown : s.owner = some .reader := hi.ownR.mpr (by rw [hm]; simp)
  have hl : e.place ≠ .locked := by
    obtain ⟨e', he', h1⟩ := (hi.pend r).mp hp
    rw [he] at he'; cases he'; exact h1
  have hnh : holds e.place = false := by
    rcases @holds_cases e.place with h1 | h1
    · have := (hi.own r).mpr ⟨e, he, h1⟩
      rw [hown] at this; cases this
    · exact h1
  have key : ∀ x y, set s.entries r (some { e with response := some m, posted := e.posted + 1 }) x = some y →
      (x = r ∧ y = { e with response := some m, posted := e.posted + 1 }) ∨ (x ≠ r ∧ s.entries x = some y) := by
    intro x y hy
    by_cases hx : x = r
    · subst hx; rw [set_same] at hy; cases hy; exact .inl ⟨rfl, rfl⟩
    · rw [set_other hx] at hy; exact .inr ⟨hx, hy⟩
  constructor <;> (try dsimp only)
  · intro x
    by_cases hx : x = r
    · subst hx; simp [hown, hnh]
    · rw [set_other hx]; exact hi.own x
  · simp [hown]
  · intro x hx
    by_cases hxr : x = r
    · subst hxr
      have := hi.fresh x hx; rw [he] at this; cases this
    · rw [set_other hxr]; exact hi.fresh x hx
  · intro x
    by_cases hx : x = r
    · subst hx; simp [hp, hl]
    · rw [set_other hx, hi.pend]
  · exact hi.nodup
  · intro x y hy hne
    rcases key x y hy with ⟨rfl, rfl⟩ | ⟨_, hy⟩
    · obtain ⟨a, b, ev', hab⟩ := hi.sent x e he hl
      exact ⟨a, b ++ [(ev, .nothing)], ev', by rw [hab]; simp⟩
    · obtain ⟨a, b, ev', hab⟩ := hi.sent x y hy hne
      exact ⟨a, b ++ [(ev, .nothing)], ev', by rw [hab]; simp⟩
  · intro x g res hx
    obtain ⟨h1, h2⟩ := hi.back x g res (mem_snoc_nothing.mp hx)
    refine ⟨?_, h2⟩
    rw [set_other]
    · exact h1
    · rintro rfl; rw [he] at h1; cases h1
  · intro x y m' hy hm'
    rcases key x y hy with ⟨rfl, rfl⟩ | ⟨_, hy⟩
    · simp only [Option.some.injEq] at hm'
      subst hm'
      refine ⟨hl, hq.symm, ?_⟩
      obtain ⟨a, c, f, hac, hs⟩ := hi.scanning m hm
      obtain ⟨a1, b1, ev1, ha⟩ := hs x e he hl
      refine ⟨a1, b1, c ++ [(ev, .nothing)], ev1, f, by rw [hac, ha]; simp, ?_⟩
      intro g res hg
      refine not_mem_of_entry hi he g res ?_
      rw [hac, ha]
      exact List.mem_append_left _ hg
    · obtain ⟨h6, h7, h8⟩ := hi.resp x y m' hy hm'
      exact ⟨h6, h7, h8.mono _⟩
  · intro x y res hy hpl
    rcases key x y hy with ⟨rfl, rfl⟩ | ⟨_, hy⟩
    · have hpl' : e.place = .taken res := hpl
      rw [hpl'] at hnh; simp [holds] at hnh
    · exact hi.got x y res hy hpl
  · intro m' hm'; simp at hm'
  · intro x y hy hpos
    rcases key x y hy with ⟨rfl, rfl⟩ | ⟨_, hy⟩
    · simp
    · exact hi.posted x y hy hpos
  · intro x y hy haw hn
    rcases key x y hy with ⟨rfl, rfl⟩ | ⟨_, hy⟩
    · simp at hn
    · obtain ⟨o, ho⟩ := hi.woken x y hy haw hn
      exact ⟨o, List.mem_append_left _ ho⟩
  · intro x y hy htm
    rcases key x y hy with ⟨rfl, rfl⟩ | ⟨_, hy⟩
    · obtain ⟨o, ho⟩ := hi.late x e he htm
      exact ⟨o, List.mem_append_left _ ho⟩
    · obtain ⟨o, ho⟩ := hi.late x y hy htm
      exact ⟨o, List.mem_append_left _ ho⟩
  · intro m' hm'; simp at hm'
  · obtain ⟨n1, n2, n3⟩ := hi.numS m hm
    intro x y m' hy hm'
    rcases key x y hy with ⟨rfl, rfl⟩ | ⟨hxr, hy0⟩
    · simp only [Option.some.injEq] at hm'
      subst hm'
      refine ⟨n1, ?_, fun g x m' hx => n3 g x m' (mem_snoc_nothing.mp hx)⟩
      intro x' y' m'' hy' hm'' hn
      rcases key x' y' hy' with ⟨rfl, rfl⟩ | ⟨_, hy'⟩
      · rfl
      · exact absurd hn (n2 x' y' m'' hy' hm'')
    · obtain ⟨h1, h2, h3⟩ := hi.numR x y m' hy0 hm'
      refine ⟨h1, ?_, fun g x m' hx => h3 g x m' (mem_snoc_nothing.mp hx)⟩
      intro x' y' m'' hy' hm'' hn
      rcases key x' y' hy' with ⟨rfl, rfl⟩ | ⟨_, hy'⟩
      · simp only [Option.some.injEq] at hm''
        subst hm''
        exact absurd hn.symm (n2 x y m' hy0 hm')
      · exact h2 x' y' m'' hy' hm'' hn
  · intro g x m' hx
    exact hi.numB g x m' (mem_snoc_nothing.mp hx)

theorem inv_step {h s e s' o} (hi : Inv h s) (hs : step s e = .ok (s', o)) :
    Inv (h ++ [(e, o)]) s' := by
  cases e with
  | lock =>
    simp only [step] at hs
    split at hs
    · rename_i ho; cases hs; exact hi.begin ho
    · cases hs
  | push r =>
    simp only [step] at hs
    split at hs
    · rename_i he; cases hs; exact hi.enter he rfl
    · cases hs
  | sendOk r =>
    simp only [step] at hs
    split at hs
    · rename_i q p m he; cases hs
      exact hi.move (p := p) he (by simp) (by simp)
        (.inr (.inl ⟨rfl, (hi.own r).mpr ⟨_, he, rfl⟩, rfl⟩)) (by simp) (Nat.le_refl _) (by simp [awake])
        (by simp)
    · cases hs
  | sendFail r =>
    simp only [step] at hs
    split at hs
    · rename_i q p m he; cases hs
      exact hi.leave he (by simp) (.inl ⟨rfl, (hi.own r).mpr ⟨_, he, rfl⟩⟩) (by simp)
    · cases hs
  | wake r =>
    simp only [step] at hs
    split at hs
    · rename_i q p m he; cases hs
      exact hi.move (p := p) he (by simp) (by simp) (.inl ⟨rfl, rfl⟩) (by simp) (by simp) (by simp)
        (by simp)
    · cases hs
  | spurious r =>
    simp only [step] at hs
    split at hs
    · rename_i q m he; cases hs
      exact hi.move (p := 0) he (by simp) (by simp) (.inl ⟨rfl, rfl⟩) (by simp) (by simp) (by simp)
        (by simp)
    · cases hs
  | timeout r =>
    simp only [step] at hs
    split at hs
    · rename_i q p m he; cases hs
      exact hi.move (p := p) he (by simp) (by simp) (.inl ⟨rfl, rfl⟩) (by simp) (by simp) (by simp [awake])
        (by simp)
    · cases hs
  | relock r =>
    simp only [step] at hs
    split at hs
    · rename_i q p m he
      split at hs
      · rename_i ho
        cases hs
        exact hi.move (p := p) he (by simp) (by simp) (.inr (.inr ⟨rfl, ho, rfl⟩)) (by simp) (by simp)
          (by simp [awake]) (by simp)
      · cases hs
    · cases hs
  | take r =>
    simp only [step] at hs
    split at hs
    · rename_i q p m he; cases hs
      exact hi.move (p := p) he (by simp) (by simp) (.inl ⟨rfl, rfl⟩)
        (fun res hr => by simp only [Place.taken.injEq] at hr; exact hr.symm) (by simp)
        (by simp [awake]) (by simp)
    · cases hs
  | finish r =>
    simp only [step] at hs
    split at hs
    · rename_i res q p m he; cases hs
      refine hi.leave he (by simp) (.inl ⟨rfl, (hi.own r).mpr ⟨_, he, rfl⟩⟩) ?_
      intro m' hm'
      have := hi.got r _ res he rfl
      rw [hm'] at this
      revert this
      cases m with
      | none => simp [outcome]
      | some x => simp only [outcome]; split <;> simp_all
    · cases hs
  | giveUp r =>
    simp only [step] at hs
    split at hs
    · rename_i q p m he
      split at hs
      · rename_i ho
        cases hs
        exact hi.leave he (by simp) (.inr ⟨rfl, by rw [ho]; simp⟩) (by simp)
      · cases hs
    · cases hs
  | other =>
    simp only [step] at hs
    cases hs
    exact hi.quiet (.inl ⟨rfl, rfl⟩)
  | readerLock q u =>
    simp only [step] at hs
    split at hs
    · rename_i ho; cases hs; exact hi.arrive ho.1
    · cases hs
  | readerScan =>
    simp only [step] at hs
    split at hs
    · rename_i m hm
      obtain ⟨x, hx, hs⟩ := res_bind_ok hs
      cases x with
      | none =>
        cases hs
        exact hi.quiet (.inr (.inr ⟨rfl, hi.ownR.mpr (by rw [hm]; simp), rfl⟩))
      | some r =>
        obtain ⟨hr, e, he, hq⟩ := scan_some hx
        simp only [he, Option.map_some] at hs
        cases hs
        exact hi.answer hm he hr hq
    · cases hs
  | readerUnlock =>
    simp only [step] at hs
    split at hs
    · rename_i hm; cases hs
      exact hi.quiet (.inr (.inl ⟨rfl, hi.ownR.mpr (by rw [hm]; simp), rfl⟩))
    · cases hs

theorem inv {h s} (hx : Exec step init h s) : Inv h s := by
  induction hx with
  | nil => exact inv_init
  | snoc _ hs ih => exact inv_step ih hs

/-! ## Sequence numbers -/

/-- The numbers requests were sent with. -/
def sentNumbers (h : History) : List Nat :=
  h.filterMap (fun x => match x with
    | (_, .sent _ q) => some q
    | _ => none)

/-- How many numbers a step takes. -/
def takes : Event → Nat
  | .push _ | .other => 1
  | _ => 0

/-- The number a step shows. -/
def shows : Obs → List Nat
  | .sent _ q => [q]
  | _ => []

theorem step_numbers {s e s' o} (hs : step s e = .ok (s', o)) :
    (takes e = 0 ∧ s'.counter = s.counter ∧ shows o = []) ∨
    (takes e = 1 ∧ s'.counter = (s.counter + 1) % 4294967296 ∧ (shows o = [] ∨ shows o = [s.counter])) := by
  cases e with
  | readerScan =>
    simp only [step] at hs
    split at hs
    · obtain ⟨x, hx, hs⟩ := res_bind_ok hs
      cases x <;> cases hs <;> simp [takes, shows]
    · cases hs
  | _ =>
    simp only [step] at hs
    (repeat' split at hs) <;> cases hs <;> simp [takes, shows]

theorem numbers_inv {h s} (hx : Exec step init h s) :
    s.counter = (1 + numbers (h.map (·.1))) % 4294967296 ∧
    ∃ idx : List Nat, sentNumbers h = idx.map (fun i => (1 + i) % 4294967296) ∧
      idx.Pairwise (· < ·) ∧ ∀ i ∈ idx, i < numbers (h.map (·.1)) := by
  induction hx with
  | nil => exact ⟨rfl, [], rfl, List.Pairwise.nil, by simp⟩
  | @snoc h s e o s' hx hs ih =>
    obtain ⟨h1, idx, h2, h3, h4⟩ := ih
    have hn : numbers ((h ++ [(e, o)]).map (·.1)) = numbers (h.map (·.1)) + takes e := by
      simp only [numbers, List.map_append, List.countP_append]
      cases e <;> rfl
    have hsn : sentNumbers (h ++ [(e, o)]) = sentNumbers h ++ shows o := by
      simp only [sentNumbers, List.filterMap_append]
      cases o <;> rfl
    rw [hn, hsn]
    rcases step_numbers hs with ⟨t, c, sh⟩ | ⟨t, c, sh | sh⟩
    · rw [t, c, sh]
      exact ⟨h1, idx, by simpa using h2, h3, h4⟩
    · rw [t, c, sh]
      exact ⟨by omega, idx, by simpa using h2, h3, fun i hi => by have := h4 i hi; omega⟩
    · rw [t, c, sh]
      refine ⟨by omega, idx ++ [numbers (h.map (·.1))], ?_, ?_, ?_⟩
      · simp [h2, h1]
      · rw [List.pairwise_append]
        refine ⟨h3, by simp, ?_⟩
        intro a ha b hb
        rw [List.mem_singleton] at hb
        subst hb
        exact h4 a ha
      · intro i hi
        rcases List.mem_append.mp hi with hi | hi
        · have := h4 i hi; omega
        · rw [List.mem_singleton] at hi; omega

theorem sent_nodup {h s} (hx : Exec step init h s) (hn : numbers (h.map (·.1)) ≤ 4294967296) :
    (sentNumbers h).Nodup := by
  obtain ⟨_, idx, h2, h3, h4⟩ := numbers_inv hx
  rw [h2]
  have : ∀ l : List Nat, l.Pairwise (· < ·) → (∀ i ∈ l, i < 4294967296) →
      (l.map (fun i => (1 + i) % 4294967296)).Nodup := by
    intro l
    induction l with
    | nil => simp
    | cons x l ih =>
      intro hp hb
      rw [List.pairwise_cons] at hp
      rw [List.map_cons, List.nodup_cons]
      refine ⟨?_, ih hp.2 (fun i hi => hb i (by simp [hi]))⟩
      intro hm
      obtain ⟨y, hy, hxy⟩ := List.mem_map.mp hm
      have h1 := hp.1 y hy
      have h2 := hb y (by simp [hy])
      omega
  exact this idx h3 (fun i hi => by have := h4 i hi; omega)

/-- The mutex is held by the thread that uses the list, unless it has timed out. -/
theorem uses_owner {h s e s' o t} (hi : Inv h s) (hs : step s e = .ok (s', o)) (hu : uses e = some t)
    (hg : ∀ r, e ≠ .giveUp r) : s.owner = some t := by
  cases e <;> simp only [uses, Option.some.injEq, reduceCtorEq] at hu <;> subst hu <;> simp only [step] at hs
  case giveUp r => exact absurd rfl (hg r)
  case readerScan =>
    split at hs
    · rename_i m hm; exact hi.ownR.mpr (by rw [hm]; simp)
    · cases hs
  case readerUnlock =>
    split at hs
    · rename_i hm; exact hi.ownR.mpr (by rw [hm]; simp)
    · cases hs
  all_goals
    split at hs
    · rename_i he; exact (hi.own _).mpr ⟨_, he, rfl⟩
    · cases hs

end Verif.Pending
