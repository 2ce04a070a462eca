import Verif.Proof.Tree
import Verif.Proof.Registry

/-!
# Which elements a subscription covers
-/

namespace Verif.Subs

open Verif Verif.Element Verif.TokenChain Verif.Filter

/-- The elements the walks see: those outside row templates that are not objects. -/
def Vis (T : Tree) : List (Nat × List Info) := (Tree.flat T).filter picked

/-- A subscription's instances are the visible elements its chain matches. -/
def Cov (V : List (Nat × List Info)) (x : Sub) : Prop :=
  ∃ c, x.chain = some c ∧ x.instances.Nodup ∧ (∀ e ∈ V, ∃ b, «match» c e.2 = .ok b) ∧
    ∀ n, n ∈ x.instances ↔ ∃ l, (n, l) ∈ V ∧ «match» c l = .ok true

/-- A subscription's chain was made for its element. -/
def Bound (T : Tree) (x : Sub) : Prop :=
  ∃ c up e, x.chain = some c ∧ x.element = some e ∧ TokenChain.create x.key.eventName up = .ok c ∧
    e < T.next ∧ ∀ l, (e, l) ∈ Tree.flat T → l = up

/-- The nodes' lists hold the subscriptions that have them as instances, once. -/
def Att (L : List Sub) (f : Nat → List Nat) : Prop :=
  ∀ n, (f n).Nodup ∧ ∀ a, a ∈ f n ↔ ∃ x ∈ L, x.addr = a ∧ n ∈ x.instances

theorem Att.congr {L L' : List Sub} {f : Nat → List Nat} (h : Att L f) (hl : ∀ x, x ∈ L ↔ x ∈ L') :
    Att L' f := by
  intro n
  refine ⟨(h n).1, fun a => ?_⟩
  rw [(h n).2 a]
  simp only [hl]

theorem attach_eq (a : Nat) : ∀ (ids : List Nat) (f : Nat → List Nat) (n : Nat), ids.Nodup →
    attach a f ids n = if n ∈ ids then f n ++ [a] else f n := by
  intro ids
  induction ids with
  | nil => intro f n _; simp [attach]
  | cons m ids ih =>
    intro f n hn
    rw [List.nodup_cons] at hn
    have := ih (update f m (f m ++ [a])) n hn.2
    unfold attach at this ⊢
    rw [List.foldl_cons, this]
    rcases Decidable.em (n = m) with h | h
    · subst h
      simp [hn.1, update]
    · simp [update, h]

theorem detach_eq (a : Nat) : ∀ (ids : List Nat) (f : Nat → List Nat) (n : Nat), ids.Nodup →
    detach a f ids n = if n ∈ ids then (f n).erase a else f n := by
  intro ids
  induction ids with
  | nil => intro f n _; simp [detach]
  | cons m ids ih =>
    intro f n hn
    rw [List.nodup_cons] at hn
    have := ih (update f m ((f m).erase a)) n hn.2
    unfold detach at this ⊢
    rw [List.foldl_cons, this]
    rcases Decidable.em (n = m) with h | h
    · subst h
      simp [hn.1, update]
    · simp [update, h]

theorem Att.attach {L : List Sub} {f : Nat → List Nat} {x : Sub} (h : Att L f)
    (ha : ∀ y ∈ L, y.addr ≠ x.addr) (hn : x.instances.Nodup) :
    Att (L ++ [x]) (Subs.attach x.addr f x.instances) := by
  intro n
  rw [attach_eq _ _ _ _ hn]
  obtain ⟨h1, h2⟩ := h n
  have hnot : x.addr ∉ f n := by
    intro hc
    obtain ⟨y, hy, hya, -⟩ := (h2 _).mp hc
    exact ha y hy hya
  split
  next hi =>
    refine ⟨List.nodup_append.mpr ⟨h1, by simp, by rintro a ha b hb rfl; rw [List.mem_singleton] at hb; exact hnot (hb ▸ ha)⟩, fun a => ?_⟩
    simp only [List.mem_append, List.mem_singleton, h2 a]
    constructor
    · rintro (⟨y, hy, h⟩ | rfl)
      · exact ⟨y, .inl hy, h⟩
      · exact ⟨x, .inr rfl, rfl, hi⟩
    · rintro ⟨y, hy | rfl, h⟩
      · exact .inl ⟨y, hy, h⟩
      · exact .inr h.1.symm
  next hi =>
    refine ⟨h1, fun a => ?_⟩
    simp only [List.mem_append, List.mem_singleton, h2 a]
    constructor
    · rintro ⟨y, hy, h⟩
      exact ⟨y, .inl hy, h⟩
    · rintro ⟨y, hy | rfl, h⟩
      · exact ⟨y, hy, h⟩
      · exact absurd h.2 hi

theorem Att.detach {L : List Sub} {f : Nat → List Nat} {x : Sub} (h : Att (L ++ [x]) f)
    (ha : ∀ y ∈ L, y.addr ≠ x.addr) (hn : x.instances.Nodup) :
    Att L (Subs.detach x.addr f x.instances) := by
  intro n
  rw [detach_eq _ _ _ _ hn]
  obtain ⟨h1, h2⟩ := h n
  split
  next hi =>
    refine ⟨h1.erase _, fun a => ?_⟩
    rw [h1.mem_erase_iff, h2 a]
    simp only [List.mem_append, List.mem_singleton]
    constructor
    · rintro ⟨hne, y, hy | rfl, hh⟩
      · exact ⟨y, hy, hh⟩
      · exact absurd hh.1.symm hne
    · rintro ⟨y, hy, h⟩
      exact ⟨fun he => ha y hy (h.1.trans he), y, .inl hy, h⟩
  next hi =>
    refine ⟨h1, fun a => ?_⟩
    rw [h2 a]
    simp only [List.mem_append, List.mem_singleton]
    constructor
    · rintro ⟨y, hy | rfl, hh⟩
      · exact ⟨y, hy, hh⟩
      · exact absurd hh.2 hi
    · rintro ⟨y, hy, h⟩
      exact ⟨y, .inl hy, h⟩

theorem matching_spec {c : Chain} : ∀ {V : List (Nat × List Info)} {ids : List Nat},
    matching c V = .ok ids → ids.Sublist (V.map (·.1)) ∧ (∀ e ∈ V, ∃ b, «match» c e.2 = .ok b) ∧
      ∀ n, n ∈ ids ↔ ∃ l, (n, l) ∈ V ∧ «match» c l = .ok true := by
  intro V
  induction V with
  | nil => intro ids h; cases h; simp
  | cons e V ih =>
    obtain ⟨a, el⟩ := e
    intro ids h
    unfold matching at h
    obtain ⟨b, hb, h⟩ := res_bind_ok h
    obtain ⟨r, hr, h⟩ := res_bind_ok h
    simp only [Res.pure_eq, Res.ok.injEq] at h
    subst h
    obtain ⟨h1, h2, h3⟩ := ih hr
    refine ⟨?_, ?_, ?_⟩
    · cases b
      · exact h1.cons _
      · exact h1.cons_cons _
    · intro e he
      rcases List.mem_cons.mp he with rfl | he
      · exact ⟨b, hb⟩
      · exact h2 e he
    · intro n
      cases b with
      | true =>
        simp only [if_true, List.mem_cons, h3 n]
        constructor
        · rintro (rfl | ⟨l, hl, hm⟩)
          · exact ⟨el, .inl rfl, hb⟩
          · exact ⟨l, .inr hl, hm⟩
        · rintro ⟨l, hl | hl, hm⟩
          · cases hl; exact .inl rfl
          · exact .inr ⟨l, hl, hm⟩
      | false =>
        simp only [Bool.false_eq_true, if_false, List.mem_cons, h3 n]
        constructor
        · rintro ⟨l, hl, hm⟩
          exact ⟨l, .inr hl, hm⟩
        · rintro ⟨l, hl | hl, hm⟩
          · cases hl
            rw [hb] at hm
            cases hm
          · exact ⟨l, hl, hm⟩

theorem Cov.congr {V V' : List (Nat × List Info)} {x : Sub} (h : Cov V x) (hv : ∀ e, e ∈ V ↔ e ∈ V') :
    Cov V' x := by
  obtain ⟨c, h1, h2, h3, h4⟩ := h
  refine ⟨c, h1, h2, fun e he => h3 e ((hv e).mpr he), fun n => ?_⟩
  rw [h4 n]
  simp only [hv]

/-- The lists of a provider's subscriptions and elements fit together. -/
structure Cover (s : State) (L : List Sub) : Prop where
  wf : WF s.tree
  bound : ∀ x ∈ L, Bound s.tree x
  cov : ∀ x ∈ L, Cov (Vis s.tree) x
  att : Att L s.attached
  addrs : (L.map (·.addr)).Nodup
  below : ∀ x ∈ L, x.addr < s.nextAddr

theorem Cover.perm {s : State} {L L' : List Sub} (h : Cover s L) (hp : L.Perm L') : Cover s L' :=
  ⟨h.wf, fun x hx => h.bound x (hp.mem_iff.mpr hx), fun x hx => h.cov x (hp.mem_iff.mpr hx),
    h.att.congr (fun _ => hp.mem_iff), ((hp.map _).nodup_iff).mp h.addrs,
    fun x hx => h.below x (hp.mem_iff.mpr hx)⟩

theorem Cover.frame {s s' : State} {L : List Sub} (h : Cover s L) (ht : s'.tree = s.tree)
    (ha : s'.attached = s.attached) (hn : s'.nextAddr = s.nextAddr) : Cover s' L := by
  obtain ⟨h1, h2, h3, h4, h5, h6⟩ := h
  constructor
  · rw [ht]; exact h1
  · rw [ht]; exact h2
  · rw [ht]; exact h3
  · rw [ha]; exact h4
  · exact h5
  · rw [hn]; exact h6

theorem vis_nodup {T : Tree} (h : WF T) : ((Vis T).map (·.1)).Nodup :=
  h.nodup.sublist (List.filter_sublist.map _)

theorem Cover.made {s s' : State} {L : List Sub} {k : Key} {auto : Bool} {el : Nat} {x : Sub}
    (h : Cover s L) (hm : Made s s' k auto el x) : Cover s' (L ++ [x]) := by
  obtain ⟨up, n, c, hl, hc, hxc, hmat⟩ := hm.found
  rw [visit_root] at hmat
  obtain ⟨hs1, hs2, hs3⟩ := matching_spec hmat
  have hnd : x.instances.Nodup := (vis_nodup h.wf).sublist hs1
  obtain ⟨-, u, -, -, hmem⟩ := locate_sound hl
  constructor
  · rw [hm.tree]; exact h.wf
  · intro y hy
    rw [hm.tree]
    rcases List.mem_append.mp hy with hy | hy
    · exact h.bound y hy
    · rw [List.mem_singleton] at hy
      subst hy
      exact ⟨c, up, el, hxc, hm.element, by rw [hm.key]; exact hc, h.wf.below _ hmem,
        fun l hl => nodup_fst h.wf.nodup hl hmem⟩
  · intro y hy
    rw [hm.tree]
    rcases List.mem_append.mp hy with hy | hy
    · exact h.cov y hy
    · rw [List.mem_singleton] at hy
      subst hy
      exact ⟨c, hxc, hnd, hs2, hs3⟩
  · rw [hm.attached, ← hm.addr]
    apply h.att.attach _ hnd
    intro y hy he
    have := h.below y hy
    have := hm.addr
    omega
  · rw [List.map_append, List.nodup_append]
    refine ⟨h.addrs, by simp, ?_⟩
    rintro a ha b hb rfl
    simp only [List.map_cons, List.map_nil, List.mem_singleton] at hb
    obtain ⟨y, hy, rfl⟩ := List.mem_map.mp ha
    have := h.below y hy
    have := hm.addr
    omega
  · rw [hm.nextAddr]
    intro y hy
    rcases List.mem_append.mp hy with hy | hy
    · have := h.below y hy
      omega
    · rw [List.mem_singleton] at hy
      subst hy
      have := hm.addr
      omega

theorem Cover.free {s : State} {L : List Sub} {x : Sub} (h : Cover s (L ++ [x])) :
    Cover { s with attached := detach x.addr s.attached x.instances } L := by
  have hne : ∀ y ∈ L, y.addr ≠ x.addr := by
    have := h.addrs
    rw [List.map_append, List.nodup_append] at this
    exact fun y hy => this.2.2 y.addr (List.mem_map_of_mem hy) x.addr (by simp)
  obtain ⟨c, -, hnd, -⟩ := h.cov x (by simp)
  refine ⟨h.wf, fun y hy => h.bound y (by simp [hy]), fun y hy => h.cov y (by simp [hy]),
    h.att.detach hne hnd, ?_, fun y hy => h.below y (by simp [hy])⟩
  have := h.addrs
  rw [List.map_append, List.nodup_append] at this
  exact this.1

theorem Cover.gone {s s' : State} {x : Sub} (h : Cover s s.subs) (hx : x ∈ s.subs) (hg : Gone s s' x) :
    Cover s' s'.subs := by
  obtain ⟨a, b, hab⟩ := List.append_of_mem hx
  have h' : s'.subs = a ++ b := by
    rw [hg.subs, hab]
    exact eraseP_addr (by rw [← hab]; exact h.addrs)
  have hp : s.subs.Perm ((a ++ b) ++ [x]) := by
    rw [hab]
    exact List.perm_middle.trans (List.perm_append_singleton x (a ++ b)).symm
  rw [h']
  exact (h.perm hp).free.frame hg.tree hg.attached hg.nextAddr

theorem Cover.added {sc : Bool} {s s' : State} {L : List Sub} {el : Node} {k : Key} {r : Nat}
    (h : Cover s L) (ha : Added sc s s' el k r) :
    ∃ E, s'.subs = s.subs ++ E ∧ Cover s' (L ++ E) ∧ s'.limbo = s.limbo := by
  have hmade : ∀ {x : Sub} {s1 : State} {auto : Bool}, Made s s1 k auto el.id x → Frame s1 s' →
      ∃ E, s'.subs = s.subs ++ E ∧ Cover s' (L ++ E) ∧ s'.limbo = s.limbo := by
    intro x s1 auto hm hf
    exact ⟨[x], by rw [hf.subs, hm.subs], (h.made hm).frame hf.tree hf.attached hf.nextAddr,
      hf.limbo.trans hm.limbo⟩
  cases ha with
  | refused hf => exact ⟨[], by rw [hf.subs]; simp, by simpa using h.frame hf.tree hf.attached hf.nextAddr, hf.limbo⟩
  | rawTrace hm hf => exact hmade hm hf
  | made hm hf => exact hmade hm hf

theorem Cover.removed {sc : Bool} {s s' : State} {el : Node} {k : Key} {r : Nat}
    (h : Cover s s.subs) (ha : Removed sc s s' el k r) : Cover s' s'.subs := by
  cases ha with
  | refused hf => rw [hf.subs]; exact h.frame hf.tree hf.attached hf.nextAddr
  | @gone x s1 hx _ hf hg =>
    have h1 : Cover s1 s1.subs := by rw [hf.subs]; exact h.frame hf.tree hf.attached hf.nextAddr
    exact h1.gone (by rw [hf.subs]; exact hx) hg

theorem disconnectFrom_cover {sc : Bool} {env : Env} {l : Bytes} : ∀ {fuel : Nat} {c : Option Nat}
    {s s' : State}, Cover s s.subs → disconnectFrom sc env l fuel c s = .ok s' → Cover s' s'.subs := by
  intro fuel
  induction fuel with
  | zero =>
    intro c s s' hi h
    cases c with
    | none => cases h; exact hi
    | some a => cases h
  | succ fuel ih =>
    intro c s s' hi h
    cases c with
    | none => cases h; exact hi
    | some a =>
      unfold disconnectFrom at h
      split at h
      · cases h
      · simp only at h
        split at h
        · split at h
          · exact ih hi h
          · split at h
            · cases h
            · obtain ⟨⟨s1, r⟩, h1, h⟩ := res_bind_ok h
              exact ih (hi.removed (impl_removed hi.addrs h1)) h
        · exact ih hi h

/-! ### New rows -/

/-- The match of a subscription with an element succeeds. -/
def hits (T : Tree) (el : List Info) (x : Sub) : Bool :=
  match matchSub T x el with
  | .ok b => b
  | _ => false

/-- With one more instance. -/
def withInstance (n : Nat) (x : Sub) : Sub := { x with instances := x.instances ++ [n] }

theorem meet_spec {T : Tree} {n : Nat} {el : List Info} : ∀ {l l' : List Sub} {as : List Nat},
    meet T n el l = .ok (l', as) → (∀ x ∈ l, matchSub T x el = .ok (hits T el x)) ∧
      l' = l.map (fun x => if hits T el x then withInstance n x else x) ∧
      as = (l.filter (hits T el)).map (·.addr) := by
  intro l
  induction l with
  | nil => intro l' as h; cases h; simp
  | cons x l ih =>
    intro l' as h
    unfold meet at h
    obtain ⟨b, hb, h⟩ := res_bind_ok h
    obtain ⟨⟨l1, as1⟩, h1, h⟩ := res_bind_ok h
    obtain ⟨i1, i2, i3⟩ := ih h1
    have hh : hits T el x = b := by simp [hits, hb]
    refine ⟨?_, ?_, ?_⟩
    · intro y hy
      rcases List.mem_cons.mp hy with rfl | hy
      · rw [hh, hb]
      · exact i1 y hy
    · cases b <;> (cases h; simp [hh, i2, withInstance])
    · cases b <;> (cases h; simp [hh, i3])

/-- One new element. -/
theorem meet_cover {T : Tree} {n : Nat} {el : List Info} {l l' : List Sub} {as : List Nat}
    {V : List (Nat × List Info)} {f : Nat → List Nat}
    (h : meet T n el l = .ok (l', as)) (hc : ∀ x ∈ l, Cov V x) (hb : ∀ x ∈ l, Bound T x)
    (ha : Att l f) (hd : (l.map (·.addr)).Nodup) (hn : n ∉ V.map (·.1)) :
    (∀ x ∈ l', Cov (V ++ [(n, el)]) x) ∧ Att l' (update f n (f n ++ as)) := by
  obtain ⟨h1, h2, h3⟩ := meet_spec h
  have hnot : ∀ x ∈ l, n ∉ x.instances := by
    intro x hx hni
    obtain ⟨c, _, _, _, h4⟩ := hc x hx
    obtain ⟨l, hl, -⟩ := (h4 n).mp hni
    exact hn (List.mem_map.mpr ⟨_, hl, rfl⟩)
  have hmatch : ∀ x ∈ l, ∀ c, x.chain = some c → «match» c el = .ok (hits T el x) := by
    intro x hx c hxc
    have := h1 x hx
    obtain ⟨c', up, e, hc', he, -⟩ := hb x hx
    unfold matchSub at this
    rw [hxc, he] at this
    simp only at this
    split at this
    · exact this
    · cases this
  subst h2 h3
  constructor
  · intro y hy
    obtain ⟨x, hx, rfl⟩ := List.mem_map.mp hy
    obtain ⟨c, hxc, hnd, hok, hiff⟩ := hc x hx
    have hmx := hmatch x hx c hxc
    have hok' : ∀ e ∈ V ++ [(n, el)], ∃ b, «match» c e.2 = .ok b := by
      intro e he
      rcases List.mem_append.mp he with he | he
      · exact hok e he
      · rw [List.mem_singleton] at he
        subst he
        exact ⟨_, hmx⟩
    split
    next hh =>
      refine ⟨c, hxc, ?_, hok', fun m => ?_⟩
      · simp only [withInstance, List.nodup_append]
        exact ⟨hnd, by simp, by rintro a ha b hb rfl; rw [List.mem_singleton] at hb; exact hnot x hx (hb ▸ ha)⟩
      · simp only [withInstance, List.mem_append, List.mem_singleton, hiff m, Prod.mk.injEq]
        constructor
        · rintro (⟨l, hl, hm⟩ | rfl)
          · exact ⟨l, .inl hl, hm⟩
          · exact ⟨el, .inr ⟨rfl, rfl⟩, by rw [hmx, hh]⟩
        · rintro ⟨l, hl | ⟨rfl, rfl⟩, hm⟩
          · exact .inl ⟨l, hl, hm⟩
          · exact .inr rfl
    next hh =>
      refine ⟨c, hxc, hnd, hok', fun m => ?_⟩
      simp only [List.mem_append, List.mem_singleton, hiff m, Prod.mk.injEq]
      constructor
      · rintro ⟨l, hl, hm⟩
        exact ⟨l, .inl hl, hm⟩
      · rintro ⟨l, hl | ⟨rfl, rfl⟩, hm⟩
        · exact ⟨l, hl, hm⟩
        · rw [hmx] at hm
          simp only [Res.ok.injEq] at hm
          exact absurd hm hh
  · have hfn : f n = [] := by
      rw [List.eq_nil_iff_forall_not_mem]
      intro a hfa
      obtain ⟨x, hx, -, hni⟩ := ((ha n).2 a).mp hfa
      exact hnot x hx hni
    intro m
    rcases Decidable.em (m = n) with rfl | hm
    · simp only [update, if_true, hfn, List.nil_append]
      refine ⟨hd.sublist (List.filter_sublist.map _), fun a => ?_⟩
      simp only [List.mem_map, List.mem_filter]
      constructor
      · rintro ⟨x, ⟨hx, hh⟩, rfl⟩
        exact ⟨withInstance m x, ⟨x, hx, by simp [hh]⟩, rfl, by simp [withInstance]⟩
      · rintro ⟨y, ⟨x, hx, rfl⟩, rfl, hi⟩
        refine ⟨x, ⟨hx, ?_⟩, by split <;> rfl⟩
        apply Decidable.byContradiction
        intro hh
        rw [if_neg hh] at hi
        exact hnot x hx hi
    · simp only [update, if_neg hm]
      refine ⟨(ha m).1, fun a => ?_⟩
      rw [(ha m).2 a]
      simp only [List.mem_map]
      constructor
      · rintro ⟨x, hx, rfl, hi⟩
        refine ⟨_, ⟨x, hx, rfl⟩, by split <;> rfl, ?_⟩
        split
        · simp [withInstance, hi]
        · exact hi
      · rintro ⟨y, ⟨x, hx, rfl⟩, rfl, hi⟩
        refine ⟨x, hx, by split <;> rfl, ?_⟩
        split at hi
        · simpa [withInstance, hm] using hi
        · exact hi

theorem Bound.instance {T : Tree} {x : Sub} {n : Nat} (h : Bound T x) : Bound T (withInstance n x) := h

theorem created_cover : ∀ {l : List (Nat × List Info)} {s s' : State} {V : List (Nat × List Info)},
    created l s = .ok s' → (∀ x ∈ s.subs, Cov V x) → (∀ x ∈ s.subs, Bound s.tree x) →
    Att s.subs s.attached → (s.subs.map (·.addr)).Nodup → ((V ++ l).map (·.1)).Nodup →
    (∀ x ∈ s'.subs, Cov (V ++ l) x) ∧ (∀ x ∈ s'.subs, Bound s.tree x) ∧ Att s'.subs s'.attached := by
  intro l
  induction l with
  | nil => intro s s' V h h1 h2 h3 h4 h5; cases h; simpa using ⟨h1, h2, h3⟩
  | cons e l ih =>
    obtain ⟨n, el⟩ := e
    intro s s' V h h1 h2 h3 h4 h5
    unfold created at h
    obtain ⟨⟨l1, as⟩, hm, h⟩ := res_bind_ok h
    have hn : n ∉ V.map (·.1) := by
      rw [List.map_append, List.nodup_append] at h5
      intro hc
      exact h5.2.2 n hc n (by simp) rfl
    obtain ⟨k1, k2⟩ := meet_cover hm h1 h2 h3 h4 hn
    have hl1 := (meet_spec hm).2.1
    have hb1 : ∀ x ∈ l1, Bound s.tree x := by
      rw [hl1]
      intro y hy
      obtain ⟨x, hx, rfl⟩ := List.mem_map.mp hy
      split
      · exact (h2 x hx).instance
      · exact h2 x hx
    have hd1 : (l1.map (·.addr)).Nodup := by
      have := (meet_alike hm).map (f := fun x => x.addr) (fun _ => rfl)
      rw [this]
      exact h4
    have := ih (V := V ++ [(n, el)]) h k1 hb1 k2 hd1 (by simpa using h5)
    simpa using this

theorem Bound.retree {T T' : Tree} {x : Sub} (h : Bound T x) (hn : T.next ≤ T'.next)
    (hf : ∀ e ∈ Tree.flat T', e ∈ Tree.flat T ∨ T.next ≤ e.1) : Bound T' x := by
  obtain ⟨c, up, e, h1, h2, h3, h4, h5⟩ := h
  refine ⟨c, up, e, h1, h2, h3, by omega, fun l hl => ?_⟩
  rcases hf _ hl with h | h
  · exact h5 l h
  · simp only at h
    omega

theorem resubscribeRow_cover {sc : Bool} {env : Env} {row : Bytes} : ∀ {l : List Sub} {s s' : State},
    Cover s s.subs → (∀ x ∈ l, x ∈ s.subs) → (l.map (·.addr)).Nodup →
    resubscribeRow sc env row l s = .ok s' → Cover s' s'.subs := by
  intro l
  induction l with
  | nil => intro s s' hc _ _ h; cases h; exact hc
  | cons x l ih =>
    intro s s' hc hl hd h
    rw [List.map_cons, List.nodup_cons] at hd
    have hrest := fun y hy => hl y (List.mem_cons_of_mem x hy)
    unfold resubscribeRow at h
    split at h
    · split at h
      · exact ih hc hrest hd.2 h
      · obtain ⟨s1, h1, h⟩ := res_bind_ok h
        unfold resubscribe at h1
        simp only at h1
        obtain ⟨⟨s2, r⟩, h2, h1⟩ := res_bind_ok h1
        have hx := hl x (by simp)
        obtain ⟨a, b, hab⟩ := List.append_of_mem hx
        have herase : s.subs.eraseP (fun y => y.addr = x.addr) = a ++ b := by
          rw [hab]
          exact eraseP_addr (by rw [← hab]; exact hc.addrs)
        rw [herase] at h2
        have hp : s.subs.Perm ((a ++ b) ++ [x]) := by
          rw [hab]
          exact List.perm_middle.trans (List.perm_append_singleton x (a ++ b)).symm
        have hc1 : Cover { s with subs := a ++ b, limbo := some x } ((a ++ b) ++ [x]) :=
          (hc.perm hp).frame rfl rfl rfl
        obtain ⟨E, hE, hc2, -⟩ := hc1.added (impl_added h2)
        obtain ⟨rfl, -, -⟩ := freeSub_ok h1
        simp only at hE
        have hc3 : Cover s2 ((a ++ b ++ E) ++ [x]) := by
          refine hc2.perm ?_
          rw [List.append_assoc, List.append_assoc (a ++ b)]
          exact List.Perm.append_left _ List.perm_append_comm
        have hc4 := hc3.free
        rw [← hE] at hc4
        refine ih (s := { s2 with attached := detach x.addr s2.attached x.instances, limbo := none })
          (hc4.frame rfl rfl rfl) ?_ hd.2 h
        intro y hy
        have hys := hrest y hy
        have hne : y ≠ x := by
          rintro rfl
          exact hd.1 (List.mem_map_of_mem hy)
        show y ∈ s2.subs
        rw [hE]
        rw [hab] at hys
        simp only [List.mem_append, List.mem_cons, hne, false_or] at hys ⊢
        exact .inl hys
    · exact ih hc hrest hd.2 h

/-- What adding a row does before subscriptions are made again. -/
theorem addRow_mid {sc : Bool} {env : Env} {s s' : State} {t i : Nat} {al : Option Bytes}
    (hc : Cover s s.subs)
    (hsane : ∀ up n, locate s.tree t = some (up, n) → n.info.type = tTable ∧ inTemplate up = false)
    (h : addRow sc env s t i al = .ok s') :
    s' = s ∨ ∃ up n s2, locate s.tree t = some (up, n) ∧ Cover s2 s2.subs ∧ Alike s2.subs s.subs ∧
      resubscribeRow sc env (fullText (n.info.full ++ [decimal i])) s2.subs s2 = .ok s' := by
  unfold addRow at h
  split at h
  · cases h; exact .inl rfl
  next up node hl =>
    split at h
    · cases h; exact .inl rfl
    next T row hins =>
      obtain ⟨s1, h1, h⟩ := res_bind_ok h
      obtain ⟨s2, h2, h⟩ := res_bind_ok h
      obtain ⟨ht, hv⟩ := hsane up node hl
      obtain ⟨hra, hnext⟩ := instantiate_added hc.wf hl ht hv hins
      have hvis : freshList (row.info :: up) row.children = (flatList (row.info :: up) row.children).filter picked := by
        rw [freshList_visit _ (by simp [hra.object, tObject, tTable]) _ hra.clean, visitList_flat _ hra.out]
      rw [hvis] at h1
      have hVT : (Vis T).Perm (Vis s.tree ++ (flatList (row.info :: up) row.children).filter picked) := by
        unfold Vis
        have := hra.perm.filter picked
        rw [List.filter_append, flat_eq, List.filter_cons_of_neg] at this
        · exact this
        · simp [picked, hra.object]
      have hflat : ∀ e ∈ Tree.flat T, e ∈ Tree.flat s.tree ∨ s.tree.next ≤ e.1 := by
        intro e he
        rcases List.mem_append.mp (hra.perm.mem_iff.mp he) with h | h
        · exact .inl h
        · exact .inr (hra.new e h)
      have hk := created_kept h1
      obtain ⟨k1, k2, k3⟩ := created_cover (s := { s with tree := T }) h1 hc.cov
        (fun x hx => (hc.bound x hx).retree hnext hflat) hc.att hc.addrs
        (((hVT.map _).nodup_iff).mp (vis_nodup hra.wf))
      have htree : s1.tree = T := hk.tree
      have haddr : s1.subs.map (·.addr) = s.subs.map (·.addr) := hk.subs.map (f := fun x => x.addr) (fun _ => rfl)
      have hna : s1.nextAddr = s.nextAddr := hk.nextAddr
      have hc1 : Cover s1 s1.subs := by
        constructor
        · rw [htree]; exact hra.wf
        · rw [htree]; exact k2
        · rw [htree]
          exact fun x hx => (k1 x hx).congr (fun e => hVT.symm.mem_iff)
        · exact k3
        · rw [haddr]; exact hc.addrs
        · intro x hx
          have : x.addr ∈ s.subs.map (·.addr) := by rw [← haddr]; exact List.mem_map_of_mem hx
          obtain ⟨y, hy, hyx⟩ := List.mem_map.mp this
          rw [hna, ← hyx]
          exact hc.below y hy
      have hf := rowPolling_frame h2
      have hc2 : Cover s2 s2.subs := by rw [hf.subs]; exact hc1.frame hf.tree hf.attached hf.nextAddr
      have hname : row.info.full = node.info.full ++ [decimal i] := by
        unfold instantiate at hins
        split at hins
        · cases hins
        next tmpl _ =>
          simp only [Option.some.injEq, Prod.mk.injEq] at hins
          rw [← hins.2]
          obtain ⟨a, j, cs⟩ := tmpl
          rfl
      rw [hname] at h
      exact .inr ⟨up, node, s2, hl, hc2, by rw [hf.subs]; exact hk.subs, h⟩

theorem addRow_cover {sc : Bool} {env : Env} {s s' : State} {t i : Nat} {al : Option Bytes}
    (hc : Cover s s.subs)
    (hsane : ∀ up n, locate s.tree t = some (up, n) → n.info.type = tTable ∧ inTemplate up = false)
    (h : addRow sc env s t i al = .ok s') : Cover s' s'.subs := by
  rcases addRow_mid hc hsane h with rfl | ⟨up, n, s2, -, hc2, -, h⟩
  · exact hc
  · exact resubscribeRow_cover hc2 (fun _ hx => hx) hc2.addrs h

/-! ### Deleted rows -/

/-- Taking an instance from a subscription keeps the lists in step. -/
theorem Att.drop {a b : List Sub} {x : Sub} {f : Nat → List Nat} {n : Nat} (h : Att (a ++ x :: b) f)
    (hd : ∀ y ∈ a ++ b, y.addr ≠ x.addr) (hn : x.instances.Nodup) :
    Att (a ++ { x with instances := x.instances.erase n } :: b) (update f n ((f n).erase x.addr)) := by
  have hmem : ∀ {m c}, (∃ y ∈ a ++ x :: b, y.addr = c ∧ m ∈ y.instances) ↔
      (∃ y ∈ a ++ b, y.addr = c ∧ m ∈ y.instances) ∨ (x.addr = c ∧ m ∈ x.instances) := by
    intro m c
    simp only [List.mem_append, List.mem_cons]
    constructor
    · rintro ⟨y, hy | rfl | hy, hh⟩
      · exact .inl ⟨y, .inl hy, hh⟩
      · exact .inr hh
      · exact .inl ⟨y, .inr hy, hh⟩
    · rintro (⟨y, hy | hy, h⟩ | h)
      · exact ⟨y, .inl hy, h⟩
      · exact ⟨y, .inr (.inr hy), h⟩
      · exact ⟨x, .inr (.inl rfl), h⟩
  have hmem' : ∀ {m c}, (∃ y ∈ a ++ { x with instances := x.instances.erase n } :: b, y.addr = c ∧ m ∈ y.instances) ↔
      (∃ y ∈ a ++ b, y.addr = c ∧ m ∈ y.instances) ∨ (x.addr = c ∧ m ∈ x.instances.erase n) := by
    intro m c
    simp only [List.mem_append, List.mem_cons]
    constructor
    · rintro ⟨y, hy | rfl | hy, hh⟩
      · exact .inl ⟨y, .inl hy, hh⟩
      · exact .inr hh
      · exact .inl ⟨y, .inr hy, hh⟩
    · rintro (⟨y, hy | hy, h⟩ | h)
      · exact ⟨y, .inl hy, h⟩
      · exact ⟨y, .inr (.inr hy), h⟩
      · exact ⟨_, .inr (.inl rfl), h⟩
  intro m
  obtain ⟨h1, h2⟩ := h m
  rcases Decidable.em (m = n) with rfl | hm
  · simp only [update, if_true]
    refine ⟨h1.erase _, fun c => ?_⟩
    rw [h1.mem_erase_iff, h2 c, hmem, hmem', hn.mem_erase_iff]
    constructor
    · rintro ⟨hne, h | h⟩
      · exact .inl h
      · exact absurd h.1.symm hne
    · rintro (⟨y, hy, hyc, hi⟩ | h)
      · exact ⟨fun he => hd y hy (hyc.trans he), .inl ⟨y, hy, hyc, hi⟩⟩
      · exact absurd rfl h.2.1
  · simp only [update, if_neg hm]
    refine ⟨h1, fun c => ?_⟩
    rw [h2 c, hmem, hmem', hn.mem_erase_iff]
    simp [hm]

theorem dropFrom_att {sc : Bool} {n : Nat} : ∀ {rest : List Sub} {fuel : Nat} {pre : List Sub} {val : Bool}
    {s s' : State}, Inv sc s → s.subs = pre ++ rest → Att s.subs s.attached →
    (∀ x ∈ s.subs, x.instances.Nodup) →
    dropFrom sc n fuel val (rest.head?.map (·.addr)) s = .ok s' → Att s'.subs s'.attached := by
  intro rest
  induction rest with
  | nil =>
    intro fuel pre val s s' hi hs ha hnd h
    have : s' = s := by cases fuel <;> (cases h; rfl)
    subst this
    exact ha
  | cons x rest ih =>
    intro fuel pre val s s' hi hs ha hnd h
    cases fuel with
    | zero => cases h
    | succ fuel =>
      simp only [List.head?_cons, Option.map_some] at h
      have hnext : nextOf x.addr s.subs = rest.head?.map (·.addr) := by
        rw [hs]
        exact nextOf_eq (by rw [← hs]; exact hi.addrs)
      have hdist : ∀ y ∈ pre ++ rest, y.addr ≠ x.addr := by
        have hn := hi.addrs
        rw [hs, (List.perm_middle.map _).nodup_iff, List.map_cons, List.nodup_cons] at hn
        intro y hy he
        exact hn.1 (he ▸ List.mem_map_of_mem hy)
      unfold dropFrom at h
      rw [find_addr hs hi.addrs] at h
      simp only [hnext] at h
      generalize hs1 : (if n ∈ x.instances then
          { s with
            subs := s.subs.map (fun y => if y.addr = x.addr then { y with instances := y.instances.erase n } else y)
            attached := update s.attached n ((s.attached n).erase x.addr) }
        else s) = s1 at h
      obtain ⟨x1, hx1, hk1, hs1', ha1, hnd1⟩ : ∃ x1 : Sub, x1.addr = x.addr ∧ x1.key = x.key ∧
          s1.subs = pre ++ x1 :: rest ∧ Att s1.subs s1.attached ∧ ∀ y ∈ s1.subs, y.instances.Nodup := by
        split at hs1
        · have hmap : s1.subs = pre ++ { x with instances := x.instances.erase n } :: rest := by
            rw [← hs1]
            simp only [hs, List.map_append, List.map_cons, if_true]
            have hid : ∀ l : List Sub, (∀ y ∈ l, y.addr ≠ x.addr) →
                l.map (fun y => if y.addr = x.addr then { y with instances := y.instances.erase n } else y) = l := by
              intro l hl
              conv => rhs; rw [← List.map_id l]
              apply List.map_congr_left
              intro y hy
              simp [hl y hy]
            rw [hid pre (fun y hy => hdist y (by simp [hy])), hid rest (fun y hy => hdist y (by simp [hy]))]
          refine ⟨{ x with instances := x.instances.erase n }, rfl, rfl, hmap, ?_, ?_⟩
          · rw [hmap]
            have := (hs ▸ ha : Att (pre ++ x :: rest) s.attached).drop (n := n) hdist
              (hnd x (by rw [hs]; simp))
            rw [← hs1]
            exact this
          · rw [hmap]
            intro y hy
            simp only [List.mem_append, List.mem_cons] at hy
            rcases hy with hy | rfl | hy
            · exact hnd y (by rw [hs]; simp [hy])
            · exact (hnd x (by rw [hs]; simp)).erase _
            · exact hnd y (by rw [hs]; simp [hy])
        · subst hs1
          exact ⟨x, rfl, rfl, hs, ha, hnd⟩
      have hrest : s1.nextAddr = s.nextAddr ∧ s1.nextId = s.nextId := by
        split at hs1 <;> (subst hs1; exact ⟨rfl, rfl⟩)
      have hal : Alike s1.subs s.subs := by
        split at hs1
        · subst hs1
          simp only [Alike, List.map_map]
          apply List.map_congr_left
          intro y _
          simp only [Function.comp_apply]
          split <;> rfl
        · subst hs1; rfl
      have hi1 : Inv sc s1 := hi.alike hal hrest.1 hrest.2
      split at h
      · have hg : getSub sc x.key (some x.addr) s1.subs = .ok (some x1) := by
          rw [hs1', ← hk1, ← hx1]
          apply getSub_self
          intro y hy
          have hp := hi1.keys
          rw [hs1', List.pairwise_append] at hp
          refine ⟨?_, hp.2.2 y hy x1 (by simp)⟩
          have hn := hi1.addrs
          rw [hs1', List.map_append, List.nodup_append] at hn
          exact hn.2.2 y.addr (List.mem_map_of_mem hy) x1.addr (by simp)
        rw [hg] at h
        simp only [Res.ok_bind] at h
        obtain ⟨s2, h2, h⟩ := res_bind_ok h
        have hgone := removeSub_ok (by rw [hs1']; simp) hi1.addrs h2
        have hs2 : s2.subs = pre ++ rest := by
          rw [hgone.1.subs, hs1']
          exact eraseP_addr (by rw [← hs1']; exact hi1.addrs)
        have ha2 : Att s2.subs s2.attached := by
          rw [hs2, hgone.1.attached]
          apply Att.detach (L := pre ++ rest) _ _ (hnd1 x1 (by rw [hs1']; simp))
          · refine ha1.congr (fun y => ?_)
            rw [hs1']
            simp only [List.mem_append, List.mem_cons, List.not_mem_nil, or_false]
            constructor
            · rintro (h | h | h)
              · exact .inl (.inl h)
              · exact .inr h
              · exact .inl (.inr h)
            · rintro ((h | h) | h)
              · exact .inl h
              · exact .inr (.inr h)
              · exact .inr (.inl h)
          · rw [hx1]; exact hdist
        refine ih (hi1.gone hgone.1) hs2 ha2 ?_ h
        rw [hs2]
        intro y hy
        exact hnd1 y (by rw [hs1']; simp only [List.mem_append, List.mem_cons] at hy ⊢; rcases hy with h | h <;> simp [h])
      · exact ih (pre := pre ++ [x1]) hi1 (by simp [hs1']) ha1 hnd1 h

theorem dropAll_att {sc : Bool} : ∀ {l : List (Nat × List Info)} {s s' : State},
    Inv sc s → Att s.subs s.attached → (∀ x ∈ s.subs, x.instances.Nodup) → dropAll sc l s = .ok s' →
    Att s'.subs s'.attached := by
  intro l
  induction l with
  | nil => intro s s' _ ha _ h; cases h; exact ha
  | cons e l ih =>
    obtain ⟨n, el⟩ := e
    intro s s' hi ha hnd h
    unfold dropAll at h
    obtain ⟨s1, h1, h⟩ := res_bind_ok h
    have h2 := dropFrom_ok (pre := []) hi rfl h1
    simp only [List.nil_append] at h2
    have hsub : s1.subs.Sublist s.subs := by rw [h2.1]; exact List.takeWhile_sublist _
    exact ih (hi.sublist hsub h2.2.2.1 h2.2.2.2.1) (dropFrom_att (pre := []) hi rfl ha hnd h1)
      (fun x hx => hnd x (hsub.subset hx)) h

theorem delRow_cover {sc : Bool} {env : Env} {s s' : State} {r : Nat} (hi : Inv sc s)
    (hc : Cover s s.subs)
    (hsane : ∀ up n, locate s.tree r = some (up, n) → n.info.type = tObject ∧ inTemplate up = false)
    (h : delRow sc env s r = .ok s') : Cover s' s'.subs := by
  unfold delRow at h
  split at h
  · cases h; exact hc
  next up node hl =>
    obtain ⟨s1, h1, h⟩ := res_bind_ok h
    obtain ⟨s2, h2, h⟩ := res_bind_ok h
    cases h
    obtain ⟨ho, hv⟩ := hsane up node hl
    have hf := rowPolling_frame h1
    have hi1 := hi.frame hf
    have hc1 : Cover s1 s1.subs := by rw [hf.subs]; exact hc.frame hf.tree hf.attached hf.nextAddr
    obtain ⟨hd1, hd2, hd3, -⟩ := dropAll_ok hi1 h2
    have hsub : s2.subs.Sublist s1.subs := by rw [hd1]; exact List.takeWhile_sublist _
    have hatt := dropAll_att hi1 hc1.att (fun x hx => (hc1.cov x hx).choose_spec.2.1) h2
    have htree : s2.tree = s.tree := hd2.trans hf.tree
    obtain ⟨hwf, u, hup, hperm⟩ := deleteRow_wf hc.wf hl
    have hV : (Vis s.tree).Perm (Vis (deleteRow s.tree node) ++ visitList up node.children) := by
      have := hperm.filter picked
      rw [List.filter_append, flat_eq u node, List.filter_cons_of_neg (by simp [picked, ho]), ← hup,
        ← visitList_flat up hv] at this
      exact this
    refine ⟨?_, ?_, ?_, ?_, hc1.addrs.sublist (hsub.map _), ?_⟩
    · show WF (deleteRow s2.tree node)
      rw [htree]
      exact hwf
    · intro x hx
      show Bound (deleteRow s2.tree node) x
      rw [htree]
      have := hc1.bound x (hsub.subset hx)
      rw [hf.tree] at this
      refine this.retree (T' := deleteRow s.tree node) (Nat.le_refl _) (fun e he => .inl ?_)
      exact hperm.mem_iff.mpr (List.mem_append_left _ he)
    · intro x hx
      show Cov (Vis (deleteRow s2.tree node)) x
      rw [htree]
      obtain ⟨c, k1, k2, k3, k4⟩ := hc1.cov x (hsub.subset hx)
      rw [hf.tree] at k3 k4
      have hno : ∀ n ∈ (visitList up node.children).map (·.1), n ∉ x.instances := by
        have hx' : x ∈ s2.subs := hx
        rw [hd1] at hx'
        have := List.all_eq_true.mp (List.all_takeWhile (l := s1.subs)
          (p := fun x => decide (∀ n ∈ (visitList up node.children).map (·.1), n ∉ x.instances))) x hx'
        simpa using this
      refine ⟨c, k1, k2, fun e he => k3 e (hV.mem_iff.mpr (List.mem_append_left _ he)), fun n => ?_⟩
      rw [k4 n]
      constructor
      · rintro ⟨l, hl, hm⟩
        rcases List.mem_append.mp (hV.mem_iff.mp hl) with h | h
        · exact ⟨l, h, hm⟩
        · exact absurd ((k4 n).mpr ⟨l, hl, hm⟩) (hno n (List.mem_map.mpr ⟨_, h, rfl⟩))
      · rintro ⟨l, hl, hm⟩
        exact ⟨l, hV.mem_iff.mpr (List.mem_append_left _ hl), hm⟩
    · exact hatt
    · intro x hx
      have := hc1.below x (hsub.subset hx)
      show x.addr < s2.nextAddr
      rw [hd3]
      exact this

end Verif.Subs
