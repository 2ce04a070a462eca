import Verif.Spec.Registry
import Verif.Props.Filter

/-!
# The subscription registry: what each operation does to the list
-/

namespace Verif.Subs

open Verif Verif.Element Verif.TokenChain Verif.Filter
open Verif.Spec.Registry (SameKey)

theorem sameKey_iff {sc : Bool} {a b : Key} : sameKey sc a b = .ok true ↔ SameKey sc a b := by
  unfold sameKey
  split
  next h =>
    constructor
    · intro hx
      obtain ⟨c, hc, hx⟩ := res_bind_ok hx
      simp only [Res.pure_eq, Res.ok.injEq, Bool.and_eq_true, decide_eq_true_eq] at hx
      obtain ⟨⟨⟨h1, h2⟩, h3⟩, h4⟩ := hx
      subst h1
      exact ⟨h.1, h.2.2, h.2.1, (Props.C53_filter_compare_equal_iff sc _ _).mp hc, h2, h3, h4⟩
    · rintro ⟨h1, h2, h3, h4, h5, h6, h7⟩
      rw [(Props.C53_filter_compare_equal_iff sc _ _).mpr h4]
      simp [h5, h6, h7]
  next h =>
    constructor
    · intro hx; cases hx
    · rintro ⟨h1, h2, h3, -⟩
      exact absurd ⟨h1, h3, h2⟩ h

theorem not_same_of_false {sc : Bool} {a b : Key} (h : sameKey sc a b = .ok false) : ¬ SameKey sc a b := by
  intro hs
  rw [sameKey_iff.mpr hs] at h
  cases h

theorem getSub_none {sc : Bool} {k : Key} : ∀ {l : List Sub}, getSub sc k none l = .ok none →
    ∀ x ∈ l, sameKey sc x.key k = .ok false := by
  intro l
  induction l with
  | nil => intro _ x hx; cases hx
  | cons y l ih =>
    intro h x hx
    unfold getSub at h
    rw [if_neg (by simp)] at h
    obtain ⟨b, hb, h⟩ := res_bind_ok h
    cases b with
    | true => simp at h
    | false =>
      simp only [Bool.false_eq_true, if_false] at h
      rcases List.mem_cons.mp hx with rfl | hx
      · exact hb
      · exact ih h x hx

theorem getSub_some {sc : Bool} {k : Key} {y : Sub} : ∀ {l : List Sub},
    getSub sc k none l = .ok (some y) →
    ∃ a b, l = a ++ y :: b ∧ (∀ x ∈ a, sameKey sc x.key k = .ok false) ∧ sameKey sc y.key k = .ok true := by
  intro l
  induction l with
  | nil => intro h; simp [getSub] at h
  | cons x l ih =>
    intro h
    unfold getSub at h
    rw [if_neg (by simp)] at h
    obtain ⟨b, hb, h⟩ := res_bind_ok h
    cases b with
    | true =>
      simp only [if_true, Res.pure_eq, Res.ok.injEq, Option.some.injEq] at h
      subst h
      exact ⟨[], l, rfl, by simp, hb⟩
    | false =>
      simp only [Bool.false_eq_true, if_false] at h
      obtain ⟨a, b, h1, h2, h3⟩ := ih h
      refine ⟨x :: a, b, by simp [h1], ?_, h3⟩
      intro z hz
      rcases List.mem_cons.mp hz with rfl | hz
      · exact hb
      · exact h2 z hz

/-- The search for a subscription by its own key finds it, if the ones before it have other keys. -/
theorem getSub_self {sc : Bool} {x : Sub} : ∀ {a b : List Sub},
    (∀ y ∈ a, y.addr ≠ x.addr ∧ sameKey sc y.key x.key = .ok false) →
    getSub sc x.key (some x.addr) (a ++ x :: b) = .ok (some x) := by
  intro a
  induction a with
  | nil => intro b _; simp [getSub]
  | cons y a ih =>
    intro b h
    have hy := h y (by simp)
    rw [List.cons_append]
    unfold getSub
    rw [if_neg (by simpa using Ne.symm hy.1), hy.2]
    simp only [Res.ok_bind, Bool.false_eq_true, if_false]
    exact ih (fun z hz => h z (by simp [hz]))

/-! ### Parts that leave the registry alone -/

/-- Only the polling records and the log of handler calls differ. -/
structure Frame (s s' : State) : Prop where
  tree : s'.tree = s.tree
  subs : s'.subs = s.subs
  nextAddr : s'.nextAddr = s.nextAddr
  nextId : s'.nextId = s.nextId
  attached : s'.attached = s.attached
  limbo : s'.limbo = s.limbo
  cache : s'.cache = s.cache

theorem Frame.refl (s : State) : Frame s s := ⟨rfl, rfl, rfl, rfl, rfl, rfl, rfl⟩

theorem Frame.trans {a b c : State} (h : Frame a b) (h' : Frame b c) : Frame a c :=
  ⟨h'.tree.trans h.tree, h'.subs.trans h.subs, h'.nextAddr.trans h.nextAddr, h'.nextId.trans h.nextId,
    h'.attached.trans h.attached, h'.limbo.trans h.limbo, h'.cache.trans h.cache⟩

theorem pollAdd_frame (env : Env) (s : State) (n : Nat) :
    Frame s (pollAdd env s n) ∧ (pollAdd env s n).told = s.told := by
  unfold pollAdd
  split
  · exact ⟨.refl s, rfl⟩
  · split
    · exact ⟨⟨rfl, rfl, rfl, rfl, rfl, rfl, rfl⟩, rfl⟩
    · exact ⟨.refl s, rfl⟩

theorem pollRemove_frame (s : State) (n : Nat) :
    Frame s (pollRemove s n) ∧ (pollRemove s n).told = s.told :=
  ⟨⟨rfl, rfl, rfl, rfl, rfl, rfl, rfl⟩, rfl⟩

theorem pollUpdate_frame {env : Env} {added : Bool} {x : Sub} : ∀ {ns : List Nat} {s s' : State},
    pollUpdate env added x ns s = .ok s' → Frame s s' ∧ s'.told = s.told := by
  intro ns
  induction ns with
  | nil => intro s s' h; cases h; exact ⟨.refl s, rfl⟩
  | cons n ns ih =>
    intro s s' h
    unfold pollUpdate at h
    split at h
    · obtain ⟨b, _, h⟩ := res_bind_ok h
      have h2 := ih h
      have h1 : ∀ t, t = (if b then s else if added then pollAdd env s n else pollRemove s n) →
          Frame s t ∧ t.told = s.told := by
        rintro t rfl
        split
        · exact ⟨.refl s, rfl⟩
        · split
          · exact pollAdd_frame env s n
          · exact pollRemove_frame s n
      have h1 := h1 _ rfl
      exact ⟨h1.1.trans h2.1, h2.2.trans h1.2⟩
    · cases h

theorem polling_frame {env : Env} {s s' : State} {added : Bool} {x : Sub}
    (h : polling env s added x = .ok s') : Frame s s' ∧ s'.told = s.told := by
  unfold polling at h
  split at h
  · split at h
    · cases h; exact ⟨.refl s, rfl⟩
    · split at h
      · split at h
        · cases h
        · split at h
          · cases h; exact ⟨⟨rfl, rfl, rfl, rfl, rfl, rfl, rfl⟩, rfl⟩
          · cases h; exact ⟨.refl s, rfl⟩
      · cases h; exact ⟨⟨rfl, rfl, rfl, rfl, rfl, rfl, rfl⟩, rfl⟩
  · exact pollUpdate_frame h

theorem rowPolling_frame {env : Env} {added : Bool} : ∀ {l : List (Nat × List Info)} {s s' : State},
    rowPolling env added l s = .ok s' → Frame s s' := by
  intro l
  induction l with
  | nil => intro s s' h; cases h; exact .refl s
  | cons e l ih =>
    obtain ⟨n, el⟩ := e
    intro s s' h
    unfold rowPolling at h
    split at h
    · obtain ⟨b, _, h⟩ := res_bind_ok h
      refine Frame.trans ?_ (ih h)
      split
      · split
        · exact (pollAdd_frame env s n).1
        · exact (pollRemove_frame s n).1
      · exact .refl s
    · exact ih h

/-! ### Adding and removing one subscription -/

theorem addSub_none {s s' : State} {k : Key} {auto : Bool} {el : Nat}
    (h : addSub s k auto el = .ok (s', none)) : s' = s := by
  unfold addSub at h
  split at h
  · cases h
  · split at h
    · cases h
    · cases h; rfl
    · obtain ⟨ids, _, h⟩ := res_bind_ok h
      simp at h

/-- A subscription just made. -/
structure Made (s s' : State) (k : Key) (auto : Bool) (el : Nat) (x : Sub) : Prop where
  found : ∃ up n c, locate s.tree el = some (up, n) ∧ TokenChain.create k.eventName up = .ok c ∧
    x.chain = some c ∧ matching c (visitList [] s.tree.root.children) = .ok x.instances
  addr : x.addr = s.nextAddr
  key : x.key = k
  auto : x.autoPublish = auto
  element : x.element = some el
  id : x.subscriptionId = s.nextId
  tree : s'.tree = s.tree
  subs : s'.subs = s.subs ++ [x]
  nextAddr : s'.nextAddr = s.nextAddr + 1
  nextId : s'.nextId = s.nextId + 1
  attached : s'.attached = attach s.nextAddr s.attached x.instances
  limbo : s'.limbo = s.limbo
  cache : s'.cache = s'.subs.map (·.key)

theorem addSub_some {s s' : State} {k : Key} {auto : Bool} {el : Nat} {x : Sub}
    (h : addSub s k auto el = .ok (s', some x)) : Made s s' k auto el x ∧ s'.told = s.told := by
  unfold addSub at h
  split at h
  · cases h
  next up n hl =>
    split at h
    · cases h
    · cases h
    next c hc =>
      obtain ⟨ids, hids, h⟩ := res_bind_ok h
      cases h
      exact ⟨⟨⟨up, n, c, hl, hc, rfl, hids⟩, rfl, rfl, rfl, rfl, rfl, rfl, rfl, rfl, rfl, rfl, rfl, rfl⟩, rfl⟩

/-- A subscription just taken away. -/
structure Gone (s s' : State) (x : Sub) : Prop where
  tree : s'.tree = s.tree
  subs : s'.subs = s.subs.eraseP (fun y => y.addr = x.addr)
  nextAddr : s'.nextAddr = s.nextAddr
  nextId : s'.nextId = s.nextId
  attached : s'.attached = detach x.addr s.attached x.instances
  limbo : s'.limbo = s.limbo
  cache : s'.cache = s'.subs.map (·.key)
  live : ∀ n ∈ x.instances, (locate s.tree n).isSome
  owned : ∀ c ∈ x.chain, c.owned = true

theorem freeSub_ok {s s' : State} {x : Sub} (h : freeSub s x = .ok s') :
    s' = { s with attached := detach x.addr s.attached x.instances } ∧
      (∀ n ∈ x.instances, (locate s.tree n).isSome) ∧ ∀ c ∈ x.chain, c.owned = true := by
  unfold freeSub at h
  split at h
  next hc =>
    cases h
    refine ⟨rfl, by simpa using hc.1, ?_⟩
    intro c hcx
    have := hc.2
    rw [Option.mem_def.mp hcx] at this
    simpa using this
  next => cases h

theorem find_addr {l : List Sub} {a b : List Sub} {x : Sub} (h : l = a ++ x :: b)
    (hn : (l.map (·.addr)).Nodup) : l.find? (fun y => y.addr = x.addr) = some x := by
  subst h
  rw [List.find?_append, List.find?_cons_of_pos (by simp)]
  rw [List.find?_eq_none.mpr, Option.none_or]
  intro y hy
  simp only [List.map_append, List.map_cons, List.nodup_append, List.mem_map] at hn
  have := hn.2.2 y.addr ⟨y, hy, rfl⟩ x.addr (by simp)
  simpa using this

theorem eraseP_addr {a b : List Sub} {x : Sub} (hn : ((a ++ x :: b).map (·.addr)).Nodup) :
    (a ++ x :: b).eraseP (fun y => y.addr = x.addr) = a ++ b := by
  rw [List.eraseP_append_right, List.eraseP_cons_of_pos (by simp)]
  intro y hy
  simp only [List.map_append, List.map_cons, List.nodup_append, List.mem_map] at hn
  have := hn.2.2 y.addr ⟨y, hy, rfl⟩ x.addr (by simp)
  simpa using this

theorem removeSub_ok {s s' : State} {x : Sub} (hx : x ∈ s.subs) (hn : (s.subs.map (·.addr)).Nodup)
    (h : removeSub s x.addr = .ok s') : Gone s s' x ∧ s'.told = s.told := by
  obtain ⟨a, b, hab⟩ := List.append_of_mem hx
  unfold removeSub at h
  rw [find_addr hab hn] at h
  obtain ⟨s1, h1, h⟩ := res_bind_ok h
  cases h
  obtain ⟨rfl, h2, h3⟩ := freeSub_ok h1
  exact ⟨⟨rfl, rfl, rfl, rfl, rfl, rfl, rfl, h2, h3⟩, rfl⟩

/-! ### Requests -/

/-- What is always true of the list of subscriptions. -/
structure Inv (sc : Bool) (s : State) : Prop where
  keys : s.subs.Pairwise (fun x y => sameKey sc x.key y.key = .ok false)
  addrs : (s.subs.map (·.addr)).Nodup
  below : ∀ x ∈ s.subs, x.addr < s.nextAddr
  ids : s.subs.Pairwise (fun x y => x.subscriptionId < y.subscriptionId)
  idsBelow : ∀ x ∈ s.subs, x.subscriptionId < s.nextId
  bound : ∀ x ∈ s.subs, x.element ≠ none ∧ x.chain ≠ none

theorem Inv.frame {sc : Bool} {s s' : State} (h : Inv sc s) (hf : Frame s s') : Inv sc s' := by
  obtain ⟨h1, h2, h3, h4, h5, h6⟩ := h
  constructor
  · rw [hf.subs]; exact h1
  · rw [hf.subs]; exact h2
  · rw [hf.subs, hf.nextAddr]; exact h3
  · rw [hf.subs]; exact h4
  · rw [hf.subs, hf.nextId]; exact h5
  · rw [hf.subs]; exact h6

/-- The list keeps its properties when it loses members, and members change only their instances. -/
theorem Inv.sublist {sc : Bool} {s s' : State} (h : Inv sc s) (hs : s'.subs.Sublist s.subs)
    (ha : s'.nextAddr = s.nextAddr) (hi : s'.nextId = s.nextId) : Inv sc s' := by
  obtain ⟨h1, h2, h3, h4, h5, h6⟩ := h
  constructor
  · exact h1.sublist hs
  · exact h2.sublist (hs.map _)
  · rw [ha]; exact fun x hx => h3 x (hs.subset hx)
  · exact h4.sublist hs
  · rw [hi]; exact fun x hx => h5 x (hs.subset hx)
  · exact fun x hx => h6 x (hs.subset hx)

theorem Inv.made {sc : Bool} {s s' : State} {k : Key} {auto : Bool} {el : Nat} {x : Sub} (h : Inv sc s)
    (hm : Made s s' k auto el x) (hk : ∀ y ∈ s.subs, sameKey sc y.key k = .ok false) : Inv sc s' := by
  obtain ⟨h1, h2, h3, h4, h5, h6⟩ := h
  constructor
  · rw [hm.subs, List.pairwise_append]
    refine ⟨h1, List.pairwise_singleton _ _, ?_⟩
    intro y hy z hz
    rw [List.mem_singleton] at hz
    subst hz
    rw [hm.key]
    exact hk y hy
  · rw [hm.subs, List.map_append, List.nodup_append]
    refine ⟨h2, by simp, ?_⟩
    intro a ha b hb
    simp only [List.map_cons, List.map_nil, List.mem_singleton] at hb
    subst hb
    obtain ⟨y, hy, rfl⟩ := List.mem_map.mp ha
    have := h3 y hy
    have := hm.addr
    omega
  · rw [hm.subs, hm.nextAddr]
    intro y hy
    rcases List.mem_append.mp hy with hy | hy
    · have := h3 y hy
      omega
    · rw [List.mem_singleton] at hy
      subst hy
      have := hm.addr
      omega
  · rw [hm.subs, List.pairwise_append]
    refine ⟨h4, List.pairwise_singleton _ _, ?_⟩
    intro y hy z hz
    rw [List.mem_singleton] at hz
    subst hz
    rw [hm.id]
    exact h5 y hy
  · rw [hm.subs, hm.nextId]
    intro y hy
    rcases List.mem_append.mp hy with hy | hy
    · have := h5 y hy
      omega
    · rw [List.mem_singleton] at hy
      subst hy
      have := hm.id
      omega
  · rw [hm.subs]
    intro y hy
    rcases List.mem_append.mp hy with hy | hy
    · exact h6 y hy
    · rw [List.mem_singleton] at hy
      subst hy
      obtain ⟨up, n, c, -, -, hc, -⟩ := hm.found
      rw [hm.element, hc]
      simp

theorem Inv.gone {sc : Bool} {s s' : State} {x : Sub} (h : Inv sc s) (hg : Gone s s' x) : Inv sc s' :=
  h.sublist (by rw [hg.subs]; exact List.eraseP_sublist) hg.nextAddr hg.nextId

/-- The provider's handler's part of a request. -/
def ask (env : Env) (s : State) (added : Bool) (el : Node) (k : Key) : State :=
  if el.info.cb.sub.isSome then { s with told := s.told ++ [(added, k.eventName)] } else s

theorem ask_frame (env : Env) (s : State) (added : Bool) (el : Node) (k : Key) :
    Frame s (ask env s added el k) := by
  unfold ask
  split
  · exact ⟨rfl, rfl, rfl, rfl, rfl, rfl, rfl⟩
  · exact .refl s

/-- What a request to subscribe can do. -/
inductive Added (sc : Bool) (s s' : State) (el : Node) (k : Key) (r : Nat) : Prop where
  | refused : Frame s s' → s'.polled = s.polled → s'.intervals = s.intervals → r ≠ eOk →
      Added sc s s' el k r
  | rawTrace {x : Sub} {s1 : State} {auto : Bool} : Made s s1 k auto el.id x → Frame s1 s' →
      (∀ y ∈ s.subs, sameKey sc y.key k = .ok false) →
      k.rawData = true → el.info.type ≠ tEvent → r = eInvalidInput → Added sc s s' el k r
  | made {x : Sub} {s1 : State} {auto : Bool} : Made s s1 k auto el.id x → Frame s1 s' →
      (∀ y ∈ s.subs, sameKey sc y.key k = .ok false) → (k.rawData = true → el.info.type = tEvent) →
      r = eOk → Added sc s s' el k r

theorem register_added {sc : Bool} {env : Env} {s s' : State} {el : Node} {k : Key} {auto : Bool} {r : Nat}
    (h : register sc env s true el k auto = .ok (s', r)) : Added sc s s' el k r := by
  unfold register at h
  split at h
  · cases h
    exact .refused (.refl _) rfl rfl (by decide)
  · obtain ⟨f, hf, h⟩ := res_bind_ok h
    rw [if_pos rfl] at h
    cases f with
    | some y =>
      cases h
      exact .refused (.refl _) rfl rfl (by decide)
    | none =>
      obtain ⟨⟨s1, m⟩, h1, h⟩ := res_bind_ok h
      have hk := getSub_none hf
      cases m with
      | none =>
        rw [addSub_none h1] at h
        cases h
        exact .refused (.refl _) rfl rfl (by decide)
      | some x =>
        have hm := addSub_some h1
        simp only [finish] at h
        split at h
        next hr =>
          cases h
          exact .rawTrace hm.1 (.refl _) hk hr.1 hr.2 rfl
        next hr =>
          obtain ⟨s2, h2, h⟩ := res_bind_ok h
          simp only [if_true, Res.ok_bind] at h
          cases h
          refine .made hm.1 ?_ hk (fun h => Decidable.byContradiction fun hc => hr ⟨h, hc⟩) rfl
          split at h2
          · exact (polling_frame h2).1
          · cases h2; exact .refl _

theorem Added.frame_left {sc : Bool} {s t s' : State} {el : Node} {k : Key} {r : Nat} (hf : Frame s t)
    (hp : t.polled = s.polled) (hi : t.intervals = s.intervals)
    (h : Added sc t s' el k r) : Added sc s s' el k r := by
  have hmade : ∀ {s1 : State} {auto : Bool} {x : Sub}, Made t s1 k auto el.id x →
      ∃ s2, Made s s2 k auto el.id x ∧ Frame s2 s1 := by
    intro s1 auto x hm
    refine ⟨s1, ?_, .refl _⟩
    obtain ⟨a, b, c, d, e, f, g, h, i, j, l, m, n⟩ := hm
    rw [hf.tree] at a g
    rw [hf.nextAddr] at b i l
    rw [hf.nextId] at f j
    rw [hf.subs] at h
    rw [hf.attached] at l
    rw [hf.limbo] at m
    exact ⟨a, b, c, d, e, f, g, h, i, j, l, m, n⟩
  cases h with
  | refused h1 h2 h3 h4 => exact .refused (hf.trans h1) (h2.trans hp) (h3.trans hi) h4
  | rawTrace h1 h2 h3 h4 h5 h6 =>
    obtain ⟨s2, h7, h8⟩ := hmade h1
    exact .rawTrace h7 (h8.trans h2) (by rw [← hf.subs]; exact h3) h4 h5 h6
  | made h1 h2 h3 h4 h5 =>
    obtain ⟨s2, h7, h8⟩ := hmade h1
    exact .made h7 (h8.trans h2) (by rw [← hf.subs]; exact h3) h4 h5

theorem impl_added {sc : Bool} {env : Env} {s s' : State} {el : Node} {k : Key} {r : Nat}
    (h : subscribeImpl sc env s true el k = .ok (s', r)) : Added sc s s' el k r := by
  unfold subscribeImpl at h
  split at h
  · simp only at h
    split at h
    · cases h
      exact .refused ⟨rfl, rfl, rfl, rfl, rfl, rfl, rfl⟩ rfl rfl (by decide)
    · split at h
      next hne =>
        cases h
        exact .refused ⟨rfl, rfl, rfl, rfl, rfl, rfl, rfl⟩ rfl rfl hne
      · exact Added.frame_left (t := { s with told := s.told ++ [(true, k.eventName)] })
          ⟨rfl, rfl, rfl, rfl, rfl, rfl, rfl⟩ rfl rfl (register_added h)
  · exact register_added h

/-- What a request to unsubscribe can do. -/
inductive Removed (sc : Bool) (s s' : State) (el : Node) (k : Key) (r : Nat) : Prop where
  | refused : Frame s s' → s'.polled = s.polled → s'.intervals = s.intervals → r ≠ eOk →
      Removed sc s s' el k r
  | gone {x : Sub} {s1 : State} : x ∈ s.subs → sameKey sc x.key k = .ok true → Frame s s1 → Gone s1 s' x →
      r = eOk → Removed sc s s' el k r

theorem register_removed {sc : Bool} {env : Env} {s s' : State} {el : Node} {k : Key} {auto : Bool} {r : Nat}
    (hi : (s.subs.map (·.addr)).Nodup)
    (h : register sc env s false el k auto = .ok (s', r)) : Removed sc s s' el k r := by
  unfold register at h
  rw [if_neg (by simp)] at h
  obtain ⟨f, hf, h⟩ := res_bind_ok h
  rw [if_neg (by simp)] at h
  cases f with
  | none =>
    cases h
    exact .refused (.refl _) rfl rfl (by decide)
  | some x =>
    obtain ⟨a, b, hab, -, hx⟩ := getSub_some hf
    simp only [finish] at h
    split at h
    · cases h
      exact .refused (.refl _) rfl rfl (by decide)
    · obtain ⟨s2, h2, h⟩ := res_bind_ok h
      obtain ⟨s3, h3, h⟩ := res_bind_ok h
      cases h
      rw [if_neg (by simp)] at h3
      have hf2 : Frame s s2 := by
        split at h2
        · exact (polling_frame h2).1
        · cases h2; exact .refl _
      have hm : x ∈ s.subs := by rw [hab]; simp
      have := removeSub_ok (by rw [hf2.subs]; exact hm) (by rw [hf2.subs]; exact hi) h3
      exact .gone hm hx hf2 this.1 rfl

theorem impl_removed {sc : Bool} {env : Env} {s s' : State} {el : Node} {k : Key} {r : Nat}
    (hi : (s.subs.map (·.addr)).Nodup)
    (h : subscribeImpl sc env s false el k = .ok (s', r)) : Removed sc s s' el k r := by
  unfold subscribeImpl at h
  split at h
  · simp only at h
    split at h
    · cases h
      exact .refused ⟨rfl, rfl, rfl, rfl, rfl, rfl, rfl⟩ rfl rfl (by decide)
    · split at h
      next hne =>
        cases h
        exact .refused ⟨rfl, rfl, rfl, rfl, rfl, rfl, rfl⟩ rfl rfl hne
      · have hr := register_removed (s := { s with told := s.told ++ [(false, k.eventName)] }) hi h
        cases hr with
        | refused h1 h2 h3 h4 =>
          have : Frame s s' := ⟨h1.tree, h1.subs, h1.nextAddr, h1.nextId, h1.attached, h1.limbo, h1.cache⟩
          exact .refused this h2 h3 h4
        | @gone x s1 h1 h2 h3 h4 h5 =>
          have : Frame s s1 := ⟨h3.tree, h3.subs, h3.nextAddr, h3.nextId, h3.attached, h3.limbo, h3.cache⟩
          exact .gone h1 h2 this h4 h5
  · exact register_removed hi h

theorem Added.inv {sc : Bool} {s s' : State} {el : Node} {k : Key} {r : Nat} (hi : Inv sc s)
    (h : Added sc s s' el k r) : Inv sc s' := by
  cases h with
  | refused h => exact hi.frame h
  | rawTrace h1 h2 h3 => exact (hi.made h1 h3).frame h2
  | made h1 h2 h3 => exact (hi.made h1 h3).frame h2

theorem Removed.inv {sc : Bool} {s s' : State} {el : Node} {k : Key} {r : Nat} (hi : Inv sc s)
    (h : Removed sc s s' el k r) : Inv sc s' := by
  cases h with
  | refused h => exact hi.frame h
  | gone _ _ h3 h4 => exact (hi.frame h3).gone h4

/-- A request either changes nothing or does one of the above to the element it finds. -/
theorem request_cases {sc : Bool} {env : Env} {s s' : State} {added : Bool} {k : Key} {r : Nat}
    (h : request sc env s added k = .ok (s', r)) :
    (s' = s ∧ r ≠ eOk) ∨ ∃ el, retrieveInstance s.tree k.eventName = some el ∧
      subscribeImpl sc env s added el k = .ok (s', r) := by
  unfold request at h
  split at h
  · cases h
    exact .inl ⟨rfl, by decide⟩
  next el hel =>
    split at h
    · cases h
      exact .inl ⟨rfl, by decide⟩
    · exact .inr ⟨el, hel, h⟩

/-! ### Disconnection -/

theorem disconnectFrom_inv {sc : Bool} {env : Env} {l : Bytes} : ∀ {fuel : Nat} {c : Option Nat}
    {s s' : State}, Inv sc s → disconnectFrom sc env l fuel c s = .ok s' → Inv sc s' ∧ s'.tree = s.tree := by
  intro fuel
  induction fuel with
  | zero =>
    intro c s s' hi h
    cases c with
    | none => cases h; exact ⟨hi, rfl⟩
    | some a => cases h
  | succ fuel ih =>
    intro c s s' hi h
    cases c with
    | none => cases h; exact ⟨hi, rfl⟩
    | some a =>
      unfold disconnectFrom at h
      split at h
      · cases h
      · simp only at h
        split at h
        · split at h
          · exact ih hi h
          · split at h
            · cases h
            · obtain ⟨⟨s1, r⟩, h1, h⟩ := res_bind_ok h
              have hr := impl_removed hi.addrs h1
              have := ih (hr.inv hi) h
              refine ⟨this.1, this.2.trans ?_⟩
              cases hr with
              | refused h => exact h.tree
              | gone _ _ h3 h4 => exact h4.tree.trans h3.tree
        · exact ih hi h

/-! ### Rows -/

/-- The same subscriptions apart from their instances. -/
def Alike (a b : List Sub) : Prop :=
  a.map (fun x => { x with instances := [] }) = b.map (fun x => { x with instances := [] })

theorem Alike.map {α : Type} {f : Sub → α} (hf : ∀ x, f { x with instances := [] } = f x) {a b : List Sub}
    (h : Alike a b) : a.map f = b.map f := by
  have := congrArg (List.map f) h
  simpa [Function.comp_def, hf] using this

theorem Inv.alike {sc : Bool} {s s' : State} (h : Inv sc s) (ha : Alike s'.subs s.subs)
    (hn : s'.nextAddr = s.nextAddr) (hi : s'.nextId = s.nextId) : Inv sc s' := by
  obtain ⟨h1, h2, h3, h4, h5, h6⟩ := h
  have hk := ha.map (f := fun x => x.key) (fun _ => rfl)
  have hd := ha.map (f := fun x => x.addr) (fun _ => rfl)
  have hs := ha.map (f := fun x => x.subscriptionId) (fun _ => rfl)
  have hb := ha.map (f := fun x => (x.element, x.chain)) (fun _ => rfl)
  have hmem : ∀ {α : Type} {f : Sub → α} {P : α → Prop}, s'.subs.map f = s.subs.map f →
      (∀ x ∈ s.subs, P (f x)) → ∀ x ∈ s'.subs, P (f x) := by
    intro α f P hf hp x hx
    have : f x ∈ s.subs.map f := by rw [← hf]; exact List.mem_map_of_mem hx
    obtain ⟨y, hy, hyx⟩ := List.mem_map.mp this
    rw [← hyx]
    exact hp y hy
  constructor
  · have := (List.pairwise_map (f := fun x : Sub => x.key)
      (R := fun a b => sameKey sc a b = .ok false)).mpr h1
    rw [← hk] at this
    exact List.pairwise_map.mp this
  · rw [hd]; exact h2
  · rw [hn]; exact hmem hd (P := fun a => a < s.nextAddr) h3
  · have := (List.pairwise_map (f := fun x : Sub => x.subscriptionId)
      (R := fun a b => a < b)).mpr h4
    rw [← hs] at this
    exact List.pairwise_map.mp this
  · rw [hi]; exact hmem hs (P := fun a => a < s.nextId) h5
  · exact hmem hb (P := fun p => p.1 ≠ none ∧ p.2 ≠ none) h6

theorem meet_alike {T : Tree} {n : Nat} {el : List Info} : ∀ {l l' : List Sub} {as : List Nat},
    meet T n el l = .ok (l', as) → Alike l' l := by
  intro l
  induction l with
  | nil => intro l' as h; cases h; rfl
  | cons x l ih =>
    intro l' as h
    unfold meet at h
    obtain ⟨b, _, h⟩ := res_bind_ok h
    obtain ⟨⟨l1, as1⟩, h1, h⟩ := res_bind_ok h
    have := ih h1
    unfold Alike at this ⊢
    cases b <;> cases h <;> simp [this]

/-- All but the subscriptions' instances and the nodes' lists stays. -/
structure Kept (s s' : State) : Prop where
  tree : s'.tree = s.tree
  subs : Alike s'.subs s.subs
  nextAddr : s'.nextAddr = s.nextAddr
  nextId : s'.nextId = s.nextId
  limbo : s'.limbo = s.limbo
  cache : s'.cache = s.cache
  polled : s'.polled = s.polled
  intervals : s'.intervals = s.intervals
  told : s'.told = s.told

theorem created_kept : ∀ {l : List (Nat × List Info)} {s s' : State}, created l s = .ok s' → Kept s s' := by
  intro l
  induction l with
  | nil => intro s s' h; cases h; exact ⟨rfl, rfl, rfl, rfl, rfl, rfl, rfl, rfl, rfl⟩
  | cons e l ih =>
    obtain ⟨n, el⟩ := e
    intro s s' h
    unfold created at h
    obtain ⟨⟨l1, as⟩, h1, h⟩ := res_bind_ok h
    have h2 := ih h
    have h3 := meet_alike h1
    exact ⟨h2.tree, Eq.trans h2.subs h3, h2.nextAddr, h2.nextId, h2.limbo, h2.cache, h2.polled,
      h2.intervals, h2.told⟩

theorem resubscribe_inv {sc : Bool} {env : Env} {s s' : State} {x : Sub} {el : Node} (hi : Inv sc s)
    (h : resubscribe sc env s x el = .ok s') : Inv sc s' ∧ s'.tree = s.tree := by
  unfold resubscribe at h
  simp only at h
  obtain ⟨⟨s1, r⟩, h1, h⟩ := res_bind_ok h
  have h2 := impl_added h1
  have h3 : Inv sc { s with subs := s.subs.eraseP (fun y => y.addr = x.addr), limbo := some x } :=
    hi.sublist List.eraseP_sublist rfl rfl
  have h4 := h2.inv h3
  obtain ⟨rfl, -, -⟩ := freeSub_ok h
  refine ⟨h4.sublist (List.Sublist.refl _) rfl rfl, ?_⟩
  cases h2 with
  | refused h => exact h.tree
  | rawTrace h1 h2 => exact h2.tree.trans h1.tree
  | made h1 h2 => exact h2.tree.trans h1.tree

theorem resubscribeRow_inv {sc : Bool} {env : Env} {row : Bytes} : ∀ {l : List Sub} {s s' : State},
    Inv sc s → resubscribeRow sc env row l s = .ok s' → Inv sc s' ∧ s'.tree = s.tree := by
  intro l
  induction l with
  | nil => intro s s' hi h; cases h; exact ⟨hi, rfl⟩
  | cons x l ih =>
    intro s s' hi h
    unfold resubscribeRow at h
    split at h
    · split at h
      · exact ih hi h
      · obtain ⟨s1, h1, h⟩ := res_bind_ok h
        have h2 := resubscribe_inv hi h1
        have h3 := ih h2.1 h
        exact ⟨h3.1, h3.2.trans h2.2⟩
    · exact ih hi h

theorem nextOf_eq {x : Sub} {rest : List Sub} : ∀ {pre : List Sub},
    ((pre ++ x :: rest).map (·.addr)).Nodup →
    nextOf x.addr (pre ++ x :: rest) = rest.head?.map (·.addr) := by
  intro pre
  induction pre with
  | nil =>
    intro _
    cases rest with
    | nil => rfl
    | cons y r => simp [nextOf]
  | cons p pre ih2 =>
    intro hn
    have hp : p.addr ≠ x.addr := by
      intro he
      simp [he] at hn
    have hn' : ((pre ++ x :: rest).map (·.addr)).Nodup := by
      simp only [List.cons_append, List.map_cons, List.nodup_cons] at hn
      exact hn.2
    have := ih2 hn'
    cases pre with
    | nil => simp only [List.cons_append, List.nil_append, nextOf, if_neg hp] at this ⊢; exact this
    | cons q pre' => simp only [List.cons_append, nextOf, if_neg hp] at this ⊢; exact this

/-- Once an element's subscription has been met, all following subscriptions are removed. -/
theorem dropFrom_val {sc : Bool} {n : Nat} : ∀ {rest : List Sub} {fuel : Nat} {pre : List Sub} {s s' : State},
    Inv sc s → s.subs = pre ++ rest →
    dropFrom sc n fuel true (rest.head?.map (·.addr)) s = .ok s' →
    s'.subs = pre ∧ s'.tree = s.tree ∧ s'.nextAddr = s.nextAddr ∧ s'.nextId = s.nextId ∧
      s'.polled = s.polled ∧ s'.intervals = s.intervals := by
  intro rest
  induction rest with
  | nil =>
    intro fuel pre s s' hi hs h
    have : s' = s := by cases fuel <;> (cases h; rfl)
    subst this
    exact ⟨by simpa using hs, rfl, rfl, rfl, rfl, rfl⟩
  | cons x rest ih =>
    intro fuel pre s s' hi hs h
    cases fuel with
    | zero => cases h
    | succ fuel =>
      simp only [List.head?_cons, Option.map_some] at h
      have hnext : nextOf x.addr s.subs = rest.head?.map (·.addr) := by
        rw [hs]
        exact nextOf_eq (by rw [← hs]; exact hi.addrs)
      unfold dropFrom at h
      rw [find_addr hs hi.addrs] at h
      simp only [hnext, Bool.true_or, if_true] at h
      -- the state after taking the instance away
      generalize hs1 : (if n ∈ x.instances then
          { s with
            subs := s.subs.map (fun y => if y.addr = x.addr then { y with instances := y.instances.erase n } else y)
            attached := update s.attached n ((s.attached n).erase x.addr) }
        else s) = s1 at h
      obtain ⟨x1, hx1, hk1, hs1'⟩ : ∃ x1 : Sub, x1.addr = x.addr ∧ x1.key = x.key ∧
          s1.subs = pre ++ x1 :: rest := by
        have hdist : ∀ y ∈ pre ++ rest, y.addr ≠ x.addr := by
          have hn := hi.addrs
          rw [hs, (List.perm_middle.map _).nodup_iff, List.map_cons, List.nodup_cons] at hn
          intro y hy he
          exact hn.1 (he ▸ List.mem_map_of_mem hy)
        split at hs1
        · subst hs1
          refine ⟨{ x with instances := x.instances.erase n }, rfl, rfl, ?_⟩
          simp only [hs, List.map_append, List.map_cons, if_true]
          have hid : ∀ l : List Sub, (∀ y ∈ l, y.addr ≠ x.addr) →
              l.map (fun y => if y.addr = x.addr then { y with instances := y.instances.erase n } else y) = l := by
            intro l hl
            conv => rhs; rw [← List.map_id l]
            apply List.map_congr_left
            intro y hy
            simp [hl y hy]
          rw [hid pre (fun y hy => hdist y (by simp [hy])), hid rest (fun y hy => hdist y (by simp [hy]))]
        · subst hs1
          exact ⟨x, rfl, rfl, hs⟩
      have hrest : s1.tree = s.tree ∧ s1.nextAddr = s.nextAddr ∧ s1.nextId = s.nextId ∧
          s1.polled = s.polled ∧ s1.intervals = s.intervals := by
        split at hs1 <;> (subst hs1; exact ⟨rfl, rfl, rfl, rfl, rfl⟩)
      have hal : Alike s1.subs s.subs := by
        split at hs1
        · subst hs1
          simp only [Alike, List.map_map]
          apply List.map_congr_left
          intro y _
          simp only [Function.comp_apply]
          split <;> rfl
        · subst hs1; rfl
      have hi1 : Inv sc s1 := hi.alike hal hrest.2.1 hrest.2.2.1
      have hg : getSub sc x.key (some x.addr) s1.subs = .ok (some x1) := by
        rw [hs1', ← hk1, ← hx1]
        apply getSub_self
        intro y hy
        have hp := hi1.keys
        rw [hs1', List.pairwise_append] at hp
        refine ⟨?_, hp.2.2 y hy x1 (by simp)⟩
        have hn := hi1.addrs
        rw [hs1', List.map_append, List.nodup_append] at hn
        exact hn.2.2 y.addr (List.mem_map_of_mem hy) x1.addr (by simp)
      rw [hg] at h
      simp only [Res.ok_bind] at h
      obtain ⟨s2, h2, h⟩ := res_bind_ok h
      have hgone := removeSub_ok (by rw [hs1']; simp) hi1.addrs h2
      have hs2 : s2.subs = pre ++ rest := by
        rw [hgone.1.subs, hs1']
        exact eraseP_addr (by rw [← hs1']; exact hi1.addrs)
      have hpi : s2.polled = s1.polled ∧ s2.intervals = s1.intervals := by
        unfold removeSub at h2
        split at h2
        · cases h2; exact ⟨rfl, rfl⟩
        · obtain ⟨s3, h3, h2⟩ := res_bind_ok h2
          cases h2
          obtain ⟨rfl, -, -⟩ := freeSub_ok h3
          exact ⟨rfl, rfl⟩
      have := ih (hi1.gone hgone.1) hs2 h
      refine ⟨this.1, this.2.1.trans (hgone.1.tree.trans hrest.1),
        this.2.2.1.trans (hgone.1.nextAddr.trans hrest.2.1),
        this.2.2.2.1.trans (hgone.1.nextId.trans hrest.2.2.1),
        this.2.2.2.2.1.trans (hpi.1.trans hrest.2.2.2.1), this.2.2.2.2.2.trans (hpi.2.trans hrest.2.2.2.2)⟩

/-- An element's deletion keeps the subscriptions before the first one that has it. -/
theorem dropFrom_ok {sc : Bool} {n : Nat} : ∀ {rest : List Sub} {fuel : Nat} {pre : List Sub} {s s' : State},
    Inv sc s → s.subs = pre ++ rest →
    dropFrom sc n fuel false (rest.head?.map (·.addr)) s = .ok s' →
    s'.subs = pre ++ rest.takeWhile (fun x => n ∉ x.instances) ∧ s'.tree = s.tree ∧
      s'.nextAddr = s.nextAddr ∧ s'.nextId = s.nextId ∧ s'.polled = s.polled ∧
      s'.intervals = s.intervals := by
  intro rest
  induction rest with
  | nil =>
    intro fuel pre s s' hi hs h
    have : s' = s := by cases fuel <;> (cases h; rfl)
    subst this
    exact ⟨by simpa using hs, rfl, rfl, rfl, rfl, rfl⟩
  | cons x rest ih =>
    intro fuel pre s s' hi hs h
    cases fuel with
    | zero => cases h
    | succ fuel =>
      simp only [List.head?_cons, Option.map_some] at h
      rcases Decidable.em (n ∈ x.instances) with hn | hn
      · have : dropFrom sc n (fuel + 1) true ((x :: rest).head?.map (·.addr)) s = .ok s' := by
          rw [← h]
          simp only [List.head?_cons, Option.map_some]
          unfold dropFrom
          rw [find_addr hs hi.addrs]
          simp [hn]
        rw [List.takeWhile_cons_of_neg (by simpa using hn), List.append_nil]
        exact dropFrom_val hi hs this
      · unfold dropFrom at h
        rw [find_addr hs hi.addrs] at h
        have hnext : nextOf x.addr s.subs = rest.head?.map (·.addr) := by
          rw [hs]
          exact nextOf_eq (by rw [← hs]; exact hi.addrs)
        simp only [hn, hnext, Bool.false_or, decide_false, Bool.false_eq_true, if_false] at h
        have := ih (pre := pre ++ [x]) hi (by simp [hs]) h
        rw [List.takeWhile_cons_of_pos (by simpa using hn)]
        simpa using this

theorem takeWhile_takeWhile {α : Type} (p q : α → Bool) : ∀ l : List α,
    (l.takeWhile p).takeWhile q = l.takeWhile (fun x => p x && q x) := by
  intro l
  induction l with
  | nil => rfl
  | cons x l ih =>
    rw [List.takeWhile_cons]
    cases hp : p x with
    | false => simp [List.takeWhile_cons, hp]
    | true =>
      simp only [if_true, List.takeWhile_cons, hp, Bool.true_and]
      cases q x <;> simp [ih]

/-- Deleting what is below a row keeps the subscriptions before the first one that has an instance there. -/
theorem dropAll_ok {sc : Bool} : ∀ {l : List (Nat × List Info)} {s s' : State},
    Inv sc s → dropAll sc l s = .ok s' →
    s'.subs = s.subs.takeWhile (fun x => ∀ n ∈ l.map (·.1), n ∉ x.instances) ∧ s'.tree = s.tree ∧
      s'.nextAddr = s.nextAddr ∧ s'.nextId = s.nextId ∧ s'.polled = s.polled ∧
      s'.intervals = s.intervals ∧ Inv sc s' := by
  intro l
  induction l with
  | nil =>
    intro s s' hi h
    cases h
    refine ⟨?_, rfl, rfl, rfl, rfl, rfl, hi⟩
    generalize s.subs = l
    induction l with
    | nil => rfl
    | cons a l ih =>
      rw [List.takeWhile_cons_of_pos (by simp)]
      exact congrArg _ ih
  | cons e l ih =>
    obtain ⟨n, el⟩ := e
    intro s s' hi h
    unfold dropAll at h
    obtain ⟨s1, h1, h⟩ := res_bind_ok h
    have h2 := dropFrom_ok (pre := []) hi rfl h1
    simp only [List.nil_append] at h2
    have hi1 : Inv sc s1 := hi.sublist (by rw [h2.1]; exact List.takeWhile_sublist _) h2.2.2.1 h2.2.2.2.1
    have h3 := ih hi1 h
    refine ⟨?_, h3.2.1.trans h2.2.1, h3.2.2.1.trans h2.2.2.1, h3.2.2.2.1.trans h2.2.2.2.1,
      h3.2.2.2.2.1.trans h2.2.2.2.2.1, h3.2.2.2.2.2.1.trans h2.2.2.2.2.2, h3.2.2.2.2.2.2⟩
    rw [h3.1, h2.1, takeWhile_takeWhile]
    congr 1
    funext x
    rw [← Bool.decide_and, decide_eq_decide]
    simp only [List.map_cons, List.mem_cons, forall_eq_or_imp]

theorem resubscribeElement_bound {sc : Bool} {env : Env} {name : Bytes} {el : Node} :
    ∀ {l : List Sub} {s : State}, (∀ x ∈ l, x.element ≠ none ∧ x.chain ≠ none) →
      resubscribeElement sc env name el l s = .ok s := by
  intro l
  induction l with
  | nil => intro s _; rfl
  | cons x l ih =>
    intro s h
    unfold resubscribeElement
    rw [if_neg (fun hc => (h x (by simp)).1 hc.1)]
    exact ih (fun y hy => h y (by simp [hy]))

theorem regElement_ok {sc : Bool} {env : Env} {s : State} {name : Bytes} {type : Nat} {cb : Cb}
    (hi : Inv sc s) :
    regElement sc env s name type cb = .ok { s with tree := Element.insert s.tree name type cb } := by
  unfold regElement
  simp only
  split
  · rfl
  · exact resubscribeElement_bound hi.bound

theorem Inv.retree {sc : Bool} {s : State} (h : Inv sc s) (T : Tree) : Inv sc { s with tree := T } :=
  h.sublist (List.Sublist.refl _) rfl rfl

theorem addRow_inv {sc : Bool} {env : Env} {s s' : State} {t i : Nat} {a : Option Bytes} (hi : Inv sc s)
    (h : addRow sc env s t i a = .ok s') : Inv sc s' := by
  unfold addRow at h
  split at h
  · cases h; exact hi
  · split at h
    · cases h; exact hi
    next T row _ =>
      obtain ⟨s1, h1, h⟩ := res_bind_ok h
      obtain ⟨s2, h2, h⟩ := res_bind_ok h
      have hk := created_kept h1
      have hi1 := (hi.retree T).alike hk.subs hk.nextAddr hk.nextId
      exact (resubscribeRow_inv (hi1.frame (rowPolling_frame h2)) h).1

theorem delRow_inv {sc : Bool} {env : Env} {s s' : State} {r : Nat} (hi : Inv sc s)
    (h : delRow sc env s r = .ok s') : Inv sc s' := by
  unfold delRow at h
  split at h
  · cases h; exact hi
  · obtain ⟨s1, h1, h⟩ := res_bind_ok h
    obtain ⟨s2, h2, h⟩ := res_bind_ok h
    cases h
    exact (dropAll_ok (hi.frame (rowPolling_frame h1)) h2).2.2.2.2.2.2.retree _

theorem request_inv {sc : Bool} {env : Env} {s s' : State} {added : Bool} {k : Key} {r : Nat} (hi : Inv sc s)
    (h : request sc env s added k = .ok (s', r)) : Inv sc s' := by
  rcases request_cases h with ⟨rfl, _⟩ | ⟨el, _, h⟩
  · exact hi
  · cases added with
    | true => exact (impl_added h).inv hi
    | false => exact (impl_removed hi.addrs h).inv hi

theorem step_inv {sc : Bool} {s s' : State} {e : Op × Env} {o : Option Nat} (hi : Inv sc s)
    (h : step sc s e = .ok (s', o)) : Inv sc s' := by
  obtain ⟨op, env⟩ := e
  cases op with
  | subscribe k =>
    obtain ⟨⟨s1, r⟩, h1, h⟩ := res_bind_ok h
    cases h
    exact request_inv hi h1
  | unsubscribe k =>
    obtain ⟨⟨s1, r⟩, h1, h⟩ := res_bind_ok h
    cases h
    exact request_inv hi h1
  | disconnect l =>
    obtain ⟨s1, h1, h⟩ := res_bind_ok h
    cases h
    exact (disconnectFrom_inv hi h1).1
  | addRow t i a =>
    obtain ⟨s1, h1, h⟩ := res_bind_ok h
    cases h
    exact addRow_inv hi h1
  | delRow r =>
    obtain ⟨s1, h1, h⟩ := res_bind_ok h
    cases h
    exact delRow_inv hi h1
  | register n t cb =>
    obtain ⟨s1, h1, h⟩ := res_bind_ok h
    cases h
    rw [regElement_ok hi] at h1
    cases h1
    exact hi.retree _

theorem history_inv {sc : Bool} {h : List ((Op × Env) × Option Nat)} {s : State}
    (hh : Spec.Registry.History sc h s) : Inv sc s := by
  induction hh with
  | nil => constructor <;> simp [State.init]
  | snoc _ hs ih => exact step_inv ih hs

end Verif.Subs
