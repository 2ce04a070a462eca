import Verif.Spec.Messages
import Verif.Proof.Dispatch

/-!
# Invariants of message listeners
-/

namespace Verif.Messages

open Verif.Dispatch (Listener fill clear inTable fill_some clear_some clear_none lookup_eq)

/-- The context made for a listener. -/
def ctxOf (x : Held) : Ctx := ⟨x.topic, x.handler, x.user, x.id⟩

/-- The listeners of one connection. -/
def on (p : Bool) (held : List Held) : List Held := held.filter (fun x => x.priv = p)

/-- What the callback thread has found is what the message is for. -/
def HandOk (heap : List (Nat × Ctx)) : Option (Msg × Option Nat) → Option (Msg × For) → Prop
  | none, none => True
  | some (m, cb), some (m', w) => m = m' ∧ match w with
    | .listener x => ∃ a, cb = some (a + 1) ∧ (a, ctxOf x) ∈ heap
    | .connection => cb = some 0
    | .nobody => cb = none
  | _, _ => False

/-- One connection, the listeners it holds and its messages. -/
structure ConnInv (heap : List (Nat × Ctx)) (c : Conn) (held : List Held) (waiting : List Msg)
    (hand : Option (Msg × For)) (ids : List Nat) : Prop where
  sound : ∀ l ∈ inTable c.slots, (l.id = inboxId ∧ l.callback = 0) ∨
    ∃ x ∈ held, l.id = x.id ∧ ∃ a, l.callback = a + 1 ∧ (a, ctxOf x) ∈ heap
  complete : ∀ x ∈ held, ∃ l ∈ inTable c.slots, l.id = x.id ∧ ∃ a, l.callback = a + 1 ∧ (a, ctxOf x) ∈ heap
  nodup : ((inTable c.slots).map (·.id)).Nodup
  inbox : ∃ l ∈ inTable c.slots, l.id = inboxId
  ids : ∀ x ∈ held, x.id ≠ inboxId ∧ x.id ∈ ids
  hids : (held.map (·.id)).Nodup
  queue : c.queue = waiting
  hand : HandOk heap c.hand hand

theorem HandOk.mono {heap heap' : List (Nat × Ctx)} {a b} (h : HandOk heap a b)
    (hm : ∀ m x, b = some (m, .listener x) → ∀ k, (k, ctxOf x) ∈ heap → (k, ctxOf x) ∈ heap') :
    HandOk heap' a b := by
  cases a with
  | none => cases b with
    | none => trivial
    | some y => exact h.elim
  | some x =>
    obtain ⟨m, cb⟩ := x
    cases b with
    | none => exact h.elim
    | some y =>
      obtain ⟨m', w⟩ := y
      refine ⟨h.1, ?_⟩
      cases w with
      | listener x =>
        obtain ⟨k, h1, h2⟩ := h.2
        exact ⟨k, h1, hm m' x rfl k h2⟩
      | connection => exact h.2
      | nobody => exact h.2

/-- The heap may change as long as the contexts in use stay. -/
theorem ConnInv.heap {heap heap' c held w hd ids} (h : ConnInv heap c held w hd ids)
    (hm : ∀ x ∈ held, ∀ k, (k, ctxOf x) ∈ heap → (k, ctxOf x) ∈ heap')
    (hh : ∀ m x, hd = some (m, .listener x) → ∀ k, (k, ctxOf x) ∈ heap → (k, ctxOf x) ∈ heap') :
    ConnInv heap' c held w hd ids := by
  refine ⟨?_, ?_, h.nodup, h.inbox, h.ids, h.hids, h.queue, h.hand.mono hh⟩
  · intro l hl
    rcases h.sound l hl with h1 | ⟨x, hx, h1, a, h2, h3⟩
    · exact .inl h1
    · exact .inr ⟨x, hx, h1, a, h2, hm x hx a h3⟩
  · intro x hx
    obtain ⟨l, hl, h1, a, h2, h3⟩ := h.complete x hx
    exact ⟨l, hl, h1, a, h2, hm x hx a h3⟩

/-- A listener comes in. -/
theorem ConnInv.add {heap c held w hd ids} (h : ConnInv heap c held w hd ids) {x : Held} {a e t}
    (hf : fill ⟨x.id, e, a + 1⟩ c.slots = some t) (hin : (a, ctxOf x) ∈ heap)
    (h1 : x.id ≠ inboxId) (h2 : x.id ∉ ids) :
    ConnInv heap { c with slots := t } (held ++ [x]) w hd (ids ++ [x.id]) := by
  obtain ⟨-, hp⟩ := fill_some hf
  refine ⟨?_, ?_, ?_, ?_, ?_, ?_, h.queue, h.hand⟩
  · intro l hl
    rcases List.mem_cons.mp (hp.mem_iff.mp hl) with rfl | hl
    · exact .inr ⟨x, by simp, rfl, a, rfl, hin⟩
    · rcases h.sound l hl with hs | ⟨y, hy, hs⟩
      · exact .inl hs
      · exact .inr ⟨y, List.mem_append_left _ hy, hs⟩
  · intro y hy
    rcases List.mem_append.mp hy with hy | hy
    · obtain ⟨l, hl, hr⟩ := h.complete y hy
      exact ⟨l, hp.mem_iff.mpr (List.mem_cons_of_mem _ hl), hr⟩
    · rw [List.mem_singleton] at hy
      subst hy
      exact ⟨_, hp.mem_iff.mpr List.mem_cons_self, rfl, a, rfl, hin⟩
  · refine (hp.map (·.id)).nodup_iff.mpr ?_
    rw [List.map_cons, List.nodup_cons]
    refine ⟨?_, h.nodup⟩
    intro hm
    obtain ⟨l, hl, he⟩ := List.mem_map.mp hm
    rcases h.sound l hl with hs | ⟨y, hy, hs, -⟩
    · exact h1 (by rw [← hs.1]; exact he.symm)
    · have := (h.ids y hy).2
      rw [← hs, he] at this
      exact h2 this
  · obtain ⟨l, hl, hr⟩ := h.inbox
    exact ⟨l, hp.mem_iff.mpr (List.mem_cons_of_mem _ hl), hr⟩
  · intro y hy
    rcases List.mem_append.mp hy with hy | hy
    · exact ⟨(h.ids y hy).1, List.mem_append_left _ (h.ids y hy).2⟩
    · rw [List.mem_singleton] at hy
      subst hy
      exact ⟨h1, by simp⟩
  · rw [List.map_append, List.nodup_append]
    refine ⟨h.hids, by simp, ?_⟩
    intro i hi j hj
    obtain ⟨y, hy, rfl⟩ := List.mem_map.mp hi
    simp only [List.map_cons, List.map_nil, List.mem_singleton] at hj
    subst hj
    intro he
    exact h2 (he ▸ (h.ids y hy).2)

/-- A listener goes. -/
theorem ConnInv.remove {heap c held w hd ids} (h : ConnInv heap c held w hd ids) {id : Nat} {t i}
    (hc : clear (fun l => l.id = id) c.slots = some (t, i)) (h1 : id ≠ inboxId) :
    ConnInv heap { c with slots := t } (held.filter (fun x => x.id ≠ id)) w hd ids := by
  obtain ⟨-, k, hk, hp, -, hperm⟩ := clear_some hc
  have hkid : k.id = id := by simpa using hp
  have hnd : (k.id :: (inTable t).map (·.id)).Nodup := by
    have := (hperm.map (·.id)).nodup_iff.mp h.nodup
    simpa using this
  rw [List.nodup_cons] at hnd
  have hmem : ∀ l, l ∈ inTable t ↔ (l ∈ inTable c.slots ∧ l.id ≠ id) := by
    intro l
    constructor
    · intro hl
      refine ⟨hperm.mem_iff.mpr (List.mem_cons_of_mem _ hl), ?_⟩
      intro he
      exact hnd.1 (List.mem_map.mpr ⟨l, hl, he.trans hkid.symm⟩)
    · rintro ⟨hl, hne⟩
      rcases List.mem_cons.mp (hperm.mem_iff.mp hl) with rfl | hl
      · exact (hne hkid).elim
      · exact hl
  refine ⟨?_, ?_, hnd.2, ?_, ?_, ?_, h.queue, h.hand⟩
  · intro l hl
    obtain ⟨hl, hne⟩ := (hmem l).mp hl
    rcases h.sound l hl with hs | ⟨y, hy, hs, hr⟩
    · exact .inl hs
    · exact .inr ⟨y, List.mem_filter.mpr ⟨hy, by simpa [← hs] using hne⟩, hs, hr⟩
  · intro y hy
    obtain ⟨hy, hne⟩ := List.mem_filter.mp hy
    obtain ⟨l, hl, hs, hr⟩ := h.complete y hy
    exact ⟨l, (hmem l).mpr ⟨hl, by simpa [hs] using hne⟩, hs, hr⟩
  · obtain ⟨l, hl, hs⟩ := h.inbox
    exact ⟨l, (hmem l).mpr ⟨hl, by rw [hs]; exact fun e => h1 e.symm⟩, hs⟩
  · intro y hy
    exact h.ids y (List.mem_filter.mp hy).1
  · exact h.hids.sublist (List.filter_sublist.map _)

theorem find_nodup {t : List Listener} (hn : (t.map (·.id)).Nodup) {l : Listener} (hl : l ∈ t) :
    t.find? (fun k => k.id = l.id) = some l := by
  induction t with
  | nil => simp at hl
  | cons k r ih =>
    rw [List.map_cons, List.nodup_cons] at hn
    rw [List.find?_cons]
    rcases List.mem_cons.mp hl with rfl | hl
    · simp
    · have : k.id ≠ l.id := fun e => hn.1 (List.mem_map.mpr ⟨l, hl, e.symm⟩)
      simp only [this, decide_false]
      exact ih hn.2 hl

/-- Looking up a message finds what it is for. -/
theorem ConnInv.lookup {heap c held w hd ids} (h : ConnInv heap c held w hd ids) (m : Msg)
    {all : List Held} {p : Bool} (hall : held = on p all) :
    match whom all p m with
    | .listener x => x ∈ held ∧ x.id = m.control ∧
        ∃ a, Dispatch.lookup m.control c.slots = some (a + 1) ∧ (a, ctxOf x) ∈ heap
    | .connection => Dispatch.lookup m.control c.slots = some 0
    | .nobody => Dispatch.lookup m.control c.slots = none := by
  have hget : ∀ l ∈ inTable c.slots, Dispatch.lookup l.id c.slots = some l.callback := by
    intro l hl
    rw [lookup_eq, find_nodup h.nodup hl]; rfl
  unfold whom
  by_cases hi : m.control = inboxId
  · rw [if_pos hi]
    obtain ⟨l, hl, hs⟩ := h.inbox
    have hg := hget l hl
    rw [hs, ← hi] at hg
    rcases h.sound l hl with hr | ⟨y, hy, hr, -⟩
    · rw [hr.2] at hg; exact hg
    · exact ((h.ids y hy).1 (hr ▸ hs)).elim
  · rw [if_neg hi]
    cases hx : all.find? (fun x => x.priv = p ∧ x.id = m.control) with
    | some x =>
      have hx1 := List.find?_some hx
      have hx2 := List.mem_of_find?_eq_some hx
      simp only [decide_eq_true_eq] at hx1
      have hmem : x ∈ held := hall ▸ List.mem_filter.mpr ⟨hx2, by simpa using hx1.1⟩
      obtain ⟨l, hl, hs, a, h2, h3⟩ := h.complete x hmem
      refine ⟨hmem, hx1.2, a, ?_, h3⟩
      have hg := hget l hl
      rw [hs, hx1.2, h2] at hg
      exact hg
    | none =>
      show Dispatch.lookup m.control c.slots = none
      cases hl : Dispatch.lookup m.control c.slots with
      | none => rfl
      | some cb =>
        rw [lookup_eq] at hl
        cases hf : (inTable c.slots).find? (fun l => l.id = m.control) with
        | none => rw [hf] at hl; cases hl
        | some l =>
          have hl1 := List.find?_some hf
          have hl2 := List.mem_of_find?_eq_some hf
          simp only [decide_eq_true_eq] at hl1
          rcases h.sound l hl2 with hr | ⟨y, hy, hr, -⟩
          · exact (hi (hl1 ▸ hr.1)).elim
          · rw [hall] at hy
            obtain ⟨hy1, hy2⟩ := List.mem_filter.mp hy
            have := List.find?_eq_none.mp hx y hy1
            simp only [decide_eq_true_eq, not_and] at this
            exact (this (by simpa using hy2) (hr ▸ hl1)).elim

theorem after_snoc (h : History) (x) : after (h ++ [x]) = see (after h) x := by
  simp [after, List.foldl_append]

theorem Careful.init {inbox h x} (hc : Careful inbox (h ++ [x])) : Careful inbox h := by
  intro a e o b hab
  exact hc a e o (b ++ [x]) (by rw [hab]; simp)

theorem Careful.last {inbox h e o} (hc : Careful inbox (h ++ [(e, o)])) : Allowed inbox (after h) e :=
  hc h e o [] rfl

/-- One of the two connections. -/
def conn (s : State) (p : Bool) : Conn := if p = true then s.priv else s.main

structure Inv (inbox : Bytes) (v : View) (s : State) : Prop where
  keys : (s.heap.map (·.1)).Nodup
  fresh : ∀ x ∈ s.heap, x.1 < s.next
  vecIn : ∀ a ∈ s.vec, ∃ c, (a, c) ∈ s.heap
  vecNodup : s.vec.Nodup
  conns : ∀ p, ConnInv s.heap (conn s p) (on p v.held) (v.waiting p) (v.hand p) (v.ids p)
  topics : (v.held.map (·.topic)).Nodup
  inboxTopic : ∀ x ∈ v.held, x.priv = false → x.topic ≠ inbox
  routes : s.routes = (inbox, inboxId) :: (on false v.held).map (fun x => (x.topic, x.id))
  aliases : s.aliases = []
  queueOk : ∀ m ∈ v.waiting false, (m.control = inboxId ∧ m.topic = inbox) ∨
    (m.control ∈ v.ids false ∧ ∀ x ∈ v.held, x.priv = false → x.id = m.control → x.topic = m.topic)
  handTopic : ∀ m x, v.hand false = some (m, .listener x) → x.topic = m.topic

theorem ctxAt_of_mem {s : State} (hk : (s.heap.map (·.1)).Nodup) {a c} (h : (a, c) ∈ s.heap) :
    ctxAt s a = .ok c := by
  have : s.heap.find? (fun x => x.1 = a) = some (a, c) := by
    revert hk h
    generalize s.heap = l
    induction l with
    | nil => simp
    | cons y r ih =>
      intro hk h
      rw [List.map_cons, List.nodup_cons] at hk
      rw [List.find?_cons]
      rcases List.mem_cons.mp h with h | h
      · subst h; simp
      · have : y.1 ≠ a := fun e => hk.1 (List.mem_map.mpr ⟨(a, c), h, e.symm⟩)
        simp only [this, decide_false]
        exact ih hk.2 h
  simp [ctxAt, this]

theorem key_unique {heap : List (Nat × Ctx)} (hk : (heap.map (·.1)).Nodup) {a c c'}
    (h : (a, c) ∈ heap) (h' : (a, c') ∈ heap) : c = c' := by
  have h1 := ctxAt_of_mem (s := { init [] [] with heap := heap }) hk h
  have h2 := ctxAt_of_mem (s := { init [] [] with heap := heap }) hk h'
  rw [h1] at h2
  exact Res.ok.inj h2

theorem takeFirst_ok {s : State} (hk : (s.heap.map (·.1)).Nodup) (e : Bytes) (v : List Nat)
    (hv : ∀ a ∈ v, ∃ c, (a, c) ∈ s.heap) (hn : v.Nodup) :
    (takeFirst s e v = .ok (v, none) ∧ ∀ a ∈ v, ∀ c, (a, c) ∈ s.heap → c.expr ≠ e) ∨
    ∃ a c, a ∈ v ∧ (a, c) ∈ s.heap ∧ c.expr = e ∧ takeFirst s e v = .ok (v.filter (fun b => b ≠ a), some a) := by
  induction v with
  | nil => exact .inl ⟨rfl, by simp⟩
  | cons a r ih =>
    obtain ⟨c, hc⟩ := hv a (by simp)
    rw [List.nodup_cons] at hn
    have hfil : (a :: r).filter (fun b => b ≠ a) = r := by
      rw [List.filter_cons_of_neg (by simp)]
      refine List.filter_eq_self.mpr ?_
      intro b hb
      simp only [decide_eq_true_eq]
      exact fun e => hn.1 (e ▸ hb)
    simp only [takeFirst, ctxAt_of_mem hk hc, Res.ok_bind]
    by_cases he : c.expr = e
    · right
      refine ⟨a, c, by simp, hc, he, ?_⟩
      rw [hfil]
      simp [he, Res.pure_eq]
    · rcases ih (fun b hb => hv b (List.mem_cons_of_mem _ hb)) hn.2 with ⟨h1, h2⟩ | ⟨b, c', hb, h1, h2, h3⟩
      · left
        simp only [he, h1, if_false, Res.ok_bind, Res.pure_eq, true_and]
        intro b hb c' hc'
        rcases List.mem_cons.mp hb with rfl | hb
        · exact key_unique hk hc hc' ▸ he
        · exact h2 b hb c' hc'
      · right
        refine ⟨b, c', List.mem_cons_of_mem _ hb, h1, h2, ?_⟩
        have hab : a ≠ b := fun e => hn.1 (e ▸ hb)
        rw [List.filter_cons_of_pos (by simpa using hab)]
        simp only [he, h3, if_false, Res.ok_bind, Res.pure_eq]

/-- What removing a context by expression does. -/
theorem dropCtx_ok {s : State} (hk : (s.heap.map (·.1)).Nodup) (e : Bytes)
    (hv : ∀ a ∈ s.vec, ∃ c, (a, c) ∈ s.heap) (hn : s.vec.Nodup) :
    ∃ heap vec, dropCtx s e = .ok { s with heap := heap, vec := vec } ∧
      heap.Sublist s.heap ∧ vec.Sublist s.vec ∧ (∀ a ∈ vec, ∃ c, (a, c) ∈ heap) ∧
      (∀ a c, (a, c) ∈ s.heap → c.expr ≠ e → (a, c) ∈ heap) ∧
      ((heap = s.heap ∧ vec = s.vec ∧ ∀ a ∈ s.vec, ∀ c, (a, c) ∈ s.heap → c.expr ≠ e) ∨
        ∃ a c, (a, c) ∈ s.heap ∧ c.expr = e ∧ heap = s.heap.filter (fun x => x.1 ≠ a) ∧
          vec = s.vec.filter (fun b => b ≠ a)) := by
  rcases takeFirst_ok hk e s.vec hv hn with ⟨h1, h2⟩ | ⟨a, c, ha, h1, h2, h3⟩
  · refine ⟨s.heap, s.vec, by simp [dropCtx, h1, Res.pure_eq], List.Sublist.refl _, List.Sublist.refl _, hv,
      fun a c h _ => h, .inl ⟨rfl, rfl, h2⟩⟩
  · refine ⟨s.heap.filter (fun x => x.1 ≠ a), s.vec.filter (fun b => b ≠ a),
      by simp [dropCtx, h3, Res.pure_eq, freeCtx], List.filter_sublist, List.filter_sublist, ?_, ?_,
      .inr ⟨a, c, h1, h2, rfl, rfl⟩⟩
    · intro b hb
      obtain ⟨hb, hne⟩ := List.mem_filter.mp hb
      obtain ⟨d, hd⟩ := hv b hb
      exact ⟨d, List.mem_filter.mpr ⟨hd, hne⟩⟩
    · intro b d hd hne
      refine List.mem_filter.mpr ⟨hd, ?_⟩
      simp only [decide_eq_true_eq]
      rintro rfl
      exact hne (key_unique hk hd h1 ▸ h2)

theorem put_same {α : Type} (f : Bool → α) (p : Bool) (a : α) : put f p a p = a := by simp [put]

theorem put_other {α : Type} (f : Bool → α) {p q : Bool} (a : α) (h : q ≠ p) : put f p a q = f q := by
  simp [put, h]

theorem put_self {α : Type} (f : Bool → α) (p : Bool) : put f p (f p) = f := by
  funext q
  by_cases h : q = p
  · subst h; exact put_same _ _ _
  · exact put_other _ _ h

theorem on_append (p : Bool) (l : List Held) (x : Held) :
    on p (l ++ [x]) = on p l ++ (if x.priv = p then [x] else []) := by
  simp only [on, List.filter_append]
  congr 1
  by_cases h : x.priv = p <;> simp [h]

theorem on_filter (p q : Bool) (l : List Held) (id : Nat) :
    on q (l.filter (fun x => ¬ (x.priv = p ∧ x.id = id)))
      = if q = p then (on p l).filter (fun x => x.id ≠ id) else on q l := by
  simp only [on, List.filter_filter]
  by_cases h : q = p
  · subst h
    rw [if_pos rfl]
    congr 1
    funext x
    by_cases h1 : x.priv = q <;> simp [h1]
  · rw [if_neg h]
    refine List.filter_congr ?_
    intro x _
    by_cases h1 : x.priv = q
    · have h2 : x.priv ≠ p := fun e => h (h1.symm.trans e)
      simp [h1, h]
    · simp [h1]

/-- A context more. -/
theorem Inv.newCtx {inbox v s} (hi : Inv inbox v s) (c : Ctx) : Inv inbox v (newCtx s c) where
  keys := by
    simp only [Messages.newCtx, List.map_append, List.map_cons, List.map_nil]
    rw [List.nodup_append]
    refine ⟨hi.keys, by simp, ?_⟩
    intro a ha b hb
    obtain ⟨x, hx, rfl⟩ := List.mem_map.mp ha
    rw [List.mem_singleton] at hb
    have := hi.fresh x hx
    omega
  fresh := by
    intro x hx
    rcases List.mem_append.mp hx with hx | hx
    · have := hi.fresh x hx
      exact Nat.lt_succ_of_lt this
    · rw [List.mem_singleton] at hx
      subst hx
      exact Nat.lt_succ_self _
  vecIn := by
    intro a ha
    rcases List.mem_append.mp ha with ha | ha
    · obtain ⟨d, hd⟩ := hi.vecIn a ha
      exact ⟨d, List.mem_append_left _ hd⟩
    · rw [List.mem_singleton] at ha
      subst ha
      exact ⟨c, List.mem_append_right _ (by simp)⟩
  vecNodup := by
    simp only [Messages.newCtx]
    rw [List.nodup_append]
    refine ⟨hi.vecNodup, by simp, ?_⟩
    intro a ha b hb
    rw [List.mem_singleton] at hb
    obtain ⟨d, hd⟩ := hi.vecIn a ha
    have := hi.fresh _ hd
    simp only at this
    omega
  conns := fun p => (hi.conns p).heap (fun _ _ _ h => List.mem_append_left _ h)
    (fun _ _ _ _ h => List.mem_append_left _ h)
  topics := hi.topics
  inboxTopic := hi.inboxTopic
  routes := hi.routes
  aliases := hi.aliases
  queueOk := hi.queueOk
  handTopic := hi.handTopic

/-- A listener more on a connection, its context being there. -/
theorem Inv.listen {inbox v s} (hi : Inv inbox v s) {x : Held} {a e t}
    (hf : fill ⟨x.id, e, a + 1⟩ (conn s x.priv).slots = some t) (hin : (a, ctxOf x) ∈ s.heap)
    (h1 : x.id ≠ inboxId) (h2 : x.id ∉ v.ids x.priv) (h3 : x.priv = false → x.topic ≠ inbox)
    (h4 : ∀ y ∈ v.held, y.topic ≠ x.topic) {s' : State}
    (hs : s'.heap = s.heap ∧ s'.next = s.next ∧ s'.vec = s.vec ∧ s'.aliases = s.aliases)
    (hc : conn s' x.priv = { conn s x.priv with slots := t })
    (hc' : conn s' (!x.priv) = conn s (!x.priv))
    (hr : s'.routes = s.routes ++ (if x.priv = false then [(x.topic, x.id)] else [])) :
    Inv inbox { v with held := v.held ++ [x], ids := put v.ids x.priv (v.ids x.priv ++ [x.id]) } s' where
  keys := hs.1 ▸ hi.keys
  fresh := by rw [hs.1, hs.2.1]; exact hi.fresh
  vecIn := by rw [hs.1, hs.2.2.1]; exact hi.vecIn
  vecNodup := by rw [hs.2.2.1]; exact hi.vecNodup
  conns := by
    intro p
    rw [hs.1]
    show ConnInv s.heap (conn s' p) (on p (v.held ++ [x])) _ _ (put v.ids x.priv (v.ids x.priv ++ [x.id]) p)
    by_cases hp : p = x.priv
    · subst hp
      rw [hc, on_append, if_pos rfl, put_same]
      exact (hi.conns x.priv).add hf hin h1 h2
    · have hp' : p = !x.priv := by cases p <;> cases h : x.priv <;> simp_all
      rw [on_append, if_neg (fun e => hp e.symm), put_other _ _ hp, List.append_nil]
      rw [hp', hc']
      exact hi.conns _
  topics := by
    show ((v.held ++ [x]).map (·.topic)).Nodup
    rw [List.map_append, List.nodup_append]
    refine ⟨hi.topics, by simp, ?_⟩
    intro a ha b hb
    obtain ⟨y, hy, rfl⟩ := List.mem_map.mp ha
    simp only [List.map_cons, List.map_nil, List.mem_singleton] at hb
    subst hb
    exact h4 y hy
  inboxTopic := by
    intro y hy
    rcases List.mem_append.mp hy with hy | hy
    · exact hi.inboxTopic y hy
    · rw [List.mem_singleton] at hy
      subst hy
      exact h3
  routes := by
    rw [hr, hi.routes, on_append]
    by_cases h : x.priv = false <;> simp [h]
  aliases := by rw [hs.2.2.2]; exact hi.aliases
  queueOk := by
    intro m hm
    rcases hi.queueOk m hm with h | ⟨h5, h6⟩
    · exact .inl h
    · right
      constructor
      · show m.control ∈ put v.ids x.priv (v.ids x.priv ++ [x.id]) false
        by_cases hp : false = x.priv
        · rw [← hp, put_same]
          exact List.mem_append_left _ h5
        · rw [put_other _ _ hp]; exact h5
      · intro y hy hy1 hy2
        rcases List.mem_append.mp hy with hy | hy
        · exact h6 y hy hy1 hy2
        · rw [List.mem_singleton] at hy
          subst hy
          rw [hy1] at h2
          exact (h2 (hy2 ▸ h5)).elim
  handTopic := hi.handTopic

/-- A listener less. -/
theorem Inv.unlisten {inbox v s} (hi : Inv inbox v s) {x : Held} (hx : x ∈ v.held) {t i e}
    (hf : clear (fun l => l.id = x.id) (conn s x.priv).slots = some (t, i)) {s' : State}
    (he : ∀ y ∈ v.held, ¬ (y.priv = x.priv ∧ y.id = x.id) → y.topic ≠ e)
    (hh : NotInHand v e)
    (hs : s'.next = s.next ∧ s'.aliases = s.aliases)
    (hheap : s'.heap.Sublist s.heap) (hvec : s'.vec.Sublist s.vec)
    (hin : ∀ a ∈ s'.vec, ∃ c, (a, c) ∈ s'.heap)
    (hkeep : ∀ a c, (a, c) ∈ s.heap → c.expr ≠ e → (a, c) ∈ s'.heap)
    (hc : conn s' x.priv = { conn s x.priv with slots := t })
    (hc' : conn s' (!x.priv) = conn s (!x.priv))
    (hr : s'.routes = if x.priv = false then s.routes.filter (fun r => r.2 ≠ x.id) else s.routes) :
    Inv inbox { v with held := v.held.filter (fun y => ¬ (y.priv = x.priv ∧ y.id = x.id)) } s' where
  keys := hi.keys.sublist (hheap.map _)
  fresh := by rw [hs.1]; exact fun y hy => hi.fresh y (hheap.subset hy)
  vecIn := hin
  vecNodup := hi.vecNodup.sublist hvec
  conns := by
    intro p
    show ConnInv s'.heap (conn s' p) (on p (v.held.filter (fun y => ¬ (y.priv = x.priv ∧ y.id = x.id)))) _ _ _
    have hid : x.id ≠ inboxId := ((hi.conns x.priv).ids x (List.mem_filter.mpr ⟨hx, by simp⟩)).1
    have key : ConnInv s.heap (conn s' p)
        (on p (v.held.filter (fun y => ¬ (y.priv = x.priv ∧ y.id = x.id)))) (v.waiting p) (v.hand p) (v.ids p) := by
      rw [on_filter]
      by_cases hp : p = x.priv
      · subst hp
        rw [if_pos rfl, hc]
        exact (hi.conns x.priv).remove hf hid
      · have hp' : p = !x.priv := by cases p <;> cases h : x.priv <;> simp_all
        rw [if_neg hp, hp', hc']
        exact hi.conns _
    refine key.heap ?_ ?_
    · intro y hy k hk
      have hy := List.mem_filter.mp (List.mem_filter.mp hy).1
      exact hkeep k _ hk (he y hy.1 (of_decide_eq_true hy.2))
    · intro m y hy k hk
      exact hkeep k _ hk (hh p m y hy)
  topics := hi.topics.sublist (List.filter_sublist.map _)
  inboxTopic := fun y hy => hi.inboxTopic y (List.mem_filter.mp hy).1
  routes := by
    show s'.routes = _ :: (on false (v.held.filter (fun y => ¬ (y.priv = x.priv ∧ y.id = x.id)))).map _
    have hid : x.id ≠ inboxId := ((hi.conns x.priv).ids x (List.mem_filter.mpr ⟨hx, by simp⟩)).1
    rw [hr, hi.routes, on_filter]
    by_cases h : x.priv = false
    · rw [if_pos h, if_pos h.symm, List.filter_cons_of_pos (by simpa using fun e : inboxId = x.id => hid e.symm),
        List.filter_map, h]
      rfl
    · rw [if_neg h, if_neg (fun e => h e.symm)]
  aliases := by rw [hs.2]; exact hi.aliases
  queueOk := by
    intro m hm
    rcases hi.queueOk m hm with h | ⟨h5, h6⟩
    · exact .inl h
    · exact .inr ⟨h5, fun y hy => h6 y (List.mem_filter.mp hy).1⟩
  handTopic := hi.handTopic

theorem enqueue_spec (c : Conn) (ms : List Msg) :
    (enqueue c ms).1 = { c with queue := c.queue ++ (enqueue c ms).2.1 } ∧ (enqueue c ms).2.1.Sublist ms ∧
    (enqueue c ms).2.1.length + (enqueue c ms).2.2 = ms.length := by
  induction ms generalizing c with
  | nil => simp [enqueue]
  | cons m ms ih =>
    simp only [enqueue]
    split
    · obtain ⟨h1, h2, h3⟩ := ih c
      refine ⟨h1, h2.cons _, ?_⟩
      simp only [List.length_cons]
      omega
    · obtain ⟨h1, h2, h3⟩ := ih { c with queue := c.queue ++ [m] }
      refine ⟨?_, h2.cons₂ _, ?_⟩
      · simp only [h1, List.append_assoc, List.cons_append, List.nil_append]
      · simp only [List.length_cons]
        omega

theorem targets_eq {inbox v s} (hi : Inv inbox v s) (t : Bytes) :
    targets s t = (if inbox = t then [inboxId] else []) ++
      ((on false v.held).filter (fun x => x.topic = t)).map (·.id) := by
  simp only [targets, hi.routes, hi.aliases, List.filter_nil, List.map_nil, List.append_nil]
  rw [List.filter_cons, List.filter_map, ]
  by_cases h : inbox = t
  · simp [h, Function.comp_def]
  · simp [h, Function.comp_def]

/-- The state of the connections and messages changes only. -/
theorem Inv.messages {inbox v s} (hi : Inv inbox v s) {p : Bool} {c : Conn} {w : List Msg}
    {hd : Option (Msg × For)} {s' : State}
    (hc : ConnInv s.heap c (on p v.held) w hd (v.ids p))
    (hs : s'.heap = s.heap ∧ s'.next = s.next ∧ s'.vec = s.vec ∧ s'.aliases = s.aliases ∧ s'.routes = s.routes)
    (h1 : conn s' p = c) (h2 : conn s' (!p) = conn s (!p))
    (hq : p = false → ∀ m ∈ w, m ∈ v.waiting false ∨ (m.control = inboxId ∧ m.topic = inbox) ∨
      (m.control ∈ v.ids false ∧ ∀ x ∈ v.held, x.priv = false → x.id = m.control → x.topic = m.topic))
    (hh : p = false → ∀ m x, hd = some (m, .listener x) → x.topic = m.topic) :
    Inv inbox { v with waiting := put v.waiting p w, hand := put v.hand p hd } s' where
  keys := hs.1 ▸ hi.keys
  fresh := by rw [hs.1, hs.2.1]; exact hi.fresh
  vecIn := by rw [hs.1, hs.2.2.1]; exact hi.vecIn
  vecNodup := by rw [hs.2.2.1]; exact hi.vecNodup
  conns := by
    intro q
    rw [hs.1]
    show ConnInv s.heap (conn s' q) (on q v.held) (put v.waiting p w q) (put v.hand p hd q) (v.ids q)
    by_cases hp : q = p
    · subst hp
      rw [put_same, put_same, h1]
      exact hc
    · have hp' : q = !p := by cases q <;> cases p <;> simp_all
      rw [put_other _ _ hp, put_other _ _ hp, hp', h2]
      exact hi.conns _
  topics := hi.topics
  inboxTopic := hi.inboxTopic
  routes := by rw [hs.2.2.2.2]; exact hi.routes
  aliases := by rw [hs.2.2.2.1]; exact hi.aliases
  queueOk := by
    intro m hm
    change m ∈ put v.waiting p w false at hm
    by_cases hp : false = p
    · subst hp
      rw [put_same] at hm
      rcases hq rfl m hm with h | h
      · exact hi.queueOk m h
      · exact h
    · rw [put_other _ _ hp] at hm
      exact hi.queueOk m hm
  handTopic := by
    intro m x hx
    change put v.hand p hd false = _ at hx
    by_cases hp : false = p
    · subst hp
      rw [put_same] at hx
      exact hh rfl m x hx
    · rw [put_other _ _ hp] at hx
      exact hi.handTopic m x hx

theorem clear_held {inbox v s} (hi : Inv inbox v s) {x : Held} (hx : x ∈ v.held) :
    ∃ t i, clear (fun l => l.id = x.id) (conn s x.priv).slots = some (t, i) := by
  cases h : clear (fun l => l.id = x.id) (conn s x.priv).slots with
  | some r => exact ⟨r.1, r.2, rfl⟩
  | none =>
    obtain ⟨l, hl, h1, -⟩ := (hi.conns x.priv).complete x (List.mem_filter.mpr ⟨hx, by simp⟩)
    have := clear_none h l hl
    simp [h1] at this

/-- Two listeners with one topic are one. -/
theorem held_topic {inbox v s} (hi : Inv inbox v s) {x y : Held} (hx : x ∈ v.held) (hy : y ∈ v.held)
    (h : x.topic = y.topic) : x = y := by
  have hn := hi.topics
  revert hx hy hn
  generalize v.held = l
  induction l with
  | nil => simp
  | cons z r ih =>
    intro hx hy hn
    rw [List.map_cons, List.nodup_cons] at hn
    rcases List.mem_cons.mp hx with hx1 | hx1 <;> rcases List.mem_cons.mp hy with hy1 | hy1
    · exact hx1.trans hy1.symm
    · exact (hn.1 (List.mem_map.mpr ⟨y, hy1, by rw [← hx1]; exact h.symm⟩)).elim
    · exact (hn.1 (List.mem_map.mpr ⟨x, hx1, by rw [← hy1]; exact h⟩)).elim
    · exact ih hx1 hy1 hn.2

/-- Two listeners of one connection with one id are one. -/
theorem held_id {inbox v s} (hi : Inv inbox v s) {x y : Held} (hx : x ∈ v.held) (hy : y ∈ v.held)
    (hp : x.priv = y.priv) (h : x.id = y.id) : x = y := by
  have hn := (hi.conns y.priv).hids
  have hx' : x ∈ on y.priv v.held := List.mem_filter.mpr ⟨hx, by simpa using hp⟩
  have hy' : y ∈ on y.priv v.held := List.mem_filter.mpr ⟨hy, by simp⟩
  revert hx' hy' hn
  generalize on y.priv v.held = l
  induction l with
  | nil => simp
  | cons z r ih =>
    intro hn hx hy
    rw [List.map_cons, List.nodup_cons] at hn
    rcases List.mem_cons.mp hx with hx1 | hx1 <;> rcases List.mem_cons.mp hy with hy1 | hy1
    · exact hx1.trans hy1.symm
    · exact (hn.1 (List.mem_map.mpr ⟨y, hy1, by rw [← hx1]; exact h.symm⟩)).elim
    · exact (hn.1 (List.mem_map.mpr ⟨x, hx1, by rw [← hy1]; exact h⟩)).elim
    · exact ih hn.2 hx1 hy1

theorem hasListener_ok {s : State} (hk : (s.heap.map (·.1)).Nodup) (e : Bytes) (v : List Nat)
    (hv : ∀ a ∈ v, ∃ c, (a, c) ∈ s.heap) :
    ∃ b, hasListener s e v = .ok b ∧ (b = true ↔ ∃ a ∈ v, ∃ c, (a, c) ∈ s.heap ∧ c.expr = e) := by
  induction v with
  | nil => exact ⟨false, rfl, by simp⟩
  | cons a r ih =>
    obtain ⟨c, hc⟩ := hv a (by simp)
    simp only [hasListener, ctxAt_of_mem hk hc, Res.ok_bind]
    by_cases he : c.expr = e
    · exact ⟨true, by simp [he, Res.pure_eq], by simpa using .inl ⟨c, hc, he⟩⟩
    · obtain ⟨b, h1, h2⟩ := ih (fun b hb => hv b (List.mem_cons_of_mem _ hb))
      refine ⟨b, by simp [he, h1], ?_⟩
      rw [h2]
      constructor
      · rintro ⟨k, hk', hr⟩
        exact ⟨k, List.mem_cons_of_mem _ hk', hr⟩
      · rintro ⟨k, hk', d, hd, hr⟩
        rcases List.mem_cons.mp hk' with rfl | hk'
        · exact (he (key_unique hk hc hd ▸ hr)).elim
        · exact ⟨k, hk', d, hd, hr⟩

/-- What is seen of a step. -/
def OutOk (v : View) (inbox : Bytes) : Op → Out → Prop
  | .remove _ _, o => o = .success
  | .publish t b, o => ∃ ms d, o = .queued ms d ∧ (t ≠ inbox →
      (∀ x ∈ v.held, x.priv = false → x.topic = t →
        ((v.waiting false).length ≤ 25 ∧ ms = [⟨x.id, t, b⟩] ∧ d = 0) ∨
        (25 < (v.waiting false).length ∧ ms = [] ∧ d = 1)) ∧
      ((∀ x ∈ v.held, x.priv = false → x.topic ≠ t) → ms = [] ∧ d = 0))
  | .look p, o => ∃ m r, o = .looked m ∧ v.waiting p = m :: r
  | .call p, o => ∃ x, v.hand p = some x ∧ o = callFor x
  | _, _ => True

theorem call_ok {inbox v s} (hi : Inv inbox v s) (p : Bool) :
    (v.hand p = none ∧ call s (conn s p) = .fail) ∨
    ∃ x, v.hand p = some x ∧ call s (conn s p) = .ok (callFor x) := by
  have h := (hi.conns p).hand
  unfold call
  cases h1 : (conn s p).hand with
  | none =>
    rw [h1] at h
    cases h2 : v.hand p with
    | none => exact .inl ⟨rfl, rfl⟩
    | some y => rw [h2] at h; exact h.elim
  | some y =>
    obtain ⟨m, cb⟩ := y
    rw [h1] at h
    cases h2 : v.hand p with
    | none => rw [h2] at h; exact h.elim
    | some z =>
      obtain ⟨m', w⟩ := z
      rw [h2] at h
      obtain ⟨rfl, h⟩ := h
      right
      refine ⟨_, rfl, ?_⟩
      cases w with
      | listener x =>
        obtain ⟨a, rfl, h⟩ := h
        simp [ctxAt_of_mem hi.keys h, callFor, ctxOf, Res.pure_eq]
      | connection => simp only at h; subst h; rfl
      | nobody => simp only at h; subst h; rfl

theorem filter_topic_eq {inbox v s} (hi : Inv inbox v s) {x : Held} (hx : x ∈ v.held) (hp : x.priv = false) :
    (on false v.held).filter (fun y => y.topic = x.topic) = [x] := by
  have hn : ((on false v.held).map (·.topic)).Nodup := hi.topics.sublist (List.filter_sublist.map _)
  have hx : x ∈ on false v.held := List.mem_filter.mpr ⟨hx, by simpa using hp⟩
  revert hx hn
  generalize on false v.held = l
  induction l with
  | nil => simp
  | cons z r ih =>
    intro hn hx
    rw [List.map_cons, List.nodup_cons] at hn
    rcases List.mem_cons.mp hx with rfl | hx
    · rw [List.filter_cons_of_pos (by simp)]
      congr 1
      refine List.filter_eq_nil_iff.mpr ?_
      intro y hy
      simp only [decide_eq_true_eq]
      exact fun e => hn.1 (List.mem_map.mpr ⟨y, hy, e⟩)
    · have : z.topic ≠ x.topic := fun e => hn.1 (List.mem_map.mpr ⟨x, hx, e.symm⟩)
      rw [List.filter_cons_of_neg (by simpa using this)]
      exact ih hn.2 hx

theorem step_add {inbox v s} (hi : Inv inbox v s) {e h u id} (ha : Allowed inbox v (.add e h u id)) :
    Inv inbox (see v (.add e h u id, (addListener s e h u id).2)) (addListener s e h u id).1 := by
  have hn := hi.newCtx ⟨e, h, u, id⟩
  obtain ⟨h1, h2, h3, h4⟩ := ha
  unfold addListener
  cases hf : fill ⟨id, e, s.next + 1⟩ s.main.slots with
  | none => exact hn
  | some t =>
    have hany : s.routes.any (fun r => r.2 = id) = false := by
      rw [hi.routes]
      simp only [List.any_cons, List.any_map, Bool.or_eq_false_iff, decide_eq_false_iff_not]
      refine ⟨fun e => h1 e.symm, ?_⟩
      rw [List.any_eq_false]
      intro x hx
      simp only [Function.comp_apply, decide_eq_true_eq]
      rintro rfl
      exact h2 ((hi.conns false).ids x hx).2
    refine Inv.listen (x := ⟨false, e, id, h, u⟩) (a := s.next) (e := e) (t := t) hn hf ?_ h1 h2
      (fun _ => h3) h4 ?_ ?_ ?_ ?_
    · exact List.mem_append_right _ (by simp [ctxOf])
    · simp [routeAdd, newCtx, hany]
    · simp [routeAdd, newCtx, hany, conn]
    · simp [routeAdd, newCtx, hany, conn]
    · simp [routeAdd, newCtx, hany]

theorem step_addPrivate {inbox v s} (hi : Inv inbox v s) {e h u id}
    (ha : Allowed inbox v (.addPrivate e h u id)) :
    Inv inbox (see v (.addPrivate e h u id, (addPrivate s e h u id).2)) (addPrivate s e h u id).1 := by
  have hn := hi.newCtx ⟨e, h, u, id⟩
  obtain ⟨h1, h2, h4⟩ := ha
  unfold addPrivate
  split
  · cases hf : fill ⟨id, privateTopic id e, s.next + 1⟩ s.priv.slots with
    | none => exact hn
    | some t =>
      refine Inv.listen (x := ⟨true, e, id, h, u⟩) (a := s.next) (e := privateTopic id e) (t := t) hn hf ?_ h1 h2
        (by simp) h4 ?_ ?_ ?_ ?_
      · exact List.mem_append_right _ (by simp [ctxOf])
      · simp [newCtx]
      · simp [newCtx, conn]
      · simp [newCtx, conn]
      · simp [newCtx]
  · exact hi

theorem step_remove {inbox v s} (hi : Inv inbox v s) {e id} (ha : Allowed inbox v (.remove e id)) :
    ∃ s', removeListener s e id = .ok (s', .success) ∧ Inv inbox (see v (.remove e id, .success)) s' := by
  obtain ⟨⟨x, hx, hp, rfl, rfl⟩, hh⟩ := ha
  obtain ⟨heap, vec, hd, h1, h2, h3, h4, -⟩ := dropCtx_ok hi.keys x.topic hi.vecIn hi.vecNodup
  obtain ⟨t, i, hc⟩ := clear_held hi hx
  rw [hp] at hc
  have hc' : clear (fun l => l.id = x.id) s.main.slots = some (t, i) := hc
  have hfind : s.routes.find? (fun r => r.1 = x.topic) = some (x.topic, x.id) := by
    rw [hi.routes, List.find?_cons]
    have hb : inbox ≠ x.topic := fun e => hi.inboxTopic x hx hp e.symm
    simp only [hb, decide_false, List.find?_map]
    have hm : x ∈ on false v.held := List.mem_filter.mpr ⟨hx, by simpa using hp⟩
    cases hq : (on false v.held).find? ((fun r : Bytes × Nat => decide (r.1 = x.topic)) ∘ fun y => (y.topic, y.id)) with
    | none =>
      have := List.find?_eq_none.mp hq x hm
      simp at this
    | some y =>
      have hy1 := List.find?_some hq
      have hy2 := List.mem_of_find?_eq_some hq
      simp only [Function.comp_apply, decide_eq_true_eq] at hy1
      rw [held_topic hi (List.mem_filter.mp hy2).1 hx hy1]
      rfl
  have hal : s.aliases.filter (fun y => y.2 ≠ x.id) = s.aliases := by rw [hi.aliases]; rfl
  have hinv := Inv.unlisten (e := x.topic) (x := x) (t := t) (i := i) hi hx (by rw [hp]; exact hc)
    (s' := { s with heap := heap, vec := vec, main := { s.main with slots := t }
                    routes := s.routes.filter (fun r => r.2 ≠ x.id) })
    (fun y hy hne hty => hne (held_topic hi hy hx hty ▸ ⟨rfl, rfl⟩))
    hh ⟨rfl, rfl⟩ h1 h2 h3 h4 (by rw [hp]; simp [conn]) (by rw [hp]; simp [conn]) (by rw [if_pos hp])
  rw [hp] at hinv
  refine ⟨_, ?_, hinv⟩
  simp only [removeListener, hd, Res.ok_bind, hc', Res.pure_eq, routeRemove, hfind, hal]

theorem step_removePrivate {inbox v s} (hi : Inv inbox v s) {e id} (ha : Allowed inbox v (.removePrivate e id)) :
    ∃ s' o, removePrivate s e id = .ok (s', o) ∧ Inv inbox (see v (.removePrivate e id, o)) s' := by
  obtain ⟨⟨x, hx, hp, rfl, rfl⟩, hne, hh⟩ := ha
  unfold removePrivate
  split
  · obtain ⟨heap, vec, hd, h1, h2, h3, h4, -⟩ := dropCtx_ok hi.keys (privateTopic x.id x.topic) hi.vecIn hi.vecNodup
    obtain ⟨t, i, hc⟩ := clear_held hi hx
    rw [hp] at hc
    have hc' : clear (fun l => l.id = x.id) s.priv.slots = some (t, i) := hc
    have hinv := Inv.unlisten (e := privateTopic x.id x.topic) (x := x) (t := t) (i := i) hi hx
      (by rw [hp]; exact hc)
      (s' := { s with heap := heap, vec := vec, priv := { s.priv with slots := t } })
      (fun y hy _ => hne y hy) hh ⟨rfl, rfl⟩ h1 h2 h3 h4 (by rw [hp]; simp [conn]) (by rw [hp]; simp [conn])
      (by simp [hp])
    rw [hp] at hinv
    refine ⟨_, .success, ?_, hinv⟩
    simp only [hd, Res.ok_bind, hc', Res.pure_eq]
  · exact ⟨s, .noDirect, rfl, hi⟩

theorem conn_main (s : State) : conn s false = s.main := rfl

theorem conn_priv (s : State) : conn s true = s.priv := rfl

theorem look_ok {inbox v s} (hi : Inv inbox v s) (p : Bool) :
    look (conn s p) = .fail ∨ ∃ c m r, look (conn s p) = .ok (c, m) ∧ v.waiting p = m :: r ∧
      ConnInv s.heap c (on p v.held) r (some (m, whom v.held p m)) (v.ids p) := by
  have hc := hi.conns p
  unfold look
  split
  · rename_i m q h1 h2
    right
    refine ⟨_, m, q, rfl, by rw [← hc.queue]; exact h2, hc.sound, hc.complete, hc.nodup, hc.inbox, hc.ids, hc.hids,
      rfl, rfl, ?_⟩
    have := hc.lookup m (all := v.held) (p := p) rfl
    cases hw : whom v.held p m with
    | listener x => rw [hw] at this; exact this.2.2
    | connection => rw [hw] at this; exact this
    | nobody => rw [hw] at this; exact this
  · exact .inl rfl

theorem whom_listener {held p m x} (h : whom held p m = .listener x) :
    x ∈ held ∧ x.priv = p ∧ x.id = m.control ∧ m.control ≠ inboxId := by
  unfold whom at h
  split at h
  · cases h
  · rename_i hne
    cases hf : held.find? (fun x => x.priv = p ∧ x.id = m.control) with
    | none => rw [hf] at h; cases h
    | some y =>
      rw [hf] at h
      cases h
      have h1 := List.find?_some hf
      simp only [decide_eq_true_eq] at h1
      exact ⟨List.mem_of_find?_eq_some hf, h1.1, h1.2, hne⟩

theorem see_put (v : View) (p : Bool) (w : List Msg) (hd : Option (Msg × For)) :
    ({ v with waiting := put v.waiting p w, hand := put v.hand p (v.hand p) } : View)
      = { v with waiting := put v.waiting p w } := by
  rw [put_self]

theorem see_put' (v : View) (p : Bool) (hd : Option (Msg × For)) :
    ({ v with waiting := put v.waiting p (v.waiting p), hand := put v.hand p hd } : View)
      = { v with hand := put v.hand p hd } := by
  rw [put_self]

theorem ConnInv.enqueued {heap c held w hd ids} (h : ConnInv heap c held w hd ids) (ms : List Msg) :
    ConnInv heap (enqueue c ms).1 held (w ++ (enqueue c ms).2.1) hd ids := by
  rw [(enqueue_spec c ms).1]
  exact ⟨h.sound, h.complete, h.nodup, h.inbox, h.ids, h.hids, by rw [h.queue], h.hand⟩

theorem step_publish {inbox v s} (hi : Inv inbox v s) (t : Bytes) (b : Nat) {s' o}
    (hs : step s (.publish t b) = .ok (s', o)) :
    Inv inbox (see v (.publish t b, o)) s' ∧ OutOk v inbox (.publish t b) o := by
  simp only [step, Res.ok.injEq, Prod.mk.injEq] at hs
  obtain ⟨rfl, rfl⟩ := hs
  constructor
  · have h := Inv.messages (p := false) (w := v.waiting false ++
        (enqueue s.main ((targets s t).map (fun id => ⟨id, t, b⟩))).2.1) (hd := v.hand false) hi
      ((hi.conns false).enqueued ((targets s t).map (fun id => ⟨id, t, b⟩)))
      (s' := { s with main := (enqueue s.main ((targets s t).map (fun id => ⟨id, t, b⟩))).1 })
      ⟨rfl, rfl, rfl, rfl, rfl⟩ rfl rfl ?_ (fun _ => hi.handTopic)
    · rw [see_put _ _ _ none] at h
      exact h
    · intro _ m hm
      rcases List.mem_append.mp hm with hm | hm
      · exact .inl hm
      · right
        have hm := (enqueue_spec s.main _).2.1.subset hm
        obtain ⟨i, hin, rfl⟩ := List.mem_map.mp hm
        rw [targets_eq hi] at hin
        rcases List.mem_append.mp hin with hin | hin
        · left
          split at hin
          · rename_i e
            rw [List.mem_singleton] at hin
            exact ⟨hin, e.symm⟩
          · simp at hin
        · right
          obtain ⟨x, hx, rfl⟩ := List.mem_map.mp hin
          obtain ⟨hx, htx⟩ := List.mem_filter.mp hx
          simp only [decide_eq_true_eq] at htx
          refine ⟨((hi.conns false).ids x hx).2, ?_⟩
          intro y hy hyp hyid
          obtain ⟨hx1, hx2⟩ := List.mem_filter.mp hx
          rw [held_id hi hy hx1 (by rw [hyp]; simpa using Eq.symm (by simpa using hx2 : x.priv = false)) hyid]
          exact htx
  · refine ⟨_, _, rfl, ?_⟩
    intro hne
    have hq := (hi.conns false).queue
    rw [conn_main] at hq
    rw [targets_eq hi, if_neg (fun e => hne e.symm), List.nil_append]
    constructor
    · intro x hx hp htx
      subst htx
      rw [filter_topic_eq hi hx hp]
      simp only [List.map_cons, List.map_nil, enqueue, Dispatch.maxMessages, hq]
      split
      · right; exact ⟨by omega, rfl, rfl⟩
      · left; exact ⟨by omega, rfl, rfl⟩
    · intro hno
      have : (on false v.held).filter (fun x => x.topic = t) = [] := by
        refine List.filter_eq_nil_iff.mpr ?_
        intro y hy
        obtain ⟨hy1, hy2⟩ := List.mem_filter.mp hy
        simpa using hno y hy1 (by simpa using hy2)
      rw [this]
      exact ⟨rfl, rfl⟩

theorem step_look {inbox v s} (hi : Inv inbox v s) (p : Bool) :
    step s (.look p) ≠ .ub ∧ ∀ s' o, step s (.look p) = .ok (s', o) →
      Inv inbox (see v (.look p, o)) s' ∧ OutOk v inbox (.look p) o := by
  have key : step s (.look p) = (look (conn s p) >>= fun r =>
      pure ((if p = true then { s with priv := r.1 } else { s with main := r.1 }), Out.looked r.2)) := by
    cases p <;> rfl
  rw [key]
  rcases look_ok hi p with h | ⟨c, m, r, h, hw, hc⟩
  · rw [h]
    exact ⟨by simp [Res.fail_bind], by simp [Res.fail_bind]⟩
  · rw [h]
    refine ⟨by simp [Res.pure_eq], ?_⟩
    intro s' o hs
    simp only [Res.ok_bind, Res.pure_eq, Res.ok.injEq, Prod.mk.injEq] at hs
    obtain ⟨rfl, rfl⟩ := hs
    refine ⟨?_, m, r, rfl, hw⟩
    have h := Inv.messages (p := p) hi hc
      (s' := if p = true then { s with priv := c } else { s with main := c })
      (by cases p <;> exact ⟨rfl, rfl, rfl, rfl, rfl⟩) (by cases p <;> rfl) (by cases p <;> rfl) ?_ ?_
    · have ht : (v.waiting p).tail = r := by rw [hw]; rfl
      show Inv inbox { v with waiting := put v.waiting p (v.waiting p).tail
                              hand := put v.hand p (some (m, whom v.held p m)) } _
      rw [ht]
      exact h
    · rintro rfl m' hm'
      exact .inl (by rw [hw]; exact List.mem_cons_of_mem _ hm')
    · rintro rfl m' x hx
      simp only [Option.some.injEq, Prod.mk.injEq] at hx
      obtain ⟨rfl, hx⟩ := hx
      obtain ⟨h1, h2, h3, h4⟩ := whom_listener hx
      rcases hi.queueOk m (by rw [hw]; simp) with h5 | h5
      · exact (h4 h5.1).elim
      · exact h5.2 x h1 h2 h3

theorem step_call {inbox v s} (hi : Inv inbox v s) (p : Bool) :
    step s (.call p) ≠ .ub ∧ ∀ s' o, step s (.call p) = .ok (s', o) →
      Inv inbox (see v (.call p, o)) s' ∧ OutOk v inbox (.call p) o := by
  have key : step s (.call p) = (call s (conn s p) >>= fun o =>
      pure ((if p = true then { s with priv := { s.priv with hand := none } }
        else { s with main := { s.main with hand := none } }), o)) := by
    cases p <;> rfl
  rw [key]
  rcases call_ok hi p with ⟨-, h⟩ | ⟨x, hx, h⟩
  · rw [h]
    exact ⟨by simp [Res.fail_bind], by simp [Res.fail_bind]⟩
  · rw [h]
    refine ⟨by simp [Res.pure_eq], ?_⟩
    intro s' o hs
    simp only [Res.ok_bind, Res.pure_eq, Res.ok.injEq, Prod.mk.injEq] at hs
    obtain ⟨rfl, rfl⟩ := hs
    refine ⟨?_, x, hx, rfl⟩
    have hc := hi.conns p
    have h := Inv.messages (p := p) (w := v.waiting p) (hd := none) (c := { conn s p with hand := none }) hi
      ⟨hc.sound, hc.complete, hc.nodup, hc.inbox, hc.ids, hc.hids, hc.queue, trivial⟩
      (s' := if p = true then { s with priv := { s.priv with hand := none } }
        else { s with main := { s.main with hand := none } })
      (by cases p <;> exact ⟨rfl, rfl, rfl, rfl, rfl⟩) (by cases p <;> rfl) (by cases p <;> rfl)
      (by rintro rfl m hm; exact .inl hm) (by simp)
    rw [see_put'] at h
    exact h

theorem step_all {inbox v s e} (hi : Inv inbox v s) (ha : Allowed inbox v e) :
    step s e ≠ .ub ∧ ∀ s' o, step s e = .ok (s', o) →
      Inv inbox (see v (e, o)) s' ∧ OutOk v inbox e o := by
  cases e with
  | add e h u id =>
    refine ⟨by simp [step], ?_⟩
    intro s' o hs
    have := step_add hi ha
    simp only [step, Res.ok.injEq] at hs
    rw [hs] at this
    exact ⟨this, trivial⟩
  | addPrivate e h u id =>
    refine ⟨by simp [step], ?_⟩
    intro s' o hs
    have := step_addPrivate hi ha
    simp only [step, Res.ok.injEq] at hs
    rw [hs] at this
    exact ⟨this, trivial⟩
  | remove e id =>
    obtain ⟨s1, h1, h2⟩ := step_remove hi ha
    simp only [step, h1]
    refine ⟨by simp, ?_⟩
    intro s' o hs
    simp only [Res.ok.injEq, Prod.mk.injEq] at hs
    obtain ⟨rfl, rfl⟩ := hs
    exact ⟨h2, rfl⟩
  | removePrivate e id =>
    obtain ⟨s1, o1, h1, h2⟩ := step_removePrivate hi ha
    simp only [step, h1]
    refine ⟨by simp, ?_⟩
    intro s' o hs
    simp only [Res.ok.injEq, Prod.mk.injEq] at hs
    obtain ⟨rfl, rfl⟩ := hs
    exact ⟨h2, trivial⟩
  | removeAll => exact ha.elim
  | has e =>
    obtain ⟨b, h1, -⟩ := hasListener_ok hi.keys e s.vec hi.vecIn
    simp only [step, h1, Res.ok_bind, Res.pure_eq]
    refine ⟨by simp, ?_⟩
    intro s' o hs
    simp only [Res.ok.injEq, Prod.mk.injEq] at hs
    obtain ⟨rfl, rfl⟩ := hs
    exact ⟨hi, trivial⟩
  | publish t b =>
    exact ⟨by simp [step], fun s' o hs => step_publish hi t b hs⟩
  | direct m =>
    refine ⟨by simp [step], ?_⟩
    intro s' o hs
    simp only [step, Res.ok.injEq, Prod.mk.injEq] at hs
    obtain ⟨rfl, rfl⟩ := hs
    refine ⟨?_, trivial⟩
    have h := Inv.messages (p := true) (w := v.waiting true ++ (enqueue s.priv [m]).2.1) (hd := v.hand true) hi
      ((hi.conns true).enqueued [m]) (s' := { s with priv := (enqueue s.priv [m]).1 })
      ⟨rfl, rfl, rfl, rfl, rfl⟩ rfl rfl (by simp) (by simp)
    rw [see_put _ _ _ none] at h
    exact h
  | look p => exact step_look hi p
  | call p => exact step_call hi p

theorem inv_init (inbox : Bytes) (direct : List Bytes) : Inv inbox start (init inbox direct) where
  keys := by simp [init]
  fresh := by simp [init]
  vecIn := by simp [init]
  vecNodup := by simp [init]
  conns := by
    intro p
    have hc : conn (init inbox direct) p = newConn inbox := by cases p <;> rfl
    have ht : inTable (newConn inbox).slots = [⟨inboxId, inbox, 0⟩] := by
      simp [newConn, inTable, List.filterMap_replicate_of_none]
    rw [hc]
    refine ⟨?_, by simp [start, on], ?_, ?_, by simp [start, on], by simp [start, on], rfl, trivial⟩
    · intro l hl
      rw [ht, List.mem_singleton] at hl
      subst hl
      exact .inl ⟨rfl, rfl⟩
    · rw [ht]; simp
    · exact ⟨_, by rw [ht]; exact List.mem_singleton.mpr rfl, rfl⟩
  topics := by simp [start]
  inboxTopic := by simp [start]
  routes := rfl
  aliases := rfl
  queueOk := by simp [start]
  handTopic := by simp [start]

theorem inv_of_exec {inbox direct h s} (hx : Exec step (init inbox direct) h s) (hc : Careful inbox h) :
    Inv inbox (after h) s := by
  induction hx with
  | nil => exact inv_init inbox direct
  | snoc hx hs ih =>
    rw [after_snoc]
    exact ((step_all (ih hc.init) hc.last).2 _ _ hs).1

/-- What is seen of each step of a history. -/
theorem out_of_exec {inbox direct h s} (hx : Exec step (init inbox direct) h s) (hc : Careful inbox h)
    {a e o b} (hab : h = a ++ (e, o) :: b) : OutOk (after a) inbox e o := by
  obtain ⟨s1, s2, h1, h2⟩ := hx.at a e o b hab
  have hca : Careful inbox a := fun a' e' o' b' h' => hc a' e' o' (b' ++ (e, o) :: b) (by rw [hab, h']; simp)
  exact ((step_all (inv_of_exec h1 hca) (hc a e o b hab)).2 _ _ h2).2

/-! ## Contexts when no listener was refused or private -/

structure PInv (v : View) (s : State) : Prop where
  vec : s.heap.map (·.1) = s.vec
  ctxs : s.heap.map (·.2) = v.held.map ctxOf
  main : ∀ x ∈ v.held, x.priv = false

theorem Plain.init {h x} (hc : Plain (h ++ [x])) : Plain h :=
  fun y hy => hc y (List.mem_append_left _ hy)

theorem pinv_step {inbox v s e s' o} (hi : Inv inbox v s) (hp : PInv v s) (ha : Allowed inbox v e)
    (hs : step s e = .ok (s', o)) (hpl : Plain [(e, o)]) : PInv (see v (e, o)) s' := by
  cases e with
  | add e h u id =>
    have ho : o = .success := hpl (.add e h u id, o) (by simp)
    subst ho
    simp only [step, Res.ok.injEq] at hs
    unfold addListener at hs
    cases hf : fill ⟨id, e, s.next + 1⟩ s.main.slots with
    | none => rw [hf] at hs; cases hs
    | some t =>
      rw [hf] at hs
      simp only [Prod.mk.injEq, and_true] at hs
      subst hs
      have hh : ∀ s0 : State, (routeAdd s0 e id).heap = s0.heap ∧ (routeAdd s0 e id).vec = s0.vec := by
        intro s0
        unfold routeAdd
        split
        · split <;> exact ⟨rfl, rfl⟩
        · exact ⟨rfl, rfl⟩
      refine ⟨?_, ?_, ?_⟩
      · rw [(hh _).1, (hh _).2]
        simp [newCtx, hp.vec]
      · rw [(hh _).1]
        simp [newCtx, hp.ctxs, see, ctxOf]
      · intro x hx
        rcases List.mem_append.mp hx with hx | hx
        · exact hp.main x hx
        · rw [List.mem_singleton] at hx
          subst hx; rfl
  | addPrivate e h u id => exact (hpl (.addPrivate e h u id, o) (by simp) : False).elim
  | removePrivate e id =>
    obtain ⟨⟨x, hx, h1, -⟩, -⟩ := ha
    have := hp.main x hx
    rw [h1] at this
    cases this
  | removeAll => exact ha.elim
  | remove e id =>
    obtain ⟨⟨x, hx, hxp, rfl, rfl⟩, hh⟩ := ha
    obtain ⟨heap, vec, hd, h1, h2, h3, h4, h5⟩ := dropCtx_ok hi.keys x.topic hi.vecIn hi.vecNodup
    obtain ⟨t, i, hc⟩ := clear_held hi hx
    rw [hxp] at hc
    have hc' : clear (fun l => l.id = x.id) s.main.slots = some (t, i) := hc
    have hrr : ∀ (s0 : State) e, (routeRemove s0 e).heap = s0.heap ∧ (routeRemove s0 e).vec = s0.vec := by
      intro s0 e
      unfold routeRemove
      split <;> exact ⟨rfl, rfl⟩
    simp only [step, removeListener, hd, Res.ok_bind, hc', Res.pure_eq, Res.ok.injEq, Prod.mk.injEq] at hs
    obtain ⟨rfl, rfl⟩ := hs
    have hxin : ctxOf x ∈ s.heap.map (·.2) := by rw [hp.ctxs]; exact List.mem_map.mpr ⟨x, hx, rfl⟩
    obtain ⟨⟨k, d⟩, hk, hkd⟩ := List.mem_map.mp hxin
    simp only at hkd
    subst hkd
    rcases h5 with ⟨-, -, h6⟩ | ⟨a, c, hac, hce, rfl, rfl⟩
    · exact (h6 k (by rw [← hp.vec]; exact List.mem_map.mpr ⟨_, hk, rfl⟩) _ hk rfl).elim
    · refine ⟨?_, ?_, ?_⟩
      · rw [(hrr _ _).1, (hrr _ _).2]
        show (s.heap.filter _).map _ = s.vec.filter _
        rw [← hp.vec, List.filter_map]
        rfl
      · rw [(hrr _ _).1]
        show (s.heap.filter _).map _ = (v.held.filter _).map ctxOf
        have e1 : s.heap.filter (fun y => y.1 ≠ a) = s.heap.filter (fun y => y.2.expr ≠ x.topic) := by
          refine List.filter_congr ?_
          rintro ⟨b, d⟩ hbd
          have : b = a ↔ d.expr = x.topic := by
            constructor
            · rintro rfl
              rw [key_unique hi.keys hbd hac]; exact hce
            · intro hde
              -- both contexts belong to the one listener with this topic
              have hnd : (s.heap.map (fun y => y.2.expr)).Nodup := by
                have : s.heap.map (fun y => y.2.expr) = v.held.map (·.topic) := by
                  have := congrArg (List.map (fun c : Ctx => c.expr)) hp.ctxs
                  simpa [List.map_map, Function.comp_def, ctxOf] using this
                rw [this]; exact hi.topics
              have : ∀ (l : List (Nat × Ctx)), (l.map (fun y => y.2.expr)).Nodup → ∀ y ∈ l, ∀ z ∈ l,
                  y.2.expr = z.2.expr → y = z := by
                intro l
                induction l with
                | nil => simp
                | cons w r ih =>
                  intro hn y hy z hz hyz
                  rw [List.map_cons, List.nodup_cons] at hn
                  rcases List.mem_cons.mp hy with hy1 | hy1 <;> rcases List.mem_cons.mp hz with hz1 | hz1
                  · exact hy1.trans hz1.symm
                  · exact (hn.1 (List.mem_map.mpr ⟨z, hz1, by rw [← hy1]; exact hyz.symm⟩)).elim
                  · exact (hn.1 (List.mem_map.mpr ⟨y, hy1, by rw [← hz1]; exact hyz⟩)).elim
                  · exact ih hn.2 y hy1 z hz1 hyz
              have := this s.heap hnd _ hbd _ hac (by simpa [hce] using hde)
              exact congrArg Prod.fst this
          simp only [ne_eq, this]
        have e2 : v.held.filter (fun y => ¬ (y.priv = false ∧ y.id = x.id)) = v.held.filter (fun y => (ctxOf y).expr ≠ x.topic) := by
          refine List.filter_congr ?_
          intro y hy
          have : (y.priv = false ∧ y.id = x.id) ↔ (ctxOf y).expr = x.topic := by
            constructor
            · rintro ⟨h7, h8⟩
              rw [held_id hi hy hx (by rw [h7, hxp]) h8]; rfl
            · intro h7
              rw [held_topic hi hy hx h7]
              exact ⟨hxp, rfl⟩
          simp only [this, ne_eq]
        rw [e1, e2]
        have := congrArg (List.filter (fun c : Ctx => c.expr ≠ x.topic)) hp.ctxs
        rw [List.filter_map, List.filter_map] at this
        exact this
      · intro y hy
        exact hp.main y (List.mem_filter.mp hy).1
  | has e =>
    simp only [step] at hs
    obtain ⟨b, h1, hs⟩ := res_bind_ok hs
    cases hs
    exact hp
  | publish t b =>
    simp only [step, Res.ok.injEq, Prod.mk.injEq] at hs
    obtain ⟨rfl, rfl⟩ := hs
    exact ⟨hp.vec, hp.ctxs, hp.main⟩
  | direct m =>
    simp only [step, Res.ok.injEq, Prod.mk.injEq] at hs
    obtain ⟨rfl, rfl⟩ := hs
    exact ⟨hp.vec, hp.ctxs, hp.main⟩
  | look p =>
    cases p <;>
    · simp only [step] at hs
      obtain ⟨⟨c, m⟩, h1, hs⟩ := res_bind_ok hs
      cases hs
      exact ⟨hp.vec, hp.ctxs, hp.main⟩
  | call p =>
    cases p <;>
    · simp only [step] at hs
      obtain ⟨o', h1, hs⟩ := res_bind_ok hs
      cases hs
      exact ⟨hp.vec, hp.ctxs, hp.main⟩

theorem pinv_of_exec {inbox direct h s} (hx : Exec step (init inbox direct) h s) (hc : Careful inbox h)
    (hpl : Plain h) : PInv (after h) s := by
  induction hx with
  | nil => exact ⟨rfl, rfl, by simp [after, start]⟩
  | snoc hx hs ih =>
    rw [after_snoc]
    refine pinv_step (inv_of_exec hx hc.init) (ih hc.init hpl.init) hc.last hs ?_
    intro y hy
    exact hpl y (List.mem_append_right _ hy)

/-! ## Where calls come from -/

structure Origin (h : History) (v : View) : Prop where
  held : ∀ x ∈ v.held, x.priv = false → (Op.add x.topic x.handler x.user x.id, Out.success) ∈ h
  waiting : ∀ m ∈ v.waiting false, ∃ o, (Op.publish m.topic m.body, o) ∈ h
  hand : ∀ m w, v.hand false = some (m, w) → (∃ o, (Op.publish m.topic m.body, o) ∈ h) ∧
    ∀ x, w = .listener x → (Op.add x.topic x.handler x.user x.id, Out.success) ∈ h

theorem Origin.mono {h v} (ho : Origin h v) (x) : Origin (h ++ [x]) v where
  held := fun y hy hp => List.mem_append_left _ (ho.held y hy hp)
  waiting := fun m hm => (ho.waiting m hm).imp fun _ h => List.mem_append_left _ h
  hand := fun m w hw => ⟨(ho.hand m w hw).1.imp fun _ h => List.mem_append_left _ h,
    fun y hy => List.mem_append_left _ ((ho.hand m w hw).2 y hy)⟩

theorem origin_step {h v s e s' o} (hv : Origin h v) (hs : step s e = .ok (s', o))
    (hl : ∀ p m, (e, o) = (.look p, .looked m) → m ∈ v.waiting p) : Origin (h ++ [(e, o)]) (see v (e, o)) := by
  have hm := hv.mono (e, o)
  cases e with
  | add e h' u id =>
    cases o with
    | success =>
      refine ⟨?_, hm.waiting, hm.hand⟩
      intro x hx hp
      rcases List.mem_append.mp hx with hx | hx
      · exact hm.held x hx hp
      · rw [List.mem_singleton] at hx
        subst hx
        simp
    | _ => exact hm
  | addPrivate e h' u id =>
    cases o with
    | success =>
      refine ⟨?_, hm.waiting, hm.hand⟩
      intro x hx hp
      rcases List.mem_append.mp hx with hx | hx
      · exact hm.held x hx hp
      · rw [List.mem_singleton] at hx
        subst hx
        cases hp
    | _ => exact hm
  | remove e id =>
    cases o with
    | success => exact ⟨fun x hx => hm.held x (List.mem_filter.mp hx).1, hm.waiting, hm.hand⟩
    | _ => exact hm
  | removePrivate e id =>
    cases o with
    | success => exact ⟨fun x hx => hm.held x (List.mem_filter.mp hx).1, hm.waiting, hm.hand⟩
    | _ => exact hm
  | removeAll => cases o <;> exact hm
  | has e => cases o <;> exact hm
  | publish t b =>
    simp only [step, Res.ok.injEq, Prod.mk.injEq] at hs
    obtain ⟨rfl, rfl⟩ := hs
    refine ⟨hm.held, ?_, hm.hand⟩
    intro m hmem
    change m ∈ put v.waiting false _ false at hmem
    rw [put_same] at hmem
    rcases List.mem_append.mp hmem with h1 | h1
    · exact hm.waiting m h1
    · obtain ⟨i, -, rfl⟩ := List.mem_map.mp ((enqueue_spec s.main _).2.1.subset h1)
      exact ⟨_, List.mem_append_right _ (List.mem_singleton.mpr rfl)⟩
  | direct m =>
    cases o with
    | queued ms d =>
      refine ⟨hm.held, ?_, hm.hand⟩
      intro m' hmem
      change m' ∈ put v.waiting true (v.waiting true ++ ms) false at hmem
      rw [put_other _ _ (by simp)] at hmem
      exact hm.waiting m' hmem
    | _ => exact hm
  | look p =>
    cases o with
    | looked m =>
      have hin := hl p m rfl
      refine ⟨hm.held, ?_, ?_⟩
      · intro m' hmem
        change m' ∈ put v.waiting p (v.waiting p).tail false at hmem
        by_cases hp : false = p
        · subst hp
          rw [put_same] at hmem
          exact hm.waiting m' (List.mem_of_mem_tail hmem)
        · rw [put_other _ _ hp] at hmem
          exact hm.waiting m' hmem
      · intro m' w hw
        change put v.hand p (some (m, whom v.held p m)) false = _ at hw
        by_cases hp : false = p
        · subst hp
          rw [put_same] at hw
          simp only [Option.some.injEq, Prod.mk.injEq] at hw
          obtain ⟨rfl, rfl⟩ := hw
          refine ⟨hm.waiting m hin, ?_⟩
          intro x hx
          obtain ⟨h1, h2, -⟩ := whom_listener hx
          exact hm.held x h1 h2
        · rw [put_other _ _ hp] at hw
          exact hm.hand m' w hw
    | _ => exact hm
  | call p =>
    refine ⟨hm.held, hm.waiting, ?_⟩
    intro m w hw
    change put v.hand p none false = _ at hw
    by_cases hp : false = p
    · subst hp
      rw [put_same] at hw
      cases hw
    · rw [put_other _ _ hp] at hw
      exact hm.hand m w hw

theorem origin_of_exec {inbox direct h s} (hx : Exec step (init inbox direct) h s) (hc : Careful inbox h) :
    Origin h (after h) := by
  induction hx with
  | nil => exact ⟨by simp [after, start], by simp [after, start], by simp [after, start]⟩
  | snoc hx hs ih =>
    rename_i h1 s1 e o s2
    rw [after_snoc]
    refine origin_step (ih hc.init) hs ?_
    intro p m hpm
    have := ((step_all (inv_of_exec hx hc.init) hc.last).2 _ _ hs).2
    cases hpm
    obtain ⟨m', r, h2, h3⟩ := this
    cases h2
    rw [h3]
    simp

/-- Removing all leaves only dangling pointers. -/
theorem removeEach_heap {s : State} {l s'} (h : removeEach s l = .ok s') :
    s'.vec = s.vec ∧ ∀ a ∈ l, ∀ x ∈ s'.heap, x.1 ≠ a := by
  have hr : ∀ (s0 : State) e, (routeRemove s0 e).heap = s0.heap ∧ (routeRemove s0 e).vec = s0.vec := by
    intro s0 e
    unfold routeRemove
    split <;> exact ⟨rfl, rfl⟩
  have key : ∀ (l : List Nat) (s s' : State), removeEach s l = .ok s' →
      s'.vec = s.vec ∧ (∀ x ∈ s'.heap, x ∈ s.heap) ∧ ∀ a ∈ l, ∀ x ∈ s'.heap, x.1 ≠ a := by
    intro l
    induction l with
    | nil => intro s s' h; cases h; simp
    | cons a r ih =>
      intro s s' h
      simp only [removeEach] at h
      obtain ⟨c, -, h⟩ := res_bind_ok h
      obtain ⟨h1, h2, h3⟩ := ih _ _ h
      have hf : ∀ s1 : State, s1.heap = s.heap → s1.vec = s.vec → (freeCtx s1 a).vec = s.vec ∧
          ∀ x ∈ (freeCtx s1 a).heap, x ∈ s.heap ∧ x.1 ≠ a := by
        intro s1 e1 e2
        refine ⟨e2, ?_⟩
        intro x hx
        obtain ⟨hx, hne⟩ := List.mem_filter.mp hx
        exact ⟨e1 ▸ hx, by simpa using hne⟩
      have hf := hf (match clear (fun l => decide (l.id = c.id)) s.main.slots with
        | some (t, _) => routeRemove { s with main := { s.main with slots := t } } c.expr
        | none => s) (by split <;> first | exact (hr _ _).1 | rfl) (by split <;> first | exact (hr _ _).2 | rfl)
      refine ⟨h1.trans hf.1, fun x hx => (hf.2 x (h2 x hx)).1, ?_⟩
      intro b hb x hx
      rcases List.mem_cons.mp hb with rfl | hb
      · exact (hf.2 x (h2 x hx)).2
      · exact h3 b hb x hx
  exact ⟨(key l s s' h).1, (key l s s' h).2.2⟩

theorem ctxAt_ub {s : State} {a} (h : ∀ x ∈ s.heap, x.1 ≠ a) : ctxAt s a = .ub := by
  have : s.heap.find? (fun x => x.1 = a) = none := by
    rw [List.find?_eq_none]
    intro x hx
    simpa using h x hx
  simp [ctxAt, this]

/-- A message is taken for the listener with its id. -/
theorem hand_id {inbox direct h s} (hx : Exec step (init inbox direct) h s) :
    ∀ p m x, (after h).hand p = some (m, .listener x) → x.id = m.control := by
  induction hx with
  | nil => intro p m x h; simp [after, start] at h
  | snoc hx hs ih =>
    rename_i h1 s1 e o s2
    intro p m x hh
    rw [after_snoc] at hh
    cases e with
    | look q =>
      cases o with
      | looked m' =>
        change put (after h1).hand q (some (m', whom (after h1).held q m')) p = _ at hh
        by_cases hp : p = q
        · subst hp
          rw [put_same] at hh
          simp only [Option.some.injEq, Prod.mk.injEq] at hh
          obtain ⟨rfl, hh⟩ := hh
          exact (whom_listener hh).2.2.1
        · rw [put_other _ _ hp] at hh
          exact ih p m x hh
      | _ => exact ih p m x hh
    | call q =>
      change put (after h1).hand q none p = _ at hh
      by_cases hp : p = q
      · subst hp
        rw [put_same] at hh
        cases hh
      · rw [put_other _ _ hp] at hh
        exact ih p m x hh
    | _ => cases o <;> exact ih p m x hh

/-- Carefulness, one operation after the other. -/
def CarefulFrom (inbox : Bytes) (v : View) : History → Prop
  | [] => True
  | x :: r => Allowed inbox v x.1 ∧ CarefulFrom inbox (see v x) r

theorem careful_of {inbox h} (hc : CarefulFrom inbox start h) : Careful inbox h := by
  have : ∀ (h : History) v, CarefulFrom inbox v h → ∀ a e o b, h = a ++ (e, o) :: b → Allowed inbox (a.foldl see v) e := by
    intro h
    induction h with
    | nil => intro v _ a e o b hab; simp at hab
    | cons x r ih =>
      intro v hv a e o b hab
      cases a with
      | nil =>
        simp only [List.nil_append, List.cons.injEq] at hab
        obtain ⟨rfl, rfl⟩ := hab
        exact hv.1
      | cons y a =>
        simp only [List.cons_append, List.cons.injEq] at hab
        obtain ⟨rfl, rfl⟩ := hab
        exact ih _ hv.2 a e o b rfl
  exact this h start hc

end Verif.Messages
