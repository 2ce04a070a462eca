import Verif.Proof.RouterInv
import Verif.Proof.RoutingCheck
import Verif.Proof.RoutingFree

/-! # The router's handlers keep the invariant -/

namespace Verif.Router

open Verif
open Verif.Routing (GInv Below Ent atPath tokens)

/-- Everything is sent to connected clients. -/
def To (pre : List Event) (ds : List Delivery) : Prop := ∀ d ∈ ds, d.client ∈ online pre

theorem RInv.send_to {removal pre s G} (h : RInv removal pre s G) (hd : Header) (ct : Content)
    (skip : Option Nat) (hq : Elsewhere hd.topic) (hf : Fits hd.topic) (hdot : hd.topic.getLast? ≠ some 46) :
    ∃ ds, Router.sendMessage s hd ct skip = .ok ds ∧ ∀ d ∈ ds, d.client ∈ online pre ∧ skip ≠ some d.client := by
  obtain ⟨l, -, e⟩ := h.sendMessage hd ct skip hq hf hdot
  refine ⟨_, e, ?_⟩
  intro d hd
  obtain ⟨r, hr, rfl⟩ := List.mem_map.mp hd
  obtain ⟨h1, h2⟩ := List.mem_filter.mp hr
  exact ⟨h.recipients_online h1, by simpa [msgTo] using h2⟩

/-- Where replies may be sent. -/
def GoodReply (h : Header) : Prop :=
  h.request = true → Fits h.reply ∧ h.reply.getLast? ≠ some 46 ∧ Elsewhere h.reply

theorem RInv.reply {removal pre s G} (h : RInv removal pre s G) {hd : Header} (hg : GoodReply hd)
    (hr : hd.request = true) (ct : Content) :
    ∃ ds, Router.sendMessage s (replyHeader hd) ct none = .ok ds ∧ To pre ds := by
  obtain ⟨h1, h2, h3⟩ := hg hr
  obtain ⟨ds, e1, e2⟩ := h.send_to (replyHeader hd) ct none h3 h1 h2
  exact ⟨ds, e1, fun d hd => (e2 d hd).1⟩

theorem advisory_ok : Elsewhere advisoryHeader.topic ∧ Fits advisoryHeader.topic ∧
    advisoryHeader.topic.getLast? ≠ some 46 := by decide

theorem RInv.advise {removal pre s G} (h : RInv removal pre s G) (c : Nat) (b : Bool) (inbox : Bytes) :
    ∃ ds, sendAdvisory s c b inbox = .ok ds ∧ ∀ d ∈ ds, d.client ∈ online pre ∧ d.client ≠ c := by
  obtain ⟨a1, a2, a3⟩ := advisory_ok
  obtain ⟨ds, e1, e2⟩ := h.send_to advisoryHeader (.advisory b inbox) (some c) a1 a2 a3
  refine ⟨ds, e1, fun d hd => ⟨(e2 d hd).1, ?_⟩⟩
  intro e
  exact (e2 d hd).2 (by rw [e])

theorem validString_len {x : Bytes} (h : validString x = true) : x.length < 512 := by
  unfold validString at h
  simp only [Bool.and_eq_true, decide_eq_true_eq] at h
  omega

theorem RInv.addRoute {removal pre s G} (h : RInv removal pre s G) {c : Nat} {x : Bytes} {i : Int}
    (hc : c ∈ online pre) (hm : ∃ m f, Event.message c m ∈ pre ∧ m.body = .json f ∧ f.routeId = some i)
    (hE : Elsewhere x) (ht : x.count 46 < 32) (hlen : x.length < 512) :
    ∃ s' G', addRoute s c x i = .ok s' ∧ RInv removal pre s' G' := by
  have h1 : RInv removal pre
      { s with entries := s.entries ++ [⟨s.next, some c, i, x⟩], next := s.next + 1 } G := by
    constructor
    · exact h.tree
    · exact h.below
    · intro g hg
      obtain ⟨e, he, hp⟩ := h.data g hg
      exact ⟨e, List.mem_append_left _ he, hp⟩
    · exact h.own
    · rw [List.map_append, List.nodup_append]
      refine ⟨h.ptrs, by simp, ?_⟩
      intro a ha b hb
      obtain ⟨e, he, rfl⟩ := List.mem_map.mp ha
      simp only [List.map_cons, List.map_nil, List.mem_singleton] at hb
      have := h.lt e he
      omega
    · intro e he
      rcases List.mem_append.mp he with he | he
      · have := h.lt e he
        show e.ptr < s.next + 1
        omega
      · rw [List.mem_singleton] at he
        subst he
        exact Nat.lt_succ_self _
    · exact Nat.succ_pos _
    · intro e he
      rcases List.mem_append.mp he with he | he
      · exact h.anon e he
      · rw [List.mem_singleton] at he
        subst he
        have := h.pos
        constructor
        · intro h0; cases h0
        · intro h0
          have h0 : s.next = 0 := h0
          omega
    · intro e he d hd
      rcases List.mem_append.mp he with he | he
      · exact h.live e he d hd
      · rw [List.mem_singleton] at he
        subst he
        cases hd
        exact ⟨hc, hm⟩
  obtain ⟨t, rc, G', e1, e2⟩ := h1.addName (x := x) s.next false (by have := h.pos; omega)
    ⟨⟨s.next, some c, i, x⟩, by simp, rfl⟩ hE ht hlen
    (Or.inl (by
      intro g hg e
      obtain ⟨e', he, hp⟩ := h.data g hg
      have := h.lt e' he
      omega))
  refine ⟨_, G', ?_, e2⟩
  have e1' : Routing.addTopicRoute s.tree x s.next false = .ok (t, rc) := e1
  rw [Router.addRoute, e1', Res.ok_bind]
  rfl

theorem RInv.subscribe {removal pre s G} (h : RInv removal pre s G) {c : Nat} {x : Bytes} {i : Int}
    (hc : c ∈ online pre) (hm : ∃ m f, Event.message c m ∈ pre ∧ m.body = .json f ∧ f.routeId = some i)
    (hE : Elsewhere x) (ht : x.count 46 < 32) (hlen : x.length < 512)
    (hadv : x = Routing.advisory → ∀ e ∈ s.entries, e.client = some c → e.subId ≠ i) :
    ∃ s' rc ds G', subscribe s c x i = .ok (s', rc, ds) ∧ RInv removal pre s' G' ∧ To pre ds := by
  unfold Router.subscribe
  cases hf : s.entries.find? (fun e => e.client = some c ∧ e.subId = i) with
  | some e =>
    dsimp only
    have he := List.mem_of_find?_eq_some hf
    have hp : e.client = some c ∧ e.subId = i := by simpa using List.find?_some hf
    obtain ⟨t, rc, G', e1, e2⟩ := h.addName (x := x) e.ptr true
      (by
        intro h0
        rw [(h.anon e he).mpr h0] at hp
        cases hp.1)
      ⟨e, he, rfl⟩ hE ht hlen (Or.inr ⟨rfl, fun hx => hadv hx e he hp.1 hp.2⟩)
    rw [e1, Res.ok_bind]
    exact ⟨_, _, _, G', rfl, e2, by intro d hd; cases hd⟩
  | none =>
    dsimp only
    obtain ⟨s', G', e1, e2⟩ := h.addRoute hc hm hE ht hlen
    rw [e1, Res.ok_bind]
    split
    · obtain ⟨ds, e3, e4⟩ := (e2.setClients (s'.clients.map
        (fun y => if y.id = c then { y with inbox := x } else y))).advise c true x
      rw [e3, Res.ok_bind]
      exact ⟨_, _, ds, G', rfl, e2.setClients _, fun d hd => (e4 d hd).1⟩
    · exact ⟨_, _, _, G', rfl, e2, by intro d hd; cases hd⟩

theorem RInv.unsubscribe {pre s G} (h : RInv true pre s G) {c : Nat} {x : Bytes}
    (ht : x.count 46 < 32) (hlen : x.length < 512) :
    ∃ s' G', unsubscribe s c x = .ok s' ∧ RInv true pre s' G' := by
  unfold Router.unsubscribe
  cases hf : s.entries.find? (fun e => e.expr = x ∧ e.client = some c) with
  | some e => exact ⟨_, _, rfl, h.clearRoute e.ptr⟩
  | none =>
    dsimp only
    obtain ⟨t, G', e1, e2⟩ := h.removeTopic ht hlen
    rw [e1, Res.ok_bind]
    exact ⟨_, G', rfl, e2⟩

theorem RInv.subscribeBody {removal pre s G} (h : RInv removal pre s G) {c : Nat} {m : Message} {f : Fields}
    (hc : c ∈ online pre) (hm : Event.message c m ∈ pre) (hb : m.body = .json f)
    (hclean : CleanSubscribe removal f)
    (hadv : f.add = some 1 → f.topic = some (some Routing.advisory) → ∀ e ∈ s.entries, e.client = some c →
      f.routeId ≠ some e.subId) :
    ∃ s' rc ds G', subscribeBody s c f = .ok (s', rc, ds) ∧ RInv removal pre s' G' ∧ To pre ds := by
  have hbad : ∃ s' rc ds G', (.ok (s, .invalidArg, []) : Res (State × Result × List Delivery)) = .ok (s', rc, ds) ∧
      RInv removal pre s' G' ∧ To pre ds :=
    ⟨s, _, _, G, rfl, h, by intro d hd; cases hd⟩
  unfold Router.subscribeBody
  split
  · rename_i a t r ha ht hr
    obtain ⟨k1, k2⟩ := hclean
    rw [ht] at k2
    obtain ⟨k2, k3⟩ := k2
    split
    · rename_i hv
      have hlen := validString_len hv
      split
      · rename_i ha1
        subst ha1
        exact h.subscribe hc ⟨m, f, hm, hb, hr⟩ (k3 ha) k2 hlen
          (by
            rintro rfl e he hce hid
            exact hadv ha ht e he hce (by rw [hr, hid]))
      · rename_i ha1
        cases removal with
        | false =>
          rcases k1 rfl with k1 | k1
          · rw [ha] at k1
            cases k1
            exact absurd rfl ha1
          · rw [ha] at k1; cases k1
        | true =>
          obtain ⟨s', G', e1, e2⟩ := h.unsubscribe (c := c) k2 hlen
          rw [e1, Res.ok_bind]
          exact ⟨s', _, _, G', rfl, e2, by intro d hd; cases hd⟩
    · exact hbad
  · exact hbad

theorem RInv.onSubscribe {removal pre s G} (h : RInv removal pre s G) {c : Nat} {m : Message} {f : Fields}
    (hc : c ∈ online pre) (hm : Event.message c m ∈ pre) (hb : m.body = .json f)
    (hclean : CleanSubscribe removal f) (hr : GoodReply m.hdr)
    (hadv : f.add = some 1 → f.topic = some (some Routing.advisory) → ∀ e ∈ s.entries, e.client = some c →
      f.routeId ≠ some e.subId) :
    ∃ s' ds G', onSubscribe s c m.hdr m.body = .ok (s', ds) ∧ RInv removal pre s' G' ∧ To pre ds := by
  obtain ⟨s', rc, ds, G', e1, e2, e3⟩ := h.subscribeBody hc hm hb hclean hadv
  unfold Router.onSubscribe
  rw [hb]
  dsimp only
  rw [e1, Res.ok_bind]
  split
  · rename_i hq
    obtain ⟨ds', e4, e5⟩ := e2.reply hr hq (.result rc)
    dsimp only
    rw [e4, Res.ok_bind]
    refine ⟨s', _, G', rfl, e2, ?_⟩
    intro d hd
    rcases List.mem_append.mp hd with hd | hd
    · exact e3 d hd
    · exact e5 d hd
  · exact ⟨s', ds, G', rfl, e2, e3⟩

theorem to_nil (pre : List Event) : To pre [] := by intro d hd; cases hd

theorem RInv.onComponents {removal pre s G} (h : RInv removal pre s G) {hd : Header} (hr : GoodReply hd) :
    ∃ ds, onComponents s hd = .ok ds ∧ To pre ds := by
  unfold Router.onComponents
  split
  · rename_i hq
    exact h.reply hr hq _
  · exact ⟨[], rfl, to_nil _⟩

theorem RInv.onWildcard {pre s G} (h : RInv false pre s G) {hd : Header} {b : Body} (hr : GoodReply hd)
    (hx : ∀ f x, b = .json f → f.expression = some (some x) → x.count 46 < 32) :
    ∃ ds, onWildcard s hd b = .ok ds ∧ To pre ds := by
  unfold Router.onWildcard
  split
  · exact ⟨[], rfl, to_nil _⟩
  · rename_i f
    split
    · rename_i hq
      split
      · rename_i x hfx
        split
        · rename_i hv
          obtain ⟨ps, e⟩ := Routing.resolvePartial_ok h.tree (h.below rfl)
            (Routing.tokenize_ok (hx f x rfl hfx) (validString_len hv))
          rw [e, Res.ok_bind]
          exact h.reply hr hq _
        · exact h.reply hr hq _
      · exact h.reply hr hq _
    · exact ⟨[], rfl, to_nil _⟩

theorem RInv.onElements {removal pre s G} (h : RInv removal pre s G) {hd : Header} {b : Body}
    (hr : GoodReply hd) : ∃ ds, onElements s hd b = .ok ds ∧ To pre ds := by
  unfold Router.onElements
  split
  · exact ⟨[], rfl, to_nil _⟩
  · split
    · rename_i hq
      split
      · split
        · exact h.reply hr hq _
        · exact h.reply hr hq _
      · exact ⟨[], rfl, to_nil _⟩
    · exact ⟨[], rfl, to_nil _⟩

theorem RInv.exprs {removal pre s G} (h : RInv removal pre s G) (ps : List Nat)
    (hps : ∀ p ∈ ps, ∃ e ∈ s.entries, e.ptr = p) : ∃ l, exprs s ps = .ok l := by
  induction ps with
  | nil => exact ⟨[], rfl⟩
  | cons p ps ih =>
    obtain ⟨l, e⟩ := ih (fun q hq => hps q (List.mem_cons_of_mem _ hq))
    obtain ⟨x, hx, rfl⟩ := hps p (by simp)
    rw [Router.exprs, h.entryOf hx, Res.ok_bind, e]
    exact ⟨_, rfl⟩

theorem RInv.traceEach {removal pre s G} (h : RInv removal pre s G) (l : List (Option Bytes))
    (hl : ∀ x ∈ l, ∀ y, x = some y → Fits y ∧ (y.getLast? ≠ some 46 ∨ removal = false)) :
    ∃ r, traceEach s l = .ok r := by
  induction l with
  | nil => exact ⟨_, rfl⟩
  | cons x l ih =>
    cases x with
    | none => exact ⟨_, rfl⟩
    | some y =>
      obtain ⟨r, e⟩ := ih (fun q hq => hl q (List.mem_cons_of_mem _ hq))
      obtain ⟨hf, hd⟩ := hl (some y) (by simp) y rfl
      obtain ⟨ds, e1, -, e2⟩ := Routing.lookup_safe h.tree (Routing.tokenize_ok hf.2 hf.1)
        (hd.imp id h.below)
      obtain ⟨es, e3⟩ := h.exprs ds (by
        intro p hp
        obtain ⟨g, hg, rfl⟩ := e2 p hp
        exact h.data g hg)
      rw [Router.traceEach, e1, Res.ok_bind, e3, Res.ok_bind, e]
      exact ⟨_, rfl⟩

theorem RInv.onObjects {removal pre s G} (h : RInv removal pre s G) {hd : Header} {b : Body}
    (hr : GoodReply hd) (hx : ∀ f, b = .json f → ∀ x ∈ f.items, ∀ y, x = some y →
      Fits y ∧ (y.getLast? ≠ some 46 ∨ removal = false)) :
    ∃ ds, onObjects s hd b = .ok ds ∧ To pre ds := by
  unfold Router.onObjects
  split
  · exact ⟨[], rfl, to_nil _⟩
  · rename_i f
    split
    · rename_i hq
      split
      · rename_i n hn
        split
        · obtain ⟨r, e⟩ := h.traceEach
            ((f.items ++ List.replicate (n.toNat - f.items.length) none).take n.toNat)
            (by
              intro x hxm y hy
              have := List.mem_of_mem_take hxm
              rcases List.mem_append.mp this with hm | hm
              · exact hx f rfl x hm y hy
              · rw [List.eq_of_mem_replicate hm] at hy; cases hy)
          rw [e, Res.ok_bind]
          exact h.reply hr hq _
        · exact h.reply hr hq _
      · exact h.reply hr hq _
    · exact ⟨[], rfl, to_nil _⟩

theorem RInv.onMessage {removal pre s G} (h : RInv removal pre s G) {c : Nat} {m : Message}
    (hc : c ∈ online pre) (hcl : Clean removal m) (hnew : NewAdvisory pre c m) :
    ∃ s' ds G', onMessage s c m = .ok (s', ds) ∧ RInv removal (pre ++ [.message c m]) s' G' ∧ To pre ds ∧
      (m.hdr.topic ≠ subscribeTopic → s' = s) := by
  have hon : online (pre ++ [.message c m]) = online pre := online_snoc _ _
  have h' := h.more c m
  obtain ⟨-, hrep, hwild, hbody⟩ := hcl
  have hrep : GoodReply m.hdr := hrep
  unfold Router.onMessage
  split
  · rename_i ht
    cases hb : m.body with
    | bad => rw [hb] at hbody; exact absurd ht hbody.1
    | json f =>
      rw [hb] at hbody
      have := h'.onSubscribe (c := c) (m := m) (f := f) (by rw [hon]; exact hc) (by simp) hb (hbody.1 ht) hrep
        (by
          intro hadd hadv e he hce hid
          obtain ⟨-, m', f', h1, h2, h3⟩ := h.live e he c hce
          exact hnew f hb hadd hadv m' f' h1 h2 (by rw [h3, hid]))
      rw [hb] at this
      unfold To at this ⊢
      rw [hon] at this
      obtain ⟨s', ds, G', t1, t2, t3⟩ := this
      exact ⟨s', ds, G', t1, t2, t3, fun hn => absurd ht hn⟩
  · have fin : ∀ r : Res (List Delivery), (∃ ds, r = .ok ds ∧ To pre ds) →
        ∃ s' ds G', (r >>= fun ds => pure (s, ds)) = .ok (s', ds) ∧
          RInv removal (pre ++ [.message c m]) s' G' ∧ To pre ds ∧ (m.hdr.topic ≠ subscribeTopic → s' = s) := by
      rintro r ⟨ds, rfl, hds⟩
      exact ⟨s, ds, G, rfl, h', hds, fun _ => rfl⟩
    split
    · exact fin _ (h.onComponents hrep)
    · split
      · rename_i ht
        have := hwild ht
        subst this
        apply fin
        apply h.onWildcard hrep
        intro f x hb hfx
        rw [hb] at hbody
        exact hbody.2.2.2 ht x hfx
      · split
        · exact fin _ (h.onElements hrep)
        · split
          · rename_i ht
            apply fin
            apply h.onObjects hrep
            intro f hb
            rw [hb] at hbody
            exact hbody.2.2.1 ht
          · split
            · rename_i ht
              cases hb : m.body with
              | bad => rw [hb] at hbody; exact absurd ht hbody.2
              | json f =>
                rw [hb] at hbody
                have := hbody.2.1 ht
                unfold hasCommand at this
                split at this
                · rename_i x hx
                  refine ⟨s, [], G, ?_, h', to_nil _, fun _ => rfl⟩
                  simp [onDiag, hx]
                · cases this
            · exact ⟨s, [], G, rfl, h', to_nil _, fun _ => rfl⟩

/-- The entries at one of the router's own topics: nothing, or the router's own. -/
theorem RInv.own_single {removal pre s G} (h : RInv removal pre s G) {p : Routing.Path} (hp : p ∈ ownPaths) :
    atPath G p = [] ∨ ∃ g ∈ G, g.data = 0 ∧ atPath G p = [g] := by
  cases hl : atPath G p with
  | nil => exact Or.inl rfl
  | cons g l =>
    right
    have hmem : ∀ x ∈ g :: l, x ∈ G ∧ x.path = p ∧ x.data = 0 := by
      intro x hx
      rw [← hl, atPath, List.mem_filter] at hx
      have hxp : x.path = p := by simpa using hx.2
      exact ⟨hx.1, hxp, (h.own x hx.1).mpr (by rw [hxp]; exact hp)⟩
    obtain ⟨g1, g2, g3⟩ := hmem g (by simp)
    refine ⟨g, g1, g3, ?_⟩
    cases l with
    | nil => rfl
    | cons x l =>
      exfalso
      obtain ⟨x1, x2, x3⟩ := hmem x (by simp)
      have hnd : ((atPath G p).map (fun g => (g.path, g.id))).Nodup :=
        List.Nodup.sublist (List.Sublist.map _ List.filter_sublist) h.tree.nodup
      rw [hl] at hnd
      simp only [List.map_cons, List.nodup_cons, List.mem_cons, not_or] at hnd
      apply hnd.1.1
      rw [g2, x2, (h.tree.rs.id_data g1 x1).mpr (by omega)]

theorem RInv.dispatch {removal pre s G} (h : RInv removal pre s G) {c : Nat} {m : Message}
    (hc : c ∈ online pre) (hcl : Clean removal m) (hnew : NewAdvisory pre c m) :
    ∃ s' ds G', dispatch s c m = .ok (s', ds) ∧ RInv removal (pre ++ [.message c m]) s' G' ∧ To pre ds ∧
      (m.hdr.topic ≠ subscribeTopic → s' = s) := by
  obtain ⟨⟨hfit, hdot⟩, hrep, -⟩ := id hcl
  obtain ⟨p, e1, -⟩ := Routing.getTopicRoutes_spec h.tree (Routing.tokenize_ok hfit.2 hfit.1) hdot
  have clients : ∀ (m' : Message) (l : List Ent), (∀ g ∈ l, g ∈ G) → OfClients s (l.map (·.data)) →
      ∃ s' ds G', visit s c m' (l.map (·.id)) = .ok (s', ds) ∧
        RInv removal (pre ++ [.message c m]) s' G' ∧ To pre ds ∧ (m.hdr.topic ≠ subscribeTopic → s' = s) := by
    intro m' l h1 h2
    refine ⟨s, _, G, h.visit_clients c m' l h1 h2, h.more c m, ?_, fun _ => rfl⟩
    intro d hd
    obtain ⟨r, hr, rfl⟩ := List.mem_map.mp hd
    exact h.recipients_online hr
  rw [Router.dispatch, e1, Res.ok_bind]
  split
  · rename_i hne
    by_cases hp : p ∈ ownPaths
    · rcases h.own_single hp with h0 | ⟨g, hg, hg0, h1⟩
      · rw [h0] at hne; exact absurd rfl hne
      · rw [h1]
        obtain ⟨e, he, hep⟩ := h.data g hg
        have hcn : e.client = none := (h.anon e he).mpr (by omega)
        rw [List.map_cons, visit, Routing.deref_ent h.tree hg, Res.ok_bind, ← hep, h.entryOf he, Res.ok_bind]
        simp only [hcn]
        obtain ⟨s', ds, G', f1, f2, f3, f4⟩ := h.onMessage hc hcl hnew
        rw [f1, Res.ok_bind]
        exact ⟨s', ds, G', rfl, f2, f3, f4⟩
    · apply clients
      · intro g hg; exact (List.mem_filter.mp hg).1
      · intro d hd
        obtain ⟨g, hg, rfl⟩ := List.mem_map.mp hd
        obtain ⟨hg, hgp⟩ := List.mem_filter.mp hg
        have hgp : g.path = p := by simpa using hgp
        refine ⟨?_, h.data g hg⟩
        intro h0
        exact hp (by rw [← hgp]; exact (h.own g hg).mp h0)
  · split
    · rename_i hq
      obtain ⟨r1, r2, r3⟩ := hrep hq
      obtain ⟨l, l1, l2, -, l3⟩ := h.lookup_elsewhere r3 r1 r2
      rw [l2, Res.ok_bind]
      exact clients (turned m) l l1 l3
    · exact ⟨s, [], G, rfl, h.more c m, to_nil _, fun _ => rfl⟩

/-! ## Departure -/

theorem RInv.clearAll {removal pre} (es : List Entry) : ∀ {s G}, RInv removal pre s G →
    ∃ G', RInv removal pre (clearAll s es) G' ∧
      (clearAll s es).entries = s.entries.filter (fun e => ∀ x ∈ es, e.ptr ≠ x.ptr) := by
  induction es with
  | nil =>
    intro s G h
    refine ⟨G, h, ?_⟩
    rw [Router.clearAll, List.filter_eq_self.mpr]
    simp
  | cons x es ih =>
    intro s G h
    obtain ⟨G', h1, h2⟩ := ih (h.clearRoute x.ptr)
    refine ⟨G', h1, ?_⟩
    rw [Router.clearAll, h2, Router.clearRoute, List.filter_filter]
    apply List.filter_congr
    intro e _
    simp only [List.mem_cons, forall_eq_or_imp, ne_eq, Bool.decide_and, decide_not]
    rw [Bool.and_comm]

theorem clearAll_clients (es : List Entry) (s : State) : (clearAll s es).clients = s.clients := by
  induction es generalizing s with
  | nil => rfl
  | cons x es ih => rw [clearAll, ih, clearRoute]

theorem RInv.disconnect {removal pre s G} (h : RInv removal pre s G) (c : Nat) :
    ∃ s' ds G', disconnect s c = .ok (s', ds) ∧ RInv removal (pre ++ [.disconnect c]) s' G' ∧
      To (pre ++ [.disconnect c]) ds := by
  have h1 := h.setClients (s.clients.filter (fun x => x.id ≠ c))
  obtain ⟨ds, e1, e2⟩ := h1.advise c false (inboxOf s c)
  obtain ⟨G', e3, e4⟩ := RInv.clearAll (s.entries.filter (fun e => e.client = some c)) h1
  have hon : online (pre ++ [.disconnect c]) = (online pre).filter (· ≠ c) := online_snoc _ _
  refine ⟨_, ds, G', ?_, { e3 with live := ?_ }, ?_⟩
  · rw [Router.disconnect]
    dsimp only
    rw [e1, Res.ok_bind]
    rfl
  · intro e he d hd
    rw [e4, List.mem_filter] at he
    obtain ⟨he, hne⟩ := he
    obtain ⟨k1, m, f, k2, k3⟩ := h1.live e he d hd
    refine ⟨?_, m, f, List.mem_append_left _ k2, k3⟩
    rw [hon, List.mem_filter]
    refine ⟨k1, ?_⟩
    simp only [ne_eq, decide_eq_true_eq]
    rintro rfl
    simp only [decide_eq_true_eq] at hne
    exact hne e (List.mem_filter.mpr ⟨he, by simpa using hd⟩) rfl
  · intro d hd
    obtain ⟨k1, k2⟩ := e2 d hd
    rw [hon, List.mem_filter]
    exact ⟨k1, by simpa using k2⟩

theorem RInv.step {removal pre s G} (h : RInv removal pre s G) {e : Event} (ha : Allowed removal pre e) :
    ∃ s' ds G', step s e = .ok (s', ds) ∧ RInv removal (pre ++ [e]) s' G' ∧ To (pre ++ [e]) ds := by
  cases e with
  | connect c =>
    refine ⟨_, [], G, rfl, { h with live := ?_ }, to_nil _⟩
    intro e he d hd
    obtain ⟨k1, m, f, k2, k3⟩ := h.live e he d hd
    refine ⟨?_, m, f, List.mem_append_left _ k2, k3⟩
    rw [online_snoc]
    exact List.mem_append_left _ k1
  | message c m =>
    obtain ⟨h1, h2, h3⟩ := ha
    obtain ⟨s', ds, G', e1, e2, e3, -⟩ := h.dispatch h1 h2 h3
    refine ⟨s', ds, G', e1, e2, ?_⟩
    unfold To
    rw [online_snoc]
    exact e3
  | disconnect c => exact h.disconnect c

/-- Each round of a history sends to clients connected then. -/
def AllTo : List Event → List Event → List (List Delivery) → Prop
  | _, [], [] => True
  | pre, e :: es, ds :: dss => To (pre ++ [e]) ds ∧ AllTo (pre ++ [e]) es dss
  | _, _, _ => False

theorem RInv.run {removal} (es : List Event) : ∀ {pre s G}, RInv removal pre s G →
    (∀ a e b, es = a ++ e :: b → Allowed removal (pre ++ a) e) →
    ∃ s' dss G', run s es = .ok (s', dss) ∧ RInv removal (pre ++ es) s' G' ∧ AllTo pre es dss := by
  induction es with
  | nil =>
    intro pre s G h _
    exact ⟨s, [], G, rfl, by simpa using h, trivial⟩
  | cons e es ih =>
    intro pre s G h ha
    obtain ⟨s1, ds, G1, e1, e2, e3⟩ := h.step (by simpa using ha [] e es rfl)
    obtain ⟨s2, dss, G2, f1, f2, f3⟩ := ih e2 (by
      intro a x b hab
      have := ha (e :: a) x b (by rw [hab]; rfl)
      rw [List.append_assoc]
      exact this)
    refine ⟨s2, ds :: dss, G2, ?_, ?_, e3, f3⟩
    · rw [Router.run, e1, Res.ok_bind]
      dsimp only
      rw [f1, Res.ok_bind]
      rfl
    · rw [List.append_assoc] at f2
      exact f2

/-! ## The start -/

/-- The registrations made at the start. -/
def bootOps : List Spec.Routing.Op := ownPaths.map (fun p => .register p 0 false)

theorem noRepeats_of_nodup {ops : List Spec.Routing.Op} (h : (Spec.Routing.names ops).Nodup) :
    Spec.Routing.NoRepeats ops := by
  intro pre n w x post e _ y hy
  rw [e, Routing.names_append] at h
  rw [List.nodup_append] at h
  have : ∀ l : List Spec.Routing.Op, Spec.Routing.Op.register n w y ∈ l → n ∈ Spec.Routing.names l := by
    intro l
    induction l with
    | nil => intro h; cases h
    | cons o l ih =>
      intro hm
      rcases List.mem_cons.mp hm with rfl | hm'
      · simp [Spec.Routing.names]
      · cases o <;> simp [Spec.Routing.names, ih hm']
  exact h.2.2 n (this pre hy) n (by simp [Spec.Routing.names]) rfl

theorem boot_ok (removal : Bool) : ∃ s G, boot = .ok s ∧ RInv removal [] s G := by
  have hP : Spec.Routing.Conventional (Spec.Routing.names bootOps) :=
    Routing.conventional_of_check (by decide +kernel) (by decide +kernel)
  obtain ⟨t, rcs, G, e1, e2, e3, e4, e5⟩ := Routing.run_below hP bootOps (by
      intro n hn
      obtain ⟨p, -, hp⟩ := List.mem_map.mp hn
      cases hp) [] (Routing.cinv_init _) Routing.below_init
    (by simp [Routing.regs]) (fun n hn => hn)
    (noRepeats_of_nodup (by decide +kernel))
  have hops : bootOps.map Routing.call = ownTopics.map (fun t => Routing.Op.add t 0 false) := by decide +kernel
  have hrc : rcs.map Routing.accepted = List.replicate 6 true := by
    have hc : (match Routing.run Routing.init (bootOps.map Routing.call) with
      | .ok r => decide (r.2.map Routing.accepted = List.replicate 6 true)
      | _ => false) = true := by decide +kernel
    rw [e1] at hc
    simpa using hc
  rw [hrc] at e5
  have hregs : Routing.regs G = ownPaths.map (fun p => (p, 0)) := by
    rw [e5]
    simp only [Routing.regs, List.map_nil]
    decide +kernel
  have hG : ∀ g ∈ G, g.data = 0 ∧ g.path ∈ ownPaths := by
    intro g hg
    have : (g.path, g.data) ∈ Routing.regs G := List.mem_map.mpr ⟨g, hg, rfl⟩
    rw [hregs] at this
    obtain ⟨p, hp, he⟩ := List.mem_map.mp this
    simp only [Prod.mk.injEq] at he
    exact ⟨he.2.symm, by rw [← he.1]; exact hp⟩
  refine ⟨{ tree := t, entries := [ownEntry], clients := [], next := 1 }, G, ?_, ?_⟩
  · rw [boot, ← hops, e1]
    rfl
  · constructor
    · exact e3.g
    · intro _; exact e4
    · intro g hg
      exact ⟨ownEntry, by simp, (hG g hg).1.symm⟩
    · intro g hg
      obtain ⟨h1, h2⟩ := hG g hg
      exact ⟨fun _ => h2, fun _ => h1⟩
    · simp
    · intro e he
      rw [List.mem_singleton] at he
      subst he
      exact Nat.zero_lt_one
    · exact Nat.zero_lt_one
    · intro e he
      rw [List.mem_singleton] at he
      subst he
      exact ⟨fun _ => rfl, fun _ => rfl⟩
    · intro e he c hc
      rw [List.mem_singleton] at he
      subst he
      cases hc

end Verif.Router
