import Verif.Proof.RouterTree

/-! # The invariant of the router -/

namespace Verif.Router

open Verif
open Verif.Routing (GInv Below Ent atPath tokens)

/-- The components of the router's own topics. -/
def ownPaths : List Routing.Path := ownTopics.map tokens

/-- Routes in the tree are routes of the router; routes of clients are of connected ones, and the
router's own topics are its own only. -/
structure RInv (removal : Bool) (pre : List Event) (s : State) (G : List Ent) : Prop where
  tree : GInv s.tree G
  below : removal = false → Below s.tree G
  data : ∀ g ∈ G, ∃ e ∈ s.entries, e.ptr = g.data
  own : ∀ g ∈ G, (g.data = 0 ↔ g.path ∈ ownPaths)
  ptrs : (s.entries.map (·.ptr)).Nodup
  lt : ∀ e ∈ s.entries, e.ptr < s.next
  pos : 0 < s.next
  anon : ∀ e ∈ s.entries, (e.client = none ↔ e.ptr = 0)
  live : ∀ e ∈ s.entries, ∀ c, e.client = some c → c ∈ online pre ∧
    ∃ m f, Event.message c m ∈ pre ∧ m.body = .json f ∧ f.routeId = some e.subId

/-- A message to a recipient. -/
def msgTo (h : Header) (content : Content) (r : Nat × Int) : Delivery := ⟨r.1, { h with control := r.2 }, content⟩

theorem RInv.find {removal pre s G} (h : RInv removal pre s G) {e : Entry} (he : e ∈ s.entries) :
    s.entries.find? (fun x => x.ptr = e.ptr) = some e := by
  cases hf : s.entries.find? (fun x => x.ptr = e.ptr) with
  | none =>
    rw [List.find?_eq_none] at hf
    exact absurd (by simp) (hf e he)
  | some x =>
    have h1 := List.mem_of_find?_eq_some hf
    have h2 : x.ptr = e.ptr := by simpa using List.find?_some hf
    rw [Routing.inj_of_nodup (·.ptr) h.ptrs h1 he h2]

theorem RInv.entryOf {removal pre s G} (h : RInv removal pre s G) {e : Entry} (he : e ∈ s.entries) :
    entryOf s e.ptr = .ok e := by
  rw [Router.entryOf, h.find he]

/-- Routes of clients. -/
def OfClients (s : State) (ps : List Nat) : Prop := ∀ p ∈ ps, p ≠ 0 ∧ ∃ e ∈ s.entries, e.ptr = p

theorem RInv.client {removal pre s G} (h : RInv removal pre s G) {p : Nat} (hp : p ≠ 0)
    (he : ∃ e ∈ s.entries, e.ptr = p) : ∃ e c, e ∈ s.entries ∧ e.ptr = p ∧ e.client = some c ∧ c ∈ online pre := by
  obtain ⟨e, h1, h2⟩ := he
  cases hc : e.client with
  | none => exact absurd ((h.anon e h1).mp hc) (by omega)
  | some c => exact ⟨e, c, h1, h2, hc, (h.live e h1 c hc).1⟩

theorem RInv.recipients_cons {removal pre s G} (h : RInv removal pre s G) {e : Entry} {c : Nat}
    (he : e ∈ s.entries) (hc : e.client = some c) (ps : List Nat) :
    recipients s (e.ptr :: ps) = (c, e.subId) :: recipients s ps := by
  rw [recipients, List.filterMap_cons, h.find he]
  simp [hc, recipients]

theorem RInv.recipients_online {removal pre s G} (h : RInv removal pre s G) {ps : List Nat} {r : Nat × Int}
    (hr : r ∈ recipients s ps) : r.1 ∈ online pre := by
  rw [recipients, List.mem_filterMap] at hr
  obtain ⟨p, -, hp⟩ := hr
  cases hf : s.entries.find? (fun e => e.ptr = p) with
  | none => rw [hf] at hp; cases hp
  | some e =>
    rw [hf, Option.bind_some] at hp
    cases hc : e.client with
    | none => rw [hc] at hp; cases hp
    | some c =>
      rw [hc] at hp
      cases hp
      exact (h.live e (List.mem_of_find?_eq_some hf) c hc).1

theorem RInv.sendEach {removal pre s G} (h : RInv removal pre s G) (hd : Header) (ct : Content)
    (skip : Option Nat) (ps : List Nat) (hps : OfClients s ps) :
    sendEach s hd ct skip ps =
      .ok (((recipients s ps).filter (fun r => skip ≠ some r.1)).map (msgTo hd ct)) := by
  induction ps with
  | nil => rfl
  | cons p ps ih =>
    obtain ⟨hp, he⟩ := hps p (by simp)
    obtain ⟨e, c, hm, rfl, hc, -⟩ := h.client hp he
    rw [Router.sendEach, h.entryOf hm, Res.ok_bind]
    simp only [hc]
    rw [ih (fun q hq => hps q (List.mem_cons_of_mem _ hq)), Res.ok_bind, h.recipients_cons hm hc]
    by_cases hs : skip = some c
    · simp [hs]
    · simp [hs, msgTo]

theorem own_noBrace : ∀ o ∈ ownPaths, ∀ t ∈ o, Routing.brace t = false := by decide

/-- Entries at a name elsewhere are of clients. -/
theorem RInv.elsewhere {removal pre s G} (h : RInv removal pre s G) {q : Bytes} (hq : Elsewhere q)
    {p p0 : Routing.Path} (h1 : p0 <+: p) (h2 : Routing.Near (tokens q) p0) (h3 : tokens q ≠ []) :
    OfClients s ((atPath G p).map (·.data)) := by
  intro d hd
  obtain ⟨g, hg, rfl⟩ := List.mem_map.mp hd
  obtain ⟨hg, hp⟩ := List.mem_filter.mp hg
  have hp : g.path = p := by simpa using hp
  refine ⟨?_, h.data g hg⟩
  intro h0
  have hown := (h.own g hg).mp h0
  rw [hp] at hown
  obtain ⟨o, ho, rfl⟩ := List.mem_map.mp hown
  rcases hq with rfl | hq
  · exact h3 rfl
  · exact Routing.apart_near (own_noBrace _ hown) (hq o ho) h2 h1

theorem RInv.lookup_elsewhere {removal pre s G} (h : RInv removal pre s G) {q : Bytes} (hq : Elsewhere q)
    (hf : Fits q) (hdot : q.getLast? ≠ some 46) :
    ∃ l : List Ent, (∀ g ∈ l, g ∈ G) ∧ Routing.getTopicRoutes s.tree q = .ok (l.map (·.id)) ∧
      Routing.lookup s.tree q = .ok (l.map (·.data)) ∧ OfClients s (l.map (·.data)) := by
  obtain ⟨p, e1, e2, e3⟩ := Routing.lookup_spec h.tree (Routing.tokenize_ok hf.2 hf.1) hdot
  refine ⟨atPath G p, fun g hg => (List.mem_filter.mp hg).1, e1, e2, ?_⟩
  rcases e3 with e3 | ⟨p0, f1, f2, f3⟩
  · rw [e3]; intro p hp; cases hp
  · exact h.elsewhere hq f1 f2 f3

theorem RInv.sendMessage {removal pre s G} (h : RInv removal pre s G) (hd : Header) (ct : Content)
    (skip : Option Nat) (hq : Elsewhere hd.topic) (hf : Fits hd.topic) (hdot : hd.topic.getLast? ≠ some 46) :
    ∃ l, Routing.lookup s.tree hd.topic = .ok l ∧
      sendMessage s hd ct skip = .ok (((recipients s l).filter (fun r => skip ≠ some r.1)).map (msgTo hd ct)) := by
  obtain ⟨l, -, -, e1, e2⟩ := h.lookup_elsewhere hq hf hdot
  refine ⟨_, e1, ?_⟩
  rw [Router.sendMessage, e1, Res.ok_bind, h.sendEach hd ct skip _ e2]

theorem RInv.visit_clients {removal pre s G} (h : RInv removal pre s G) (c : Nat) (m : Message)
    (l : List Ent) (hl : ∀ g ∈ l, g ∈ G) (hc : OfClients s (l.map (·.data))) :
    visit s c m (l.map (·.id)) =
      .ok (s, (recipients s (l.map (·.data))).map (msgTo m.hdr (.forwarded m.payload))) := by
  induction l with
  | nil => rfl
  | cons g l ih =>
    obtain ⟨h0, he⟩ := hc g.data (by simp)
    obtain ⟨e, d, he, e1, hd, -⟩ := h.client h0 he
    rw [List.map_cons, visit, Routing.deref_ent h.tree (hl g (by simp)), Res.ok_bind, ← e1, h.entryOf he,
      Res.ok_bind]
    simp only [hd]
    rw [ih (fun x hx => hl x (List.mem_cons_of_mem _ hx))
      (fun q hq => hc q (by simp only [List.map_cons, List.mem_cons] at hq ⊢; exact Or.inr hq)), Res.ok_bind,
      List.map_cons, ← e1, h.recipients_cons he hd]
    rfl

/-! ## Changes -/

theorem online_snoc (pre : List Event) (e : Event) : online (pre ++ [e]) = online1 (online pre) e := by
  simp [online, List.foldl_append]

theorem RInv.more {removal pre s G} (h : RInv removal pre s G) (c : Nat) (m : Message) :
    RInv removal (pre ++ [.message c m]) s G := by
  refine { h with live := ?_ }
  intro e he d hd
  obtain ⟨h1, m', f, h2, h3⟩ := h.live e he d hd
  rw [online_snoc]
  exact ⟨h1, m', f, List.mem_append_left _ h2, h3⟩

theorem RInv.setClients {removal pre s G} (h : RInv removal pre s G) (cs : List Client) :
    RInv removal pre { s with clients := cs } G := { h with }

theorem elsewhere_path {e : Bytes} {a : Routing.Path} (hE : Elsewhere e) (hne : tokens e ≠ [])
    (hn : Routing.Near (tokens e) a) : a ∉ ownPaths := by
  intro ha
  obtain ⟨o, ho, rfl⟩ := List.mem_map.mp ha
  rcases hE with rfl | hE
  · exact hne rfl
  · exact Routing.apart_near (own_noBrace _ ha) (hE o ho) hn List.prefix_rfl

/-- Adding a name to a route of a client. -/
theorem RInv.addName {removal pre s G} (h : RInv removal pre s G) {x : Bytes} (d : Nat) (dup : Bool)
    (hd : d ≠ 0) (hde : ∃ e ∈ s.entries, e.ptr = d) (hE : Elsewhere x) (ht : x.count 46 < 32) (hlen : x.length < 512)
    (hnew : (∀ g ∈ G, g.data ≠ d) ∨ (dup = true ∧ x ≠ Routing.advisory)) :
    ∃ t rc G', Routing.addTopicRoute s.tree x d dup = .ok (t, rc) ∧
      RInv removal pre { s with tree := t } G' := by
  obtain ⟨t, rc, e⟩ := Routing.addTopicRoute_ok s.tree d dup (Routing.tokenize_ok ht hlen)
  obtain ⟨f1, f2⟩ := Routing.addTopicRoute_spec h.tree e
  by_cases hrc : rc = .ok
  · rcases f2 hrc with ⟨-, rfl⟩ | ⟨a, id, hne, hadd, hexcl, hinv⟩
    · exact ⟨_, rc, G, e, { h with }⟩
    · refine ⟨t, rc, G ++ [⟨a, id, d⟩], e, ?_⟩
      obtain ⟨a', e', hnear⟩ := Routing.add_near id _ (tokens x) false true [] s.tree.root (q := a) (by rw [hadd])
      simp only [List.nil_append] at e'
      subst e'
      have hfresh : ∀ g ∈ G, ¬ (g.path = a ∧ g.data = d) := by
        rintro g hg ⟨p1, p2⟩
        rcases hnew with hnew | ⟨rfl, hnew⟩
        · exact hnew g hg p2
        · exact hexcl (by simp [hnew]) g hg p1
      refine { h with tree := hinv hfresh, below := ?_, data := ?_, own := ?_ }
      · intro hr
        exact Routing.below_add h.tree (h.below hr) hadd
      · intro g hg
        rcases List.mem_append.mp hg with hg | hg
        · exact h.data g hg
        · rw [List.mem_singleton] at hg
          subst hg
          exact hde
      · intro g hg
        rcases List.mem_append.mp hg with hg | hg
        · exact h.own g hg
        · rw [List.mem_singleton] at hg
          subst hg
          have := elsewhere_path hE hne hnear
          constructor
          · intro h0; exact absurd h0 hd
          · intro h0; exact absurd h0 this
  · obtain ⟨g1, g2⟩ := f1 hrc
    refine ⟨t, rc, G, e, { h with tree := g1, below := ?_ }⟩
    intro hr p c hp hg
    rw [show ({ s with tree := t } : State).tree.root = s.tree.root from g2] at hg
    exact h.below hr p c hp hg

theorem RInv.clearRoute {removal pre s G} (h : RInv removal pre s G) (d : Nat) :
    RInv removal pre (clearRoute s d) (G.filter (fun g => g.data ≠ d)) := by
  have hsub : ((s.entries.filter (fun e => e.ptr ≠ d))).Sublist s.entries := List.filter_sublist
  constructor
  · exact Routing.removeRoute_spec h.tree d
  · intro hr
    exact Routing.below_removeRoute h.tree (h.below hr) d
  · intro g hg
    rw [List.mem_filter] at hg
    obtain ⟨e, he, hp⟩ := h.data g hg.1
    refine ⟨e, List.mem_filter.mpr ⟨he, ?_⟩, hp⟩
    rw [hp]; exact hg.2
  · intro g hg
    exact h.own g (List.mem_filter.mp hg).1
  · exact List.Nodup.sublist (hsub.map _) h.ptrs
  · intro e he
    exact h.lt e (hsub.mem he)
  · exact h.pos
  · intro e he
    exact h.anon e (hsub.mem he)
  · intro e he
    exact h.live e (hsub.mem he)

theorem RInv.removeTopic {pre s G} (h : RInv true pre s G) {x : Bytes} (ht : x.count 46 < 32)
    (hlen : x.length < 512) :
    ∃ t G', Routing.removeTopic s.tree x = .ok t ∧ RInv true pre { s with tree := t } G' := by
  obtain ⟨t, e1, e2⟩ := Routing.removeTopic_spec h.tree x (Routing.tokenize_ok ht hlen)
  rcases e2 with ⟨-, rfl⟩ | ⟨root, a, c, -, -, e2⟩
  · exact ⟨_, G, e1, { h with }⟩
  · refine ⟨t, _, e1, { h with tree := e2, below := (by intro h0; cases h0), data := ?_, own := ?_ }⟩
    · intro g hg
      exact h.data g (List.mem_filter.mp hg).1
    · intro g hg
      exact h.own g (List.mem_filter.mp hg).1

end Verif.Router
