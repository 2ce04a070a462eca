import Verif.Proof.RouterConv

/-! # Facts about tables, and the router's answers -/

namespace Verif.Router

open Verif Verif.Spec.Routing Verif.Spec.Router
open Verif.Routing (GInv Below Ent atPath tokens CInv regs)

/-- The client and id of a route of the table. -/
def holder (T : Table) (u : Nat) : Option (Nat × Int) :=
  (T.routes.find? (fun r => r.uid = u)).map (fun r => (r.client, r.id))

theorem receivers_eq (T : Table) (q : Name) : T.receivers q = (owners T.regs q).filterMap (holder T) := rfl

/-- Numbers of routes are not used twice. -/
def Distinct (T : Table) : Prop := (T.routes.map (·.uid)).Nodup

theorem CR.distinct {P pre s T G} (h : CR P pre s T G) : Distinct T := by
  have := h.inv.ptrs
  rw [h.entries, List.map_cons, List.map_map, List.nodup_cons] at this
  exact this.2

theorem find_uid {T : Table} (h : Distinct T) {r : Route} (hr : r ∈ T.routes) :
    T.routes.find? (fun x => x.uid = r.uid) = some r := by
  cases hf : T.routes.find? (fun x => x.uid = r.uid) with
  | none =>
    rw [List.find?_eq_none] at hf
    exact absurd (by simp) (hf r hr)
  | some x =>
    have h1 := List.mem_of_find?_eq_some hf
    have h2 : x.uid = r.uid := by simpa using List.find?_some hf
    rw [Routing.inj_of_nodup (·.uid) (show (T.routes.map (·.uid)).Nodup from h) h1 hr h2]

theorem find_filter_uid (l : List Route) {u v : Nat} (h : v ≠ u) :
    (l.filter (fun r => r.uid ≠ u)).find? (fun r => r.uid = v) = l.find? (fun r => r.uid = v) := by
  induction l with
  | nil => rfl
  | cons r l ih =>
    by_cases hr : r.uid = u
    · rw [List.filter_cons_of_neg (by simpa using hr), ih, List.find?_cons_of_neg (by simp; omega)]
    · rw [List.filter_cons_of_pos (by simpa using hr), List.find?_cons, List.find?_cons, ih]

/-- Whether a name of the table is for a name asked for. -/
def serves (q : Name) (x : Name × Nat) : Bool := covers x.1 q || covers x.1 (q ++ [rows])

theorem receivers_regs (T : Table) (q : Name) :
    T.receivers q = (T.regs.filter (serves q)).filterMap (fun x => holder T x.2) := by
  rw [receivers_eq, owners, List.filterMap_map]
  rfl

/-- Removing registrations of routes of `c` changes nothing for others. -/
theorem receivers_filter (T T' : Table) (c : Nat) (q : Name) (keep : Name × Nat → Bool)
    (hregs : T'.regs = T.regs.filter keep)
    (hkeep : ∀ x ∈ T.regs, keep x = true → holder T' x.2 = holder T x.2)
    (hgone : ∀ x ∈ T.regs, keep x = false → ∀ p, holder T x.2 = some p → p.1 = c) :
    (T'.receivers q).filter (fun r => r.1 ≠ c) = (T.receivers q).filter (fun r => r.1 ≠ c) := by
  rw [receivers_regs, receivers_regs, hregs]
  generalize T.regs = l at hkeep hgone
  clear hregs
  induction l with
  | nil => rfl
  | cons x l ih =>
    have ih' := ih (fun y hy => hkeep y (List.mem_cons_of_mem _ hy)) (fun y hy => hgone y (List.mem_cons_of_mem _ hy))
    cases hk : keep x with
    | true =>
      rw [List.filter_cons_of_pos hk]
      cases hs : serves q x with
      | true =>
        rw [List.filter_cons_of_pos hs, List.filter_cons_of_pos hs, List.filterMap_cons, List.filterMap_cons,
          hkeep x (by simp) hk]
        cases hh : holder T x.2 with
        | none => exact ih'
        | some p =>
          dsimp only
          rw [List.filter_cons, List.filter_cons, ih']
      | false =>
        rw [List.filter_cons_of_neg (by simp [hs]), List.filter_cons_of_neg (by simp [hs])]
        exact ih'
    | false =>
      rw [List.filter_cons_of_neg (by simp [hk])]
      cases hs : serves q x with
      | true =>
        rw [List.filter_cons_of_pos hs, List.filterMap_cons]
        cases hh : holder T x.2 with
        | none => exact ih'
        | some p =>
          dsimp only
          rw [List.filter_cons_of_neg (by simpa using hgone x (by simp) hk p hh)]
          exact ih'
      | false =>
        rw [List.filter_cons_of_neg (by simp [hs])]
        exact ih'

theorem receivers_unsubscribe {T : Table} (hd : Distinct T) {c : Nat} {n : Name} (h : OwnName T c n) (q : Name) :
    ((T.unsubscribe c n).receivers q).filter (fun r => r.1 ≠ c) = (T.receivers q).filter (fun r => r.1 ≠ c) := by
  unfold Table.unsubscribe
  cases hf : T.routes.find? (fun r => r.main = n ∧ r.client = c) with
  | some r =>
    dsimp only
    have hr := List.mem_of_find?_eq_some hf
    have hrc : r.main = n ∧ r.client = c := by simpa using List.find?_some hf
    apply receivers_filter T (T.drop r.uid) c q (fun x => x.2 ≠ r.uid) rfl
    · intro x _ hx
      have hx : x.2 ≠ r.uid := by simpa using hx
      simp only [holder, Table.drop]
      rw [find_filter_uid _ hx]
    · intro x _ hx p hp
      have hx : x.2 = r.uid := by simpa using hx
      rw [holder, hx, find_uid hd hr] at hp
      cases hp
      exact hrc.2
  | none =>
    dsimp only
    apply receivers_filter T _ c q (fun x => ¬ n <+: x.1) rfl
    · intro x _ _
      rfl
    · intro x hx hk p hp
      have hk : n <+: x.1 := by simpa using hk
      rcases h with ⟨r, hr, h1, h2⟩ | h
      · rw [List.find?_eq_none] at hf
        exact absurd h2 ((by simpa using hf r hr : r.main = n → ¬ r.client = c) h1)
      · obtain ⟨r, hr, h1, h2⟩ := h x hx hk
        rw [holder, ← h1, find_uid hd hr] at hp
        cases hp
        exact h2

/-! ## Answers -/

theorem fullName_dotted (n : Name) : fullName n = dotted n := by
  induction n with
  | nil => rfl
  | cons t n ih =>
    cases n with
    | nil => rfl
    | cons u n => rw [fullName, dotted, ih]

theorem CR.reply {P pre s T G} (hP : Conventional P) (h : CR P pre s T G) {hd : Header} {q : Name}
    (hq : Askable P q) (hr : hd.reply = dotted q) (he : Elsewhere hd.reply)
    (hf : Fits hd.reply) (hdot : hd.reply.getLast? ≠ some 46) (ct : Content) :
    sendMessage s (replyHeader hd) ct none = .ok ((T.receivers q).map (msgTo (replyHeader hd) ct)) := by
  obtain ⟨l, l1, l2, l3, l4⟩ := h.inv.lookup_elsewhere he hf hdot
  have hlook := Routing.lookup_conv hP h.conv hq
  rw [← hr, l3, h.regs] at hlook
  simp only [Res.ok.injEq] at hlook
  have hrec : recipients s (l.map (·.data)) = T.receivers q := by
    rw [h.receivers l4, hlook]
    rfl
  have l3' : Routing.lookup s.tree (replyHeader hd).topic = .ok (l.map (·.data)) := l3
  rw [Router.sendMessage, l3', Res.ok_bind, h.inv.sendEach _ _ _ _ l4, hrec]
  rw [List.filter_eq_self.mpr (by simp)]

theorem CR.unroutable {P pre s T G} (hP : Conventional P) (h : CR P pre s T G) {c : Nat} {m : Message}
    {q qr : Name} (hq : Askable P q) (ht : m.hdr.topic = dotted q) (he : Elsewhere m.hdr.topic)
    (hf : Fits m.hdr.topic) (hdot : m.hdr.topic.getLast? ≠ some 46)
    (hnone : owners T.regs q = []) (hreq : m.hdr.request = true)
    (hqr : Askable P qr) (hr : m.hdr.reply = dotted qr) (her : Elsewhere m.hdr.reply)
    (hfr : Fits m.hdr.reply) (hdotr : m.hdr.reply.getLast? ≠ some 46) :
    dispatch s c m = .ok (s, (T.receivers qr).map (msgTo (turned m).hdr (.forwarded []))) := by
  obtain ⟨l, -, l2, l3, -⟩ := h.inv.lookup_elsewhere he hf hdot
  have hlook := Routing.lookup_conv hP h.conv hq
  rw [← ht, l3, h.regs, hnone] at hlook
  simp only [Res.ok.injEq] at hlook
  have hl : l = [] := by simpa using hlook
  subst hl
  obtain ⟨l', k1, k2, k3, k4⟩ := h.inv.lookup_elsewhere her hfr hdotr
  have hlook' := Routing.lookup_conv hP h.conv hqr
  rw [← hr, k3, h.regs] at hlook'
  simp only [Res.ok.injEq] at hlook'
  rw [Router.dispatch, l2, Res.ok_bind, if_neg (by simp), if_pos hreq, k2, Res.ok_bind,
    h.inv.visit_clients c (turned m) l' k1 k4, h.receivers k4, hlook']
  rfl

/-! ## Tables as served -/

theorem dotted_count_lt {n : Name} (h0 : n ≠ []) (h : ∀ t ∈ n, t ≠ [] ∧ (46 : UInt8) ∉ t) :
    (dotted n).count 46 < n.length := by
  induction n with
  | nil => exact absurd rfl h0
  | cons t n ih =>
    cases n with
    | nil => rw [dotted, List.count_eq_zero.mpr (h t (by simp)).2]; simp
    | cons u ts =>
      have := ih (by simp) (fun x hx => h x (List.mem_cons_of_mem _ hx))
      rw [dotted, List.count_append, List.count_eq_zero.mpr (h t (by simp)).2, List.count_cons_self]
      simp only [List.length_cons] at *
      omega

theorem Addressed.fits {P : List Name} {t : Bytes} {q : Name} (h : Addressed P t q) :
    Fits t ∧ t.getLast? ≠ some 46 := by
  obtain ⟨h1, h2, -⟩ := h
  have hp := h1.1
  rw [h2]
  refine ⟨⟨hp.2.2.2, ?_⟩, Routing.dotted_getLast hp.2.1⟩
  have := dotted_count_lt hp.1 hp.2.1
  have := hp.2.2.1
  omega

theorem CR.lookup {P pre s T G} (hP : Conventional P) (h : CR P pre s T G) {t : Bytes} {q : Name}
    (hq : Addressed P t q) :
    ∃ l : List Ent, (∀ g ∈ l, g ∈ G) ∧ Routing.getTopicRoutes s.tree t = .ok (l.map (·.id)) ∧
      Routing.lookup s.tree t = .ok (l.map (·.data)) ∧ OfClients s (l.map (·.data)) ∧
      l.map (·.data) = owners T.regs q := by
  obtain ⟨l, l1, l2, l3, l4⟩ := h.inv.lookup_elsewhere hq.2.2 hq.fits.1 hq.fits.2
  have hlook := Routing.lookup_conv hP h.conv hq.1
  rw [← hq.2.1, l3, h.regs] at hlook
  simp only [Res.ok.injEq] at hlook
  exact ⟨l, l1, l2, l3, l4, hlook⟩

theorem CR.receivers_none {P pre s T G} (hP : Conventional P) (h : CR P pre s T G) {t : Bytes} {q : Name}
    (hq : Addressed P t q) (h0 : T.receivers q = []) : owners T.regs q = [] := by
  obtain ⟨l, l1, l2, l3, l4, l5⟩ := h.lookup hP hq
  rw [← l5]
  cases l with
  | nil => rfl
  | cons g l =>
    exfalso
    have hr := h.receivers l4
    obtain ⟨k0, k1⟩ := l4 g.data (by simp)
    obtain ⟨e, d, he, e1, hd, -⟩ := h.inv.client k0 k1
    rw [l5] at hr
    have : recipients s (owners T.regs q) = T.receivers q := hr
    rw [h0, ← l5, List.map_cons, ← e1, h.inv.recipients_cons he hd] at this
    cases this

theorem CR.forwards {P pre s T G} (hP : Conventional P) (h : CR P pre s T G) : Forwards P s T := by
  intro c m q hq hne
  have hf := hq.fits
  by_cases hr : m.hdr.request = true
  · rcases hne with hne | hne
    · exact h.dispatch_other hP hq.1 hq.2.1 hq.2.2 hf.1 hf.2 (fun _ => hne)
    · rw [hr] at hne; cases hne
  · exact h.dispatch_other hP hq.1 hq.2.1 hq.2.2 hf.1 hf.2 (fun h' => absurd h' hr)

theorem CR.returns {P pre s T G} (hP : Conventional P) (h : CR P pre s T G) : Returns P s T := by
  intro c m q qr hq h0 hr hqr
  exact h.unroutable hP hq.1 hq.2.1 hq.2.2 hq.fits.1 hq.fits.2 (h.receivers_none hP hq h0) hr hqr.1 hqr.2.1 hqr.2.2
    hqr.fits.1 hqr.fits.2

theorem actNames_append (as bs : List Act) : actNames (as ++ bs) = actNames as ++ actNames bs := by
  induction as with
  | nil => rfl
  | cons a as ih => rw [List.cons_append, actNames_cons, ih, actNames_cons a as, List.append_assoc]

/-- A regular history up to some point, in the names of the whole. -/
theorem Regular.prefix {as bs : List Act} (h : Regular (as ++ bs)) :
    ∃ s₀ s dss fs G, boot = .ok s₀ ∧ Router.run s₀ (as.map event) = .ok (s, dss) ∧ fs.length = as.length ∧
      CR (allNames (as ++ bs)) (as.map event) s (tableRun table0 (as.zip fs)) G := by
  have hu := h.usual
  obtain ⟨s₀, G, b1, b2⟩ := table0_ok hu.conv hu.own
  obtain ⟨s, dss, fs, G', r1, r2, r3⟩ := CR.run hu as b2
    (fun x e y hxy => by
      have := h.2.2.2 x e (y ++ bs.map event) (by rw [List.map_append, hxy]; simp)
      simpa using this)
    (fun n hn => ⟨List.mem_append_right _ (by rw [actNames_append]; exact List.mem_append_left _ hn),
      h.2.1 n (by rw [actNames_append]; exact List.mem_append_left _ hn)⟩)
    (fun c m hm => h.2.2.1 c m (List.mem_append_left _ hm))
  exact ⟨s₀, s, dss, fs, G', b1, r1, r2, by simpa using r3⟩

theorem Regular.now {as : List Act} (h : Regular as) :
    ∃ s₀ s dss fs G, boot = .ok s₀ ∧ Router.run s₀ (as.map event) = .ok (s, dss) ∧ fs.length = as.length ∧
      CR (allNames as) (as.map event) s (tableRun table0 (as.zip fs)) G := by
  have := Regular.prefix (as := as) (bs := []) (by simpa using h)
  simpa using this

theorem Regular.next {as : List Act} {a : Act} (h : Regular (as ++ [a])) {s : State} {T : Table} {G : List Ent}
    (hc : CR (allNames (as ++ [a])) (as.map event) s T G) :
    ∃ s' ds b G', Router.step s (event a) = .ok (s', ds) ∧
      CR (allNames (as ++ [a])) ((as ++ [a]).map event) s' (tableStep T b a) G' := by
  have hall := h.2.2.2 (as.map event) (event a) [] (by simp)
  obtain ⟨s', ds, b, G', e1, e2, -⟩ := hc.step h.usual hall
    (fun n hn => ⟨List.mem_append_right _ (by rw [actNames_append]; exact List.mem_append_right _ hn),
      h.2.1 n (by rw [actNames_append]; exact List.mem_append_right _ hn)⟩)
    (fun c m hm => h.2.2.1 c m (by rw [hm]; simp))
  exact ⟨s', ds, b, G', e1, by simpa using e2⟩

theorem find_filter_client (l : List Route) (c u : Nat) (hd : (l.map (·.uid)).Nodup)
    (h : ∀ r ∈ l, r.uid = u → r.client ≠ c) :
    (l.filter (fun r => r.client ≠ c)).find? (fun r => r.uid = u) = l.find? (fun r => r.uid = u) := by
  induction l with
  | nil => rfl
  | cons r l ih =>
    have ih' := ih (List.nodup_cons.mp hd).2 (fun x hx => h x (List.mem_cons_of_mem _ hx))
    by_cases hr : r.client = c
    · have : r.uid ≠ u := fun e => h r (by simp) e hr
      rw [List.filter_cons_of_neg (by simpa using hr), ih', List.find?_cons_of_neg (by simpa using this)]
    · rw [List.filter_cons_of_pos (by simpa using hr), List.find?_cons, List.find?_cons, ih']

/-- When a client leaves, exactly its routes are gone. -/
theorem receivers_leave {T : Table} (hd : Distinct T) (c : Nat) (q : Name) :
    (T.leave c).receivers q = (T.receivers q).filter (fun r => r.1 ≠ c) := by
  have h1 : ((T.leave c).receivers q).filter (fun r => r.1 ≠ c) = (T.receivers q).filter (fun r => r.1 ≠ c) := by
    apply receivers_filter T (T.leave c) c q
      (fun x => x.2 ∉ (T.routes.filter (fun r => r.client = c)).map (·.uid)) rfl
    · intro x _ hx
      have hx : ∀ r ∈ T.routes, r.client = c → ¬ r.uid = x.2 := by simpa using hx
      simp only [holder, Table.leave]
      rw [find_filter_client _ c x.2 hd (fun r hr hu hcl => hx r hr hcl hu)]
    · intro x _ hx p hp
      have hx : ∃ r ∈ T.routes, r.client = c ∧ r.uid = x.2 := by simpa using hx
      obtain ⟨r, hr, hc, hu⟩ := hx
      rw [holder, ← hu, find_uid hd hr] at hp
      cases hp
      exact hc
  rw [← h1, List.filter_eq_self.mpr]
  intro r hr
  rw [receivers_regs, List.mem_filterMap] at hr
  obtain ⟨x, -, hx⟩ := hr
  rw [holder, Option.map_eq_some_iff] at hx
  obtain ⟨r', hf, rfl⟩ := hx
  have := (List.mem_filter.mp (List.mem_of_find?_eq_some hf)).2
  simpa using this

/-! ## Discovery -/

theorem CR.request {P pre s T G} (hP : Usual P) (h : CR P pre s T G) {c : Nat} {m : Message}
    (ho : m.hdr.topic ∈ ownTopics) : Router.step s (.message c m) = onMessage s c m :=
  h.dispatch_own hP.conv hP.own hP.above ho

theorem CR.answered {P pre s T G} (hP : Usual P) (h : CR P pre s T G) {m : Message} {qr : Name}
    (hr : Addressed P m.hdr.reply qr) (ct : Content) :
    sendMessage s (replyHeader m.hdr) ct none = .ok ((T.receivers qr).map (answer m ct)) :=
  h.reply hP.conv hr.1 hr.2.1 hr.2.2 hr.fits.1 hr.fits.2 ct

theorem CR.components {P pre s T G} (hP : Usual P) (h : CR P pre s T G) {c : Nat} {m : Message} {qr : Name}
    (ht : m.hdr.topic = componentsTopic) (hreq : m.hdr.request = true) (hr : Addressed P m.hdr.reply qr) :
    Router.step s (.message c m) = .ok (s, (T.receivers qr).map
      (answer m (.components ((T.routes.map (fun r => dotted r.main)).filter (fun x => x.head? ≠ some 95))))) := by
  rw [h.request hP (by rw [ht]; simp [ownTopics]), onMessage, if_neg (by rw [ht]; decide), if_pos ht, onComponents,
    if_pos hreq]
  have : (s.entries.map (·.expr)).filter (fun x => x ≠ [] ∧ x.head? ≠ some 95) =
      (T.routes.map (fun r => dotted r.main)).filter (fun x => x.head? ≠ some 95) := by
    rw [h.entries, List.map_cons, List.filter_cons_of_neg (by decide), List.map_map]
    have e : ((fun x : Entry => x.expr) ∘ entry) = fun r => dotted r.main := rfl
    rw [e]
    apply List.filter_congr
    intro x hx
    obtain ⟨r, hr, rfl⟩ := List.mem_map.mp hx
    have := (hP.conv.1 _ (h.mains r hr)).1
    have hne := Routing.dotted_ne this.1 (fun t ht => (this.2.1 t ht).1)
    simp [hne]
  rw [this, h.answered hP hr, Res.ok_bind]
  rfl

theorem CR.topics {P pre s T G} (h : CR P pre s T G) (u : Nat) :
    (Routing.routeTopics s.tree u).Nodup ∧ ∀ n, n ∈ Routing.routeTopics s.tree u ↔ (n, u) ∈ T.regs := by
  have hregs : ∀ n, (n, u) ∈ T.regs ↔ ∃ g ∈ G, g.path = n ∧ g.data = u := by
    intro n
    rw [← h.regs, Routing.regs, List.mem_map]
    constructor
    · rintro ⟨g, hg, e⟩
      cases e
      exact ⟨g, hg, rfl, rfl⟩
    · rintro ⟨g, hg, rfl, rfl⟩
      exact ⟨g, hg, rfl⟩
  have hrs := h.inv.tree.rs
  unfold Routing.routeTopics
  cases hf : s.tree.routes.find? (fun r => r.data = u) with
  | none =>
    refine ⟨List.nodup_nil, fun n => ?_⟩
    rw [hregs]
    refine ⟨fun hn => (by cases hn), ?_⟩
    rintro ⟨g, hg, -, rfl⟩
    obtain ⟨r, hr, -, hd⟩ := hrs.alive g hg
    rw [List.find?_eq_none] at hf
    exact absurd hd (by simpa using hf r hr)
  | some r =>
    have hm := List.mem_of_find?_eq_some hf
    have hd : r.data = u := by simpa using List.find?_some hf
    refine ⟨(hrs.tops r hm).1, fun n => ?_⟩
    rw [hregs]
    show n ∈ r.topics ↔ _
    rw [(hrs.tops r hm).2]
    constructor
    · rintro ⟨g, hg, h1, h2⟩
      obtain ⟨r', hr', k1, k2⟩ := hrs.alive g hg
      have := Routing.inj_of_nodup (·.id) hrs.ids hr' hm (by rw [k1, h2])
      subst this
      exact ⟨g, hg, h1, by rw [← k2, hd]⟩
    · rintro ⟨g, hg, h1, h2⟩
      obtain ⟨r', hr', k1, k2⟩ := hrs.alive g hg
      have := Routing.inj_of_nodup (·.data) hrs.datas hr' hm (by rw [k2, h2, hd])
      subst this
      exact ⟨g, hg, h1, k1.symm⟩

theorem CR.elements {P pre s T G} (hP : Usual P) (h : CR P pre s T G) {c : Nat} {m : Message} {qr n : Name} {f : Fields}
    (ht : m.hdr.topic = elementsTopic) (hreq : m.hdr.request = true) (hr : Addressed P m.hdr.reply qr)
    (hb : m.body = .json f) (hx : f.expression = some (some (dotted n))) (hn : n ∈ P) (he : dotted n ≠ ownEntry.expr) :
    ∃ ns : List Name, ns.Nodup ∧
      (∀ x, x ∈ ns ↔ ∃ r, T.routes.find? (fun r => r.main = n) = some r ∧ (x, r.uid) ∈ T.regs) ∧
      Router.step s (.message c m) = .ok (s, (T.receivers qr).map (answer m (.elements (ns.map dotted)))) := by
  have hstep : Router.step s (.message c m) = (do let ds ← onElements s m.hdr m.body; pure (s, ds)) := by
    rw [h.request hP (by rw [ht]; simp [ownTopics]), onMessage, if_neg (by rw [ht]; decide),
      if_neg (by rw [ht]; decide), if_neg (by rw [ht]; decide), if_pos ht]
  have hfind : s.entries.find? (fun e => e.expr = dotted n) =
      (T.routes.find? (fun r => r.main = n)).map entry := by
    rw [h.entries, List.find?_cons]
    have : (decide (ownEntry.expr = dotted n)) = false := by
      simp only [decide_eq_false_iff_not]
      exact fun hc => he hc.symm
    rw [this]
    simp only []
    rw [List.find?_map]
    congr 1
    have hmains := h.mains
    generalize T.routes = l at hmains
    induction l with
    | nil => rfl
    | cons r l ih =>
      have ih' := ih (fun x hx => hmains x (List.mem_cons_of_mem _ hx))
      rw [List.find?_cons, List.find?_cons, ih']
      have : (((fun e : Entry => decide (e.expr = dotted n)) ∘ entry) r) = decide (r.main = n) := by
        show decide ((entry r).expr = dotted n) = decide (r.main = n)
        exact decide_eq_decide.mpr ⟨fun e => dotted_inj hP.conv (hmains r (by simp)) hn e, fun e => by rw [← e]; rfl⟩
      rw [this]
  cases hf : T.routes.find? (fun r => r.main = n) with
  | none =>
    refine ⟨[], List.nodup_nil, fun x => ⟨fun hx => (by cases hx), ?_⟩, ?_⟩
    · rintro ⟨r, hr, -⟩
      cases hr
    · rw [hstep, hb]
      rw [hf] at hfind
      simp only [onElements, hreq, if_true, hx, hfind, Option.map_none]
      rw [h.answered hP hr, Res.ok_bind]
      rfl
  | some r =>
    obtain ⟨t1, t2⟩ := h.topics r.uid
    refine ⟨_, t1, fun x => ?_, ?_⟩
    · rw [t2]
      constructor
      · intro hx
        exact ⟨r, rfl, hx⟩
      · rintro ⟨r', hr', hx⟩
        cases hr'
        exact hx
    · rw [hstep, hb]
      rw [hf] at hfind
      simp only [onElements, hreq, if_true, hx, hfind, Option.map_some]
      rw [h.answered hP hr, Res.ok_bind]
      have : (entry r).ptr = r.uid := rfl
      rw [this]
      have : (fullName : Routing.Path → Bytes) = dotted := funext fullName_dotted
      rw [this]
      rfl

theorem CR.exprs {P pre s T G} (h : CR P pre s T G) {l : List Nat} (hl : OfClients s l) :
    exprs s l = .ok (l.filterMap (fun u => (T.routes.find? (fun r => r.uid = u)).map (fun r => dotted r.main))) := by
  induction l with
  | nil => rfl
  | cons p l ih =>
    have ih' := ih (fun x hx => hl x (List.mem_cons_of_mem _ hx))
    obtain ⟨k0, k1⟩ := hl p (by simp)
    obtain ⟨e, d, he, e1, hd, -⟩ := h.inv.client k0 k1
    have he' := he
    rw [h.entries] at he'
    rcases List.mem_cons.mp he' with rfl | he'
    · exact absurd e1.symm k0
    · obtain ⟨r, hr, rfl⟩ := List.mem_map.mp he'
      have hu : r.uid = p := e1
      rw [Router.exprs, ← e1, h.inv.entryOf he, Res.ok_bind, ih', Res.ok_bind, List.filterMap_cons,
        show (entry r).ptr = r.uid from rfl, find_uid h.distinct hr]
      rfl

theorem CR.traceEach {P pre s T G} (hP : Usual P) (h : CR P pre s T G) (qs : List Name)
    (hq : ∀ q ∈ qs, Addressed P (dotted q) q) :
    traceEach s (qs.map (fun q => some (dotted q))) =
      .ok (some (qs.map (fun q => (T.mains q).length), (qs.flatMap T.mains).map dotted)) := by
  induction qs with
  | nil => rfl
  | cons q qs ih =>
    have ih' := ih (fun x hx => hq x (List.mem_cons_of_mem _ hx))
    obtain ⟨l, l1, l2, l3, l4, l5⟩ := h.lookup hP.conv (hq q (by simp))
    rw [List.map_cons, Router.traceEach, l3, Res.ok_bind, h.exprs l4, Res.ok_bind, ih', Res.ok_bind]
    have hmains : (l.map (·.data)).filterMap
        (fun u => (T.routes.find? (fun r => r.uid = u)).map (fun r => dotted r.main)) = (T.mains q).map dotted := by
      rw [l5, Table.mains, List.map_filterMap]
      congr 1
      funext u
      cases T.routes.find? (fun r => r.uid = u) <;> rfl
    have hlen : (l.map (·.data)).length = (T.mains q).length := by
      have := congrArg List.length hmains
      rw [List.length_map (f := dotted)] at this
      rw [← this]
      clear this hmains l1 l2 l3 l5
      generalize l.map (·.data) = l' at l4
      induction l' with
      | nil => rfl
      | cons p l' ih =>
        have ih'' := ih (fun x hx => l4 x (List.mem_cons_of_mem _ hx))
        obtain ⟨k0, k1⟩ := l4 p (by simp)
        obtain ⟨e, d, he, e1, hd, -⟩ := h.inv.client k0 k1
        have he' := he
        rw [h.entries] at he'
        rcases List.mem_cons.mp he' with rfl | he'
        · exact absurd e1.symm k0
        · obtain ⟨r, hr, rfl⟩ := List.mem_map.mp he'
          rw [List.filterMap_cons, ← e1, show (entry r).ptr = r.uid from rfl, find_uid h.distinct hr]
          simp only [Option.map_some, List.length_cons]
          rw [ih'']
    rw [hmains, hlen]
    simp

theorem CR.objects {P pre s T G} (hP : Usual P) (h : CR P pre s T G) {c : Nat} {m : Message} {qr : Name} {f : Fields}
    {qs : List Name} (ht : m.hdr.topic = objectsTopic) (hreq : m.hdr.request = true)
    (hr : Addressed P m.hdr.reply qr) (hb : m.body = .json f) (hne : qs ≠ []) (hcount : f.count = some (qs.length : Int))
    (hitems : f.items = qs.map (fun q => some (dotted q))) (hq : ∀ q ∈ qs, Addressed P (dotted q) q) :
    Router.step s (.message c m) = .ok (s, (T.receivers qr).map
      (answer m (.objects (some (qs.map (fun q => (T.mains q).length), (qs.flatMap T.mains).map dotted))))) := by
  rw [h.request hP (by rw [ht]; simp [ownTopics]), onMessage, if_neg (by rw [ht]; decide), if_neg (by rw [ht]; decide),
    if_neg (by rw [ht]; decide), if_neg (by rw [ht]; decide), if_pos ht, hb]
  have hpos : (0 : Int) < (qs.length : Int) := by
    have := List.length_pos_iff.mpr hne
    omega
  have htake : (f.items ++ List.replicate (((qs.length : Int)).toNat - f.items.length) none).take
      ((qs.length : Int)).toNat = qs.map (fun q => some (dotted q)) := by
    rw [hitems]
    simp only [Int.toNat_natCast, List.length_map, Nat.sub_self, List.replicate_zero, List.append_nil]
    exact List.take_of_length_le (by simp)
  simp only [onObjects, hreq, if_true, hcount, if_pos hpos]
  rw [htake, h.traceEach hP qs hq, Res.ok_bind, h.answered hP hr, Res.ok_bind]
  rfl

end Verif.Router
