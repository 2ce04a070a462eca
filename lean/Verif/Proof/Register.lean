import Verif.Spec.Register
import Verif.Proof.RouterTable
import Verif.Proof.RoutingFree

/-! # Registering data models -/

namespace Verif.RegisterProof

open Verif Verif.Spec.Routing Verif.Spec.Router Verif.Spec.Register Verif.Router Verif.Register
open Verif.Routing (Ent Clear)

/-! ## A dot at the end -/

theorem hasDotDot_dot {n : Name} (h : ∀ t ∈ n, t ≠ [] ∧ (46 : UInt8) ∉ t) : Routing.hasDotDot (dotted n ++ [46]) = false := by
  induction n with
  | nil => rfl
  | cons t n ih =>
    cases n with
    | nil =>
      rw [dotted, Routing.hasDotDot_append (h t (by simp))]
      rfl
    | cons u ts =>
      have h2 := ih (fun x hx => h x (List.mem_cons_of_mem _ hx))
      rw [dotted, List.append_assoc, Routing.hasDotDot_append (h t (by simp))]
      have hu := h u (by simp)
      cases hd : dotted (u :: ts) with
      | nil => exact absurd hd (Routing.dotted_ne (by simp) (fun t ht => (h t (List.mem_cons_of_mem _ ht)).1))
      | cons x xs =>
        rw [hd] at h2
        show Routing.hasDotDot (46 :: x :: (xs ++ [46])) = false
        rw [Routing.hasDotDot]
        have hx : x ∈ u := by
          cases u with
          | nil => exact absurd rfl hu.1
          | cons y u' =>
            cases ts <;> simp only [dotted, List.cons_append, List.cons.injEq] at hd <;> rw [hd.1] <;> simp
        have hne : ¬ x = Routing.dot := by
          intro e
          rw [e] at hx
          exact hu.2 hx
        have h2' : Routing.hasDotDot (x :: (xs ++ [46])) = false := h2
        rw [h2']
        simp [hne]

theorem tokenize_written {n : Name} {t : Bytes} (h : Proper n) (hw : Written n t) : Routing.tokenize t = .ok n := by
  rcases hw with rfl | rfl
  · exact Routing.tokenize_proper h
  · exact Routing.tokenize_proper_dot h

theorem validate_written {n : Name} {t : Bytes} (h : Proper n) (hw : Written n t) : Routing.validate t = true := by
  rcases hw with rfl | rfl
  · exact Routing.validate_proper h
  · obtain ⟨h1, h2, h3, h4⟩ := h
    unfold Routing.validate Routing.maxBuffer Routing.maxTokens
    rw [hasDotDot_dot h2]
    have hc := dotted_count_lt h1 h2
    have : (dotted n ++ [46]).count Routing.dot = (dotted n).count 46 + 1 := by
      rw [List.count_append]
      rfl
    simp only [Bool.not_false, Bool.true_and, Bool.and_eq_true, decide_eq_true_eq, this, List.length_append, List.length_cons,
      List.length_nil]
    omega

theorem tokens_written {n : Name} {t : Bytes} (h : Proper n) (hw : Written n t) : Routing.tokens t = n := by
  rcases hw with rfl | rfl
  · exact Routing.tokens_dotted h.2.1
  · exact Routing.tokens_dotted_dot h.2.1 h.1

theorem advisory_written {n : Name} {t : Bytes} (h : Proper n) (hw : Written n t) (ha : n ≠ advisoryName) : t ≠ Routing.advisory := by
  intro e
  have h1 := tokens_written h hw
  rw [e, ← Routing.advisory_dotted, Routing.tokens_dotted (by decide)] at h1
  exact ha h1.symm

theorem add_written {n : Name} {t : Bytes} (h : Proper n) (hw : Written n t) (ha : n ≠ advisoryName) (s : Routing.State) (u : Nat)
    (x : Bool) : Routing.addTopicRoute s t u x = Routing.addTopicRoute s (dotted n) u x := by
  have h1 : decide (t ≠ Routing.advisory) = true := by simpa using advisory_written h hw ha
  have h2 : decide (dotted n ≠ Routing.advisory) = true := by simpa using advisory_written h (.inl rfl) ha
  simp only [Routing.addTopicRoute, validate_written h hw, Routing.validate_proper h, tokenize_written h hw,
    Routing.tokenize_proper h, h1, h2]

theorem remove_written {n : Name} {t : Bytes} (h : Proper n) (hw : Written n t) (s : Routing.State) :
    Routing.removeTopic s t = Routing.removeTopic s (dotted n) := by
  simp only [Routing.removeTopic, tokenize_written h hw, Routing.tokenize_proper h]

theorem elsewhere_written {n : Name} {t : Bytes} (h : Proper n) (hw : Written n t) (he : Elsewhere (dotted n)) : Elsewhere t := by
  have hne : dotted n ≠ [] := Routing.dotted_ne h.1 (fun t ht => (h.2.1 t ht).1)
  rcases he with he | he
  · exact absurd he hne
  · refine .inr fun o ho => ?_
    have := he o ho
    unfold apart at this ⊢
    rw [tokens_written h hw]
    rw [tokens_written h (.inl rfl)] at this
    exact this

/-! ## Messages -/

theorem online_message (pre : List Event) (c : Nat) (m : Message) : online (pre ++ [.message c m]) = online pre := by
  simp [online, List.foldl_append, online1]

theorem allowed {P : List Name} {pre : List Event} {p : Provider} (hon : p.client ∈ online pre) {q : Name}
    (hq : Addressed P p.inbox q) {add : Bool} {n : Name} {t : Bytes} (hn : Proper n) (hw : Written n t) (ha : n ≠ advisoryName)
    (he : Elsewhere (dotted n)) (hc : t.count 46 < 32) (id : Int) :
    Allowed true pre (.message p.client (Register.message p add t id)) := by
  refine ⟨hon, ⟨show Fits subscribeTopic ∧ subscribeTopic.getLast? ≠ some 46 by decide +kernel, ?_, ?_, ?_⟩, ?_⟩
  · intro hr
    have hadd : add = true := hr
    subst hadd
    exact ⟨hq.fits.1, hq.fits.2, hq.2.2⟩
  · intro hr
    exact absurd (show subscribeTopic = wildcardTopic from hr) (by decide)
  · refine ⟨fun _ => ⟨by simp, hc, fun _ => elsewhere_written hn hw he⟩, ?_, ?_, ?_⟩
    · intro hr; exact absurd (show subscribeTopic = diagTopic from hr) (by decide)
    · intro hr; exact absurd (show subscribeTopic = objectsTopic from hr) (by decide)
    · intro hr; exact absurd (show subscribeTopic = wildcardTopic from hr) (by decide)
  · intro f hf _ ht
    cases hf
    simp only [Option.some.injEq] at ht
    exact absurd ht (advisory_written hn hw ha)

theorem response_answer {p : Provider} {t : Bytes} {id j : Int} {l : List (Nat × Int)} (hl : (p.client, j) ∈ l) (r : Result) :
    response p (l.map (answer (Register.message p true t id) (.result r))) = some r := by
  unfold response
  cases hf : (l.map (answer (Register.message p true t id) (.result r))).find?
      (fun d => d.client = p.client && d.hdr.response && d.hdr.seq = p.seq) with
  | none =>
    rw [List.find?_eq_none] at hf
    have := hf _ (List.mem_map_of_mem hl)
    simp [answer, Register.message] at this
  | some d =>
    obtain ⟨x, -, rfl⟩ := List.mem_map.mp (List.mem_of_find?_eq_some hf)
    rfl

/-- A further name is added, or it is refused and was in use. -/
theorem step_add {P pre s T G} (hP : Usual P) (h : CR P pre s T G) {p : Provider} (hon : p.client ∈ online pre) {id : Int}
    {u : Nat} (hk : Known P T p id u) {n : Name} (hn : n ∈ P) {t : Bytes} (hw : Written n t) (ha : n ≠ advisoryName)
    (he : Elsewhere (dotted n)) (hv : validString t = true) (hc : t.count 46 < 32) :
    ∃ s' ds G', Router.step s (.message p.client (Register.message p true t id)) = .ok (s', ds) ∧
      ((response p ds = some (.tree .ok) ∧ (∀ x ∈ T.regs, x.1 ≠ n) ∧
          CR P (pre ++ [.message p.client (Register.message p true t id)]) s' (withNames T [n] u) G' ∧
          ∀ m, m ≠ n → Clear s.tree m → Clear s'.tree m) ∨
        (response p ds = some (.tree .duplicate) ∧ ¬ Clear s.tree n ∧
          CR P (pre ++ [.message p.client (Register.message p true t id)]) s' T G')) := by
  have hprop := (hP.conv.1 n hn).1
  obtain ⟨q, j, hq, hj⟩ := hk.inbox
  obtain ⟨mn, hr⟩ := hk.route
  obtain ⟨s', ds, G', e1, e2, -⟩ := h.inv.step (allowed (add := true) hon hq hprop hw ha he hc id)
  obtain ⟨tr, rc, a1, a2⟩ := Routing.step_register hP.conv h.conv hn u true
    (by rintro (h0 | h0); cases h0; exact absurd h0 ha)
  have hbody : subscribeBody s p.client ⟨some 1, some (some t), some id, none, none, [], none⟩ =
      .ok ({ s with tree := tr }, .tree rc, []) := by
    simp only [subscribeBody, hv, if_true]
    unfold Router.subscribe
    rw [h.find_client, hr]
    dsimp only [Option.map_some]
    rw [show (entry ⟨u, p.client, id, mn⟩).ptr = u from rfl, add_written hprop hw ha, a1, Res.ok_bind]
    rfl
  have hstep : Router.step s (.message p.client (Register.message p true t id)) = (do
      let ds ← sendMessage { s with tree := tr } (replyHeader (Register.message p true t id).hdr) (.result (.tree rc)) none
      pure ({ s with tree := tr }, [] ++ ds)) := by
    rw [h.request hP (by simp [Register.message, ownTopics]), Router.onMessage,
      if_pos (show (Register.message p true t id).hdr.topic = subscribeTopic from rfl)]
    show onSubscribe s p.client (Register.message p true t id).hdr
      (.json ⟨some 1, some (some t), some id, none, none, [], none⟩) = _
    rw [onSubscribe, hbody, Res.ok_bind]
    rfl
  have hs' : s' = { s with tree := tr } := by
    rw [hstep] at e1
    obtain ⟨ds', -, e⟩ := res_bind e1
    cases e
    rfl
  subst hs'
  rcases a2 with ⟨rfl, a2⟩ | ⟨rfl, a2, gid, a3⟩
  · have hcr : CR P (pre ++ [.message p.client (Register.message p true t id)]) { s with tree := tr } T G :=
      { h with inv := e2.transfer a2.g, conv := a2 }
    rw [hcr.answered hP (m := Register.message p true t id) hq, Res.ok_bind] at hstep
    refine ⟨_, _, G, hstep, .inr ⟨response_answer hj _, ?_, hcr⟩⟩
    intro hcl
    have := Routing.clear_accepted hP.conv h.conv hn hcl a1
    cases this
  · have hcr : CR P (pre ++ [.message p.client (Register.message p true t id)]) { s with tree := tr } (withNames T [n] u)
        (G ++ [⟨n, gid, u⟩]) := by
      refine { h with inv := e2.transfer a3.g, conv := a3, regs := ?_, own := ?_ }
      · simp only [withNames, ← h.regs]
        simp [Routing.regs]
      · intro o ho
        exact List.mem_append_left _ (h.own o ho)
    rw [hcr.answered hP (m := Register.message p true t id) hq, Res.ok_bind] at hstep
    refine ⟨_, _, _, hstep, .inl ⟨response_answer (j := j) ?_ _, ?_, hcr, ?_⟩⟩
    · rw [receivers_regs] at hj ⊢
      rw [withNames, List.filter_append, List.filterMap_append]
      exact List.mem_append_left _ hj
    · intro x hx
      rw [← h.regs] at hx
      obtain ⟨g, hg, rfl⟩ := List.mem_map.mp hx
      exact a2 rfl ha g hg
    · intro m hm hcl
      refine Routing.clear_step hP.conv h.conv hcl (.register n u true) (by simp [names, hn]) ?_ (s' := tr) (rc := .ok) a1
      rintro w x hx
      cases hx
      exact hm rfl

/-- Names are removed with those below. -/
theorem step_remove {P pre s T G} (hP : Usual P) (h : CR P pre s T G) {p : Provider} (hon : p.client ∈ online pre) {id : Int}
    {q : Name} (hq : Addressed P p.inbox q) {n : Name} (hn : n ∈ P) {t : Bytes} (hw : Written n t) (ha : n ≠ advisoryName)
    (he : Elsewhere (dotted n)) (hv : validString t = true) (hc : t.count 46 < 32)
    (hmain : ∀ r ∈ T.routes, r.client = p.client → r.main ≠ n) :
    ∃ s' ds G', Router.step s (.message p.client (Register.message p false t id)) = .ok (s', ds) ∧
      CR P (pre ++ [.message p.client (Register.message p false t id)]) s' (without T [n]) G' := by
  have hprop := (hP.conv.1 n hn).1
  obtain ⟨s', ds, G', e1, e2, -⟩ := h.inv.step (allowed (add := false) hon hq hprop hw ha he hc id)
  obtain ⟨tr, a1, a2⟩ := Routing.step_remove hP.conv h.conv hn
  have hfind : s.entries.find? (fun e => e.expr = t ∧ e.client = some p.client) = none := by
    rw [h.entries, List.find?_eq_none]
    intro e hm
    simp only [decide_eq_true_eq, not_and]
    intro hex hcl
    rcases List.mem_cons.mp hm with rfl | hm
    · cases hcl
    · obtain ⟨r, hr, rfl⟩ := List.mem_map.mp hm
      have hcl' : r.client = p.client := by simpa [entry] using hcl
      have hrm := (hP.conv.1 _ (h.mains r hr)).1
      have : r.main = n := by
        rw [← tokens_written hrm (.inl rfl), ← tokens_written hprop hw, ← hex]
        rfl
      exact hmain r hr hcl' this
  have hbody : subscribeBody s p.client ⟨some 0, some (some t), some id, none, none, [], none⟩ =
      .ok ({ s with tree := tr }, .tree .ok, []) := by
    simp only [subscribeBody, hv, if_true]
    rw [if_neg (by decide)]
    unfold Router.unsubscribe
    rw [hfind]
    dsimp only
    rw [remove_written hprop hw, a1]
    rfl
  have hstep : Router.step s (.message p.client (Register.message p false t id)) = .ok ({ s with tree := tr }, []) := by
    rw [h.request hP (by simp [Register.message, ownTopics]), Router.onMessage,
      if_pos (show (Register.message p false t id).hdr.topic = subscribeTopic from rfl)]
    show onSubscribe s p.client (Register.message p false t id).hdr
      (.json ⟨some 0, some (some t), some id, none, none, [], none⟩) = _
    rw [onSubscribe, hbody, Res.ok_bind]
    rfl
  rw [hstep] at e1
  cases e1
  refine ⟨_, _, _, hstep, { h with inv := e2.transfer a2.g, conv := a2, regs := ?_, own := ?_ }⟩
  · simp only [without, ← h.regs, Routing.regs, List.filter_map]
    congr 1
    apply List.filter_congr
    intro x _
    simp
  · intro o ho
    refine List.mem_filter.mpr ⟨h.own o ho, ?_⟩
    simpa using not_above hP.conv hn he ho

/-! ## The loops -/

/-- What is needed of a name and how it is written. -/
def Good (P : List Name) (x : Bytes × Name) : Prop :=
  x.2 ∈ P ∧ Written x.2 x.1 ∧ x.2 ≠ advisoryName ∧ Elsewhere (dotted x.2) ∧ validString x.1 = true ∧ x.1.count 46 < 32

theorem written_ne {n : Name} {t : Bytes} (h : Proper n) (hw : Written n t) : t ≠ [] := by
  have hne : dotted n ≠ [] := Routing.dotted_ne h.1 (fun t ht => (h.2.1 t ht).1)
  rcases hw with rfl | rfl
  · exact hne
  · simp

theorem good_lengths {P : List Name} (hP : Conventional P) {x : Bytes × Name} (hx : Good P x) {p : Provider}
    (hc : p.component ≠ [] ∧ p.component.length < 256) : lengths p x.1 = true := by
  obtain ⟨h1, h2, -, -, h5, -⟩ := hx
  have hne := written_ne (hP.1 _ h1).1 h2
  have hlen : x.1.length < 128 := by
    simp only [validString, Bool.and_eq_true, decide_eq_true_eq] at h5
    exact h5.1
  simp only [lengths, maxName, Bool.and_eq_true, Bool.not_eq_true', List.isEmpty_eq_false_iff]
  exact ⟨⟨⟨hc.1, decide_eq_true hc.2⟩, hne⟩, decide_eq_true (by omega)⟩

theorem without_cons (T : Table) (n : Name) (ns : List Name) : without (without T [n]) ns = without T (n :: ns) := by
  simp only [without, List.filter_filter]
  congr 1
  apply List.filter_congr
  intro x _
  rw [← Bool.decide_and]
  apply decide_eq_decide.mpr
  simp only [List.mem_cons, forall_eq_or_imp, List.not_mem_nil, false_imp_iff, implies_true, and_true]
  exact And.comm

theorem without_nil (T : Table) : without T [] = T := by
  cases T
  simp [without]

theorem unreg_loop {P : List Name} (hP : Usual P) {id : Int} (xs : List (Bytes × Name)) : ∀ {w : World} {pre T G},
    CR P pre w.router T G → w.provider.client ∈ online pre → (∃ q, Addressed P w.provider.inbox q) →
    w.provider.component ≠ [] ∧ w.provider.component.length < 256 → listener w.provider = some id →
    (∀ x ∈ xs, Good P x) → (∀ x ∈ xs, ∀ r ∈ T.routes, r.client = w.provider.client → r.main ≠ x.2) →
    ∃ w' pre' G', unregLoop w (xs.map (·.1)) = .ok w' ∧
      w'.provider = { w.provider with seq := w.provider.seq + xs.length } ∧ w'.fates = w.fates ∧
      CR P pre' w'.router (without T (xs.map (·.2))) G' := by
  induction xs with
  | nil =>
    intro w pre T G h _ _ _ _ _ _
    refine ⟨w, pre, G, rfl, rfl, rfl, ?_⟩
    rw [List.map_nil, without_nil]
    exact h
  | cons x xs ih =>
    intro w pre T G h hon hq hc hl hx hm
    have hx1 := hx x (by simp)
    obtain ⟨q, hq1⟩ := hq
    obtain ⟨s', ds, G', e1, e2⟩ := step_remove hP h hon (id := id) hq1 hx1.1 hx1.2.1 hx1.2.2.1 hx1.2.2.2.1 hx1.2.2.2.2.1
      hx1.2.2.2.2.2 (hm x (by simp))
    have hrem : removeElement w x.1 =
        .ok { w with router := s', provider := { w.provider with seq := w.provider.seq + 1 } } := by
      simp only [removeElement, good_lengths hP.conv hx1 hc, if_true, hl, e1, Res.ok_bind]
    obtain ⟨w', pre', G'', f1, f2, f3, f4⟩ := ih
      (w := { w with router := s', provider := { w.provider with seq := w.provider.seq + 1 } }) e2
      (by rw [online_message]; exact hon) ⟨q, hq1⟩ hc hl (fun y hy => hx y (List.mem_cons_of_mem _ hy))
      (fun y hy => hm y (List.mem_cons_of_mem _ hy))
    refine ⟨w', pre', G'', ?_, ?_, f3, ?_⟩
    · rw [List.map_cons, unregLoop, hrem, Res.ok_bind, f1]
    · rw [f2, List.length_cons]
      simp only [Provider.mk.injEq, true_and, and_true]
      omega
    · rw [without_cons] at f4
      exact f4

theorem withNames_nil (T : Table) (u : Nat) : withNames T [] u = T := by simp [withNames]

theorem withNames_cons (T : Table) (n : Name) (ns : List Name) (u : Nat) :
    withNames (withNames T [n] u) ns u = withNames T (n :: ns) u := by
  simp [withNames]

theorem known_more {P : List Name} {T : Table} {p p' : Provider} {id : Int} {u : Nat} (h : Known P T p id u) (n : Name)
    (h1 : p'.component = p.component) (h2 : p'.listeners = p.listeners) (h3 : p'.client = p.client) (h4 : p'.inbox = p.inbox) :
    Known P (withNames T [n] u) p' id u := by
  obtain ⟨a, b, c, q, j, d1, d2⟩ := h
  refine ⟨by rw [h1]; exact a, by rw [h1, h2]; exact b, by rw [h3]; exact c, q, j, by rw [h4]; exact d1, ?_⟩
  rw [h3]
  rw [receivers_regs] at d2 ⊢
  rw [withNames, List.filter_append, List.filterMap_append]
  exact List.mem_append_left _ d2

/-- What the loop of a registration does. -/
def RegOut (P : List Name) (u : Nat) (xs : List (Elem × Name)) (w : World) (T : Table) (i : Nat) : Prop :=
  ∃ w' code k pre' G', regLoop w (xs.map (·.1)) i = .ok (w', code, i + k) ∧ k ≤ xs.length ∧
      CR P pre' w'.router (withNames T ((xs.take k).map (·.2)) u) G' ∧ w.provider.client ∈ online pre' ∧
      (∃ n, w'.provider = { w.provider with seq := n, tree := insertAll w.provider.tree ((xs.take k).map (·.1)) }) ∧
      (∀ x ∈ xs.take k, ∀ y ∈ T.regs, y.1 ≠ x.2) ∧ ((xs.take k).map (·.2)).Nodup ∧
      ((code = 0 ∧ k = xs.length) ∨ (code = 14 ∧ k < xs.length)) ∧
      ((∀ x ∈ xs, Clear w.router.tree x.2) → (xs.map (·.2)).Nodup → .lost ∉ w.fates → code = 0)

theorem reg_loop {P : List Name} (hP : Usual P) {id : Int} {u : Nat} (xs : List (Elem × Name)) : ∀ {w : World} {pre T G} (i : Nat),
    CR P pre w.router T G → w.provider.client ∈ online pre → Known P T w.provider id u →
    (∀ f ∈ w.fates, f ≠ .unanswered) → (∀ x ∈ xs, Good P (x.1.name, x.2)) →
    RegOut P u xs w T i := by
  induction xs with
  | nil =>
    intro w pre T G i h hon _ _ _
    refine ⟨w, 0, 0, pre, G, rfl, by simp, ?_, hon, ⟨w.provider.seq, rfl⟩, by simp, by simp, .inl ⟨rfl, rfl⟩, fun _ _ _ => rfl⟩
    simpa [withNames_nil] using h
  | cons x xs ih =>
    intro w pre T G i h hon hk hf hx
    have hx1 := hx x (by simp)
    have hne : x.1.name ≠ [] := written_ne (hP.conv.1 _ hx1.1).1 hx1.2.1
    have hlen := good_lengths hP.conv hx1 hk.name
    have hl : listener w.provider = some id := hk.listener
    have stop : ∀ (w' : World) (r : Added) (pre' : List Event) (G' : List Ent), addElement w x.1.name = .ok (w', r) → r = .other →
        CR P pre' w'.router T G' → w.provider.client ∈ online pre' → (∃ n, w'.provider = { w.provider with seq := n }) →
        ((∀ y ∈ x :: xs, Clear w.router.tree y.2) → .lost ∉ w.fates → False) →
        RegOut P u (x :: xs) w T i := by
      intro w' r pre' G' h1 h2 h3 h4 h5 h6
      refine ⟨w', 14, 0, pre', G', ?_, by simp, ?_, h4, ?_, by simp, by simp, .inr ⟨rfl, by simp⟩, ?_⟩
      · rw [List.map_cons, regLoop, if_neg hne, h1, Res.ok_bind]
        dsimp only
        rw [h2]
        rfl
      · simpa [withNames_nil] using h3
      · obtain ⟨n, h5⟩ := h5
        exact ⟨n, by simpa [insertAll] using h5⟩
      · intro a _ b
        exact absurd b (fun b => h6 a b)
    obtain ⟨s', ds, G', e1, e2⟩ := step_add hP h hon hk hx1.1 hx1.2.1 hx1.2.2.1 hx1.2.2.2.1 hx1.2.2.2.2.1 hx1.2.2.2.2.2
    cases hfs : w.fates.headD .answered with
    | unanswered =>
      exfalso
      cases hw : w.fates with
      | nil => rw [hw] at hfs; cases hfs
      | cons f fs => rw [hw] at hfs; exact hf f (by rw [hw]; simp) hfs
    | lost =>
      refine stop { w with provider := { w.provider with seq := w.provider.seq + 1 }, fates := w.fates.tail } .other pre G ?_ rfl h hon
        ⟨_, rfl⟩ ?_
      · simp only [addElement, hlen, if_true, hl, hfs]
      · intro _ hno
        apply hno
        cases hw : w.fates with
        | nil => rw [hw] at hfs; cases hfs
        | cons f fs =>
          rw [hw] at hfs
          have : f = .lost := hfs
          rw [this]; simp
    | answered =>
      have hadd : addElement w x.1.name =
          .ok (⟨s', { w.provider with seq := w.provider.seq + 1 }, w.fates.tail⟩, added (response w.provider ds)) := by
        simp only [addElement, hlen, if_true, hl, hfs, e1, Res.ok_bind]
      rcases e2 with ⟨r1, r2, r3, r4⟩ | ⟨r1, r2, r3⟩
      · rw [r1] at hadd
        obtain ⟨w', code, k, pre', G'', f1, f2, f3, f4, ⟨sq, f5⟩, f6, f7, f8, f9⟩ := ih
          (w := ⟨s', { w.provider with seq := w.provider.seq + 1, tree := Element.insert w.provider.tree x.1.name x.1.type x.1.cb },
            w.fates.tail⟩) (i + 1) r3
          (by rw [online_message]; exact hon) (known_more hk x.2 rfl rfl rfl rfl)
          (fun f hf' => hf f (List.mem_of_mem_tail hf')) (fun y hy => hx y (List.mem_cons_of_mem _ hy))
        refine ⟨w', code, k + 1, pre', G'', ?_, by simp; omega, ?_, f4, ⟨sq, ?_⟩, ?_, ?_, ?_, ?_⟩
        · rw [List.map_cons, regLoop, if_neg hne, hadd, Res.ok_bind]
          simp only [added]
          rw [f1]
          simp only [Res.ok.injEq, Prod.mk.injEq, true_and]
          omega
        · rw [withNames_cons] at f3
          exact f3
        · rw [f5]
          rfl
        · intro y hy z hz
          rw [List.take_succ_cons, List.mem_cons] at hy
          rcases hy with rfl | hy
          · exact r2 z hz
          · exact f6 y hy z (List.mem_append_left _ hz)
        · rw [List.take_succ_cons, List.map_cons, List.nodup_cons]
          refine ⟨?_, f7⟩
          intro hm
          obtain ⟨y, hy, hyx⟩ := List.mem_map.mp hm
          exact f6 y hy (x.2, u) (by simp [withNames]) hyx.symm
        · rcases f8 with ⟨h1, h2⟩ | ⟨h1, h2⟩
          · exact .inl ⟨h1, by simp [h2]⟩
          · exact .inr ⟨h1, by simp; omega⟩
        · intro hcl hnd hlost
          rw [List.map_cons, List.nodup_cons] at hnd
          refine f9 ?_ hnd.2 (fun hm => hlost (List.mem_of_mem_tail hm))
          intro y hy
          refine r4 y.2 ?_ (hcl y (List.mem_cons_of_mem _ hy))
          intro e
          exact hnd.1 (by rw [← e]; exact List.mem_map_of_mem hy)
      · rw [r1] at hadd
        refine stop _ _ _ G' hadd rfl r3 (by rw [online_message]; exact hon) ⟨_, rfl⟩ ?_
        intro hcl _
        exact r2 (hcl x (by simp))

/-! ## Names nobody has used -/

theorem clear_clearAll {P pre} {m : Name} (rs : List Route) : ∀ {s T G}, CR P pre s T G → (∀ r ∈ rs, r.uid ≠ 0) → Conventional P →
    Clear s.tree m → Clear (clearAll s (rs.map entry)).tree m := by
  induction rs with
  | nil =>
    intro s T G _ _ _ h
    exact h
  | cons r rs ih =>
    intro s T G h hr hP hc
    rw [List.map_cons, Router.clearAll]
    refine ih (h.clearRoute (u := r.uid) (hr r (by simp)) (h.inv.clearRoute r.uid)) (fun x hx => hr x (List.mem_cons_of_mem _ hx)) hP ?_
    exact Routing.clear_step hP h.conv hc (.forget r.uid) (by simp [names]) (by simp) (rc := .ok) rfl

theorem clear_step {P : List Name} (hP : Usual P) {pre s T G} (h : CR P pre s T G) {m : Name} (hcl : Clear s.tree m) {a : Act}
    (ha : Allowed true pre (event a)) (hno : ∀ c i q, a ≠ .subscribe c m i q)
    (hn : ∀ n ∈ actNames [a], n ∈ P ∧ Elsewhere (dotted n) ∧ validString (dotted n) = true)
    (ho : ∀ c m, a = .other c m → m.hdr.topic ≠ subscribeTopic) {s' : State} {ds : List Delivery}
    (e : Router.step s (event a) = .ok (s', ds)) : Clear s'.tree m := by
  have sub : ∀ (k : Int) (c : Nat) (n : Name) (i : Int) (q : Ask),
      Router.step s (.message c (subscription k n i q)) = .ok (s', ds) →
      ∃ rc ds0, subscribeBody s c ⟨some k, some (some (dotted n)), some i, none, none, [], none⟩ = .ok (s', rc, ds0) := by
    intro k c n i q e
    rw [h.request hP (by simp [subscription, ownTopics])] at e
    rw [Router.onMessage, if_pos (show (subscription k n i q).hdr.topic = subscribeTopic from rfl)] at e
    exact onSubscribe_state e
  cases a with
  | connect c =>
    cases e
    exact hcl
  | disconnect c =>
    simp only [event, Router.step, Router.disconnect] at e
    obtain ⟨ds', -, e'⟩ := res_bind e
    have h1 : CR P pre { s with clients := s.clients.filter (fun x => x.id ≠ c) } T G :=
      { h with inv := h.inv.setClients _ }
    have hes : s.entries.filter (fun e => e.client = some c) = (T.routes.filter (fun r => r.client = c)).map entry := by
      rw [h.entries, List.filter_cons_of_neg (by simp [ownEntry]), List.filter_map]
      congr 1
      apply List.filter_congr
      intro r _
      simp [entry]
    rw [hes] at e'
    cases e'
    exact clear_clearAll _ h1 (fun r hr => h.uid_ne (List.mem_filter.mp hr).1) hP.conv hcl
  | subscribe c n i q =>
    obtain ⟨n1, n2, n3⟩ := hn n (by simp [actNames])
    have hnm : n ≠ m := fun e => hno c i q (by rw [e])
    obtain ⟨rc, ds0, hb⟩ := sub 1 c n i q e
    simp only [subscribeBody, n3, if_true] at hb
    have key : ∀ v x t rc, Routing.addTopicRoute s.tree (dotted n) v x = .ok (t, rc) → Clear t m := by
      intro v x t rc e1
      refine Routing.clear_step hP.conv h.conv hcl (.register n v x) (by simp [names, n1]) ?_ (rc := rc) e1
      rintro w y hy
      cases hy
      exact hnm rfl
    unfold Router.subscribe at hb
    split at hb
    · obtain ⟨⟨t, rc'⟩, e1, e2⟩ := res_bind hb
      cases e2
      exact key _ _ _ _ e1
    · obtain ⟨s1, e1, e2⟩ := res_bind hb
      obtain ⟨⟨t, rc'⟩, e3, e4⟩ := res_bind e1
      cases e4
      have := key _ _ _ _ e3
      split at e2
      · obtain ⟨ds1, -, e5⟩ := res_bind e2
        cases e5
        exact this
      · cases e2
        exact this
  | unsubscribe c n i q =>
    obtain ⟨n1, n2, n3⟩ := hn n (by simp [actNames])
    obtain ⟨rc, ds0, hb⟩ := sub 0 c n i q e
    simp only [subscribeBody, n3, if_true] at hb
    rw [if_neg (by decide)] at hb
    obtain ⟨s2, hu, hb⟩ := res_bind hb
    cases hb
    unfold Router.unsubscribe at hu
    split at hu
    · cases hu
      exact Routing.clear_step hP.conv h.conv hcl (.forget _) (by simp [names]) (by simp) (rc := .ok) rfl
    · obtain ⟨t, e1, e2⟩ := res_bind hu
      cases e2
      refine Routing.clear_step hP.conv h.conv hcl (.remove n) (by simp [names, n1]) (by simp) (s' := t) (rc := .ok) ?_
      simp only [Routing.call, Routing.step, e1, Res.ok_bind]
      rfl
  | other c m' =>
    obtain ⟨a1, a2, a3⟩ := ha
    obtain ⟨s2, ds2, G2, f1, f2, f3, f4⟩ := h.inv.dispatch a1 a2 a3
    have hs := f4 (ho c m' rfl)
    subst hs
    have e1' : dispatch s2 c m' = .ok (s', ds) := e
    rw [f1] at e1'
    cases e1'
    exact hcl

theorem clear_run {P : List Name} (hP : Usual P) {m : Name} (as : List Act) : ∀ {pre s T G}, CR P pre s T G → Clear s.tree m →
    (∀ c i q, Act.subscribe c m i q ∉ as) →
    (∀ x e y, as.map event = x ++ e :: y → Allowed true (pre ++ x) e) →
    (∀ n ∈ actNames as, n ∈ P ∧ Elsewhere (dotted n) ∧ validString (dotted n) = true) →
    (∀ c m, Act.other c m ∈ as → m.hdr.topic ≠ subscribeTopic) →
    ∀ {s' dss}, Router.run s (as.map event) = .ok (s', dss) → Clear s'.tree m := by
  induction as with
  | nil =>
    intro pre s T G _ hc _ _ _ _ s' dss e
    cases e
    exact hc
  | cons a as ih =>
    intro pre s T G h hc hno ha hn ho s' dss e
    rw [actNames_cons] at hn
    have ha1 : Allowed true pre (event a) := by simpa using ha [] (event a) (as.map event) rfl
    obtain ⟨s1, ds, b, G1, e1, e2, -⟩ := h.step hP (a := a) ha1
      (fun n hm => hn n (List.mem_append_left _ hm)) (fun c m hm => ho c m (by simp [hm]))
    have hc1 := clear_step hP h hc ha1 (fun c i q e => hno c i q (by rw [e]; simp))
      (fun n hm => hn n (List.mem_append_left _ hm)) (fun c m hm => ho c m (by simp [hm])) e1
    rw [List.map_cons, Router.run, e1, Res.ok_bind] at e
    obtain ⟨r, e3, e4⟩ := res_bind e
    cases e4
    exact ih e2 hc1 (fun c i q hm => hno c i q (List.mem_cons_of_mem _ hm))
      (by
        intro x e y hxy
        have := ha (event a :: x) e y (by rw [List.map_cons, hxy]; rfl)
        rw [List.append_assoc]
        exact this)
      (fun n hm => hn n (List.mem_append_right _ hm))
      (fun c m hm => ho c m (List.mem_cons_of_mem _ hm)) e3

theorem clear_boot {P : List Name} (hP : Usual P) {m : Name} (hm : m ≠ []) (hown : m ∉ ownPaths) {s : State}
    (hb : boot = .ok s) : Clear s.tree m := by
  have hops : bootOps.map Routing.call = ownTopics.map (fun t => Routing.Op.add t 0 false) := by decide +kernel
  have hnames : names bootOps = ownPaths := by decide +kernel
  rw [boot, ← hops] at hb
  obtain ⟨r, e1, e2⟩ := res_bind hb
  cases e2
  refine Routing.run_clear hP.conv bootOps ?_ [] (Routing.cinv_init P) (Routing.clear_init m hm) (by simp [Routing.regs])
    (by rw [hnames]; exact hP.own) (noRepeats_of_nodup (by decide +kernel)) (rcs := r.2) e1
  intro w x hmem
  apply hown
  rw [← hnames]
  have : ∀ os : List Spec.Routing.Op, Spec.Routing.Op.register m w x ∈ os → m ∈ names os := by
    intro os
    induction os with
    | nil => intro h; cases h
    | cons o os ih =>
      intro h
      rcases List.mem_cons.mp h with rfl | h'
      · simp [names]
      · have := ih h'
        cases o <;> simp [names, this]
  exact this _ hmem

/-! ## The whole -/

theorem start {as : List Act} {p : Provider} {id : Int} {xs : List (Elem × Name)} (h : Registrable as p id xs) :
    Usual (used as p id xs) ∧ p.client ∈ online (as.map event) ∧ (∀ x ∈ xs, Good (used as p id xs) (x.1.name, x.2)) ∧
    ∃ s T G, After as (used as p id xs) s T ∧ CR (used as p id xs) (as.map event) s T G ∧
      ∀ m, m ∈ used as p id xs → m ∉ allNames as → Clear s.tree m := by
  have hu := h.regular.usual
  have hact : ∀ l : List (Elem × Name), actNames (l.map (fun x => joining p id x.2)) = l.map (·.2) := by
    intro l
    induction l with
    | nil => rfl
    | cons x l ih => simp only [List.map_cons, joining, actNames] at ih ⊢; rw [ih]
  have hmem : ∀ x ∈ xs, x.2 ∈ actNames (as ++ xs.map (fun x => joining p id x.2)) := by
    intro x hx
    rw [actNames_append, hact]
    exact List.mem_append_right _ (List.mem_map_of_mem hx)
  refine ⟨hu, ?_, ?_, ?_⟩
  · cases hxs : xs with
    | nil => exact absurd hxs h.filled
    | cons x l =>
      have := h.regular.2.2.2 (as.map event) (event (joining p id x.2)) (l.map (fun x => event (joining p id x.2)))
        (by rw [hxs]; simp)
      exact this.1
  · intro x hx
    obtain ⟨h1, h2, h3, h4⟩ := h.named x hx
    exact ⟨List.mem_append_right _ (hmem x hx), h1, h2, (h.regular.2.1 _ (hmem x hx)).1, h3, h4⟩
  · obtain ⟨s₀, s, dss, fs, G, b1, b2, b3, b4⟩ := h.regular.prefix
    refine ⟨s, _, G, ⟨s₀, dss, fs, b1, b2, b3, rfl, b4.forwards hu.conv, b4.returns hu.conv⟩, b4, ?_⟩
    intro m hm hno
    obtain ⟨s₁, G₁, c1, c2⟩ := table0_ok hu.conv hu.own
    rw [b1] at c1
    cases c1
    have hno' : m ∉ actNames as := fun hm => hno (List.mem_append_right _ hm)
    refine clear_run hu as c2 (clear_boot hu (hu.conv.1 m hm).1.1 (fun ho => hno (List.mem_append_left _ ho)) b1) ?_ ?_ ?_ ?_ b2
    · intro c i q hq
      apply hno'
      have : ∀ l : List Act, Act.subscribe c m i q ∈ l → m ∈ actNames l := by
        intro l
        induction l with
        | nil => intro h; cases h
        | cons a l ih =>
          intro h
          rcases List.mem_cons.mp h with rfl | h'
          · simp [actNames]
          · have := ih h'
            rw [actNames_cons]
            exact List.mem_append_right _ this
      exact this _ hq
    · intro x e y hxy
      have := h.regular.2.2.2 x e (y ++ (xs.map (fun x => joining p id x.2)).map event) (by rw [List.map_append, hxy]; simp)
      simpa using this
    · intro n hn
      have hn' : n ∈ actNames (as ++ xs.map (fun x => joining p id x.2)) := by
        rw [actNames_append]
        exact List.mem_append_left _ hn
      exact ⟨List.mem_append_right _ hn', h.regular.2.1 n hn'⟩
    · intro c m hm
      exact h.regular.2.2.1 c m (List.mem_append_left _ hm)

theorem without_withNames (T : Table) (ns : List Name) (u : Nat) : without (withNames T ns u) ns = without T ns := by
  simp only [without, withNames, List.filter_append]
  congr 1
  have : (ns.map (fun n => (n, u))).filter (fun x => ∀ n ∈ ns, ¬ n <+: x.1) = [] := by
    rw [List.filter_eq_nil_iff]
    intro x hx
    obtain ⟨n, hn, rfl⟩ := List.mem_map.mp hx
    simp only [decide_eq_true_eq]
    intro hall
    exact hall n hn (List.prefix_refl n)
  rw [this, List.append_nil]

theorem outcome {as : List Act} {p : Provider} {id : Int} {xs : List (Elem × Name)} (h : Registrable as p id xs) :
    ∃ s T, After as (used as p id xs) s T ∧ ∀ fates u, (∀ f ∈ fates, f ≠ .unanswered) → Known (used as p id xs) T p id u →
      ∃ w code k, regLoop ⟨s, p, fates⟩ (xs.map (·.1)) 0 = .ok (w, code, k) ∧ k ≤ xs.length ∧
        (∃ i, w.provider = { p with seq := i, tree := insertAll p.tree ((xs.take k).map (·.1)) }) ∧
        (∀ x ∈ xs.take k, ∀ y ∈ T.regs, y.1 ≠ x.2) ∧ ((xs.take k).map (·.2)).Nodup ∧
        ((∀ x ∈ xs, x.2 ∉ allNames as) → (xs.map (·.2)).Nodup → .lost ∉ fates → code = 0) ∧
        ((code = 0 ∧ k = xs.length ∧ register ⟨s, p, fates⟩ (xs.map (·.1)) = .ok (w, 0) ∧
            ∃ pre G, CR (used as p id xs) pre w.router (withNames T (xs.map (·.2)) u) G) ∨
          (code = 14 ∧ k < xs.length ∧ (Foreign T p xs → ∃ w' pre G, register ⟨s, p, fates⟩ (xs.map (·.1)) = .ok (w', 14) ∧
            (∃ i, w'.provider = { p with seq := i, tree := insertAll p.tree ((xs.take k).map (·.1)) }) ∧
            CR (used as p id xs) pre w'.router (without T ((xs.take k).map (·.2))) G))) := by
  obtain ⟨hP, hon, hgood, s, T, G, haf, hcr, hcl⟩ := start h
  refine ⟨s, T, haf, fun fates u hf hk => ?_⟩
  obtain ⟨w, code, k, pre', G', f1, f2, f3, f4, ⟨sq, f5⟩, f6, f7, f8, f9⟩ :=
    reg_loop hP xs (w := ⟨s, p, fates⟩) 0 hcr hon hk hf hgood
  rw [Nat.zero_add] at f1
  have hxs : xs.map (·.1) ≠ [] := by
    intro e
    exact h.filled (List.map_eq_nil_iff.mp e)
  refine ⟨w, code, k, f1, f2, ⟨sq, f5⟩, f6, f7, ?_, ?_⟩
  · intro hnew hnd hlost
    exact f9 (fun x hx => hcl x.2 (hgood x hx).1 (hnew x hx)) hnd hlost
  · rcases f8 with ⟨rfl, hk'⟩ | ⟨rfl, hk'⟩
    · refine .inl ⟨rfl, hk', ?_, pre', G', ?_⟩
      · rw [register, if_neg hxs, f1, Res.ok_bind]
        simp
      · rw [hk', List.take_length] at f3
        exact f3
    · refine .inr ⟨rfl, hk', fun hfor => ?_⟩
      by_cases hk0 : k = 0
      · subst hk0
        refine ⟨w, pre', G', ?_, ⟨sq, f5⟩, ?_⟩
        · rw [register, if_neg hxs, f1, Res.ok_bind]
          simp
        · rw [List.take_zero, List.map_nil, withNames_nil] at f3
          rw [List.take_zero, List.map_nil, without_nil]
          exact f3
      · have hp1 : w.provider.client = p.client := by rw [f5]
        have hp2 : w.provider.inbox = p.inbox := by rw [f5]
        have hp3 : w.provider.component = p.component := by rw [f5]
        have hp4 : w.provider.listeners = p.listeners := by rw [f5]
        obtain ⟨q, j, hq, hj⟩ := hk.inbox
        obtain ⟨w', pre'', G'', g1, g2, -, g4⟩ := unreg_loop hP (id := id) ((xs.take k).map (fun x => (x.1.name, x.2))) f3
          (by rw [hp1]; exact f4) ⟨q, by rw [hp2]; exact hq⟩ (by rw [hp3]; exact hk.name)
          (by
            have := hk.listener
            rw [Register.listener, hp3, hp4]
            exact this)
          (by
            intro y hy
            obtain ⟨x, hx, rfl⟩ := List.mem_map.mp hy
            exact hgood x (List.mem_of_mem_take hx))
          (by
            intro y hy r hr hc
            obtain ⟨x, hx, rfl⟩ := List.mem_map.mp hy
            exact hfor x (List.mem_of_mem_take hx) r hr (by rw [hc, hp1]))
        have hn1 : ((xs.take k).map (fun x => (x.1.name, x.2))).map (·.1) = ((xs.map (·.1)).take k).map (·.name) := by
          rw [← List.map_take, List.map_map, List.map_map]
          rfl
        have hn2 : ((xs.take k).map (fun x => (x.1.name, x.2))).map (·.2) = (xs.take k).map (·.2) := by
          rw [List.map_map]
          rfl
        rw [hn1] at g1
        rw [hn2, without_withNames] at g4
        have hne : ((xs.map (·.1)).take k).map (·.name) ≠ [] := by
          intro e
          rw [List.map_eq_nil_iff, List.take_eq_nil_iff] at e
          rcases e with e | e
          · exact hk0 e
          · exact hxs e
        refine ⟨w', pre'', G'', ?_, ?_, g4⟩
        · rw [register, if_neg hxs, f1, Res.ok_bind]
          simp only [ne_eq, Nat.reduceEqDiff, not_false_eq_true, true_and, if_pos (Nat.pos_of_ne_zero hk0), unregister, if_neg hne,
            g1, Res.ok_bind]
        · rw [f5] at g2
          exact ⟨_, g2⟩

theorem covers_rows {p q : Name} (h : covers p (q ++ [rows]) = true) : ∃ p', p = p' ++ [rows] ∧ covers p' q = true := by
  induction p generalizing q with
  | nil => cases q <;> simp [covers] at h
  | cons r p ih =>
    cases q with
    | nil =>
      cases p with
      | nil =>
        simp only [List.nil_append, covers, Bool.and_true, decide_eq_true_eq] at h
        refine ⟨[], ?_, rfl⟩
        rcases h with h | ⟨h, -⟩ <;> simp [h]
      | cons x p => simp [covers] at h
    | cons t q =>
      simp only [List.cons_append, covers, Bool.and_eq_true] at h
      obtain ⟨p', h1, h2⟩ := ih h.2
      exact ⟨r :: p', by rw [h1]; rfl, by simp only [covers, Bool.and_eq_true]; exact ⟨h.1, h2⟩⟩

/-- A name registered once is served by its route alone. -/
theorem receivers_new {P : List Name} (hP : Conventional P) {pre s T u G} {ns : List Name} (h : CR P pre s (withNames T ns u) G)
    (hnew : ∀ n ∈ ns, ∀ y ∈ T.regs, y.1 ≠ n) (hnd : ns.Nodup) {n q : Name} (hn : n ∈ ns) {t : Bytes} (hq : Addressed P t q)
    (hc : covers n q = true) {r : Route} (hr : r ∈ T.routes) (hu : r.uid = u) :
    (withNames T ns u).receivers q = [(r.client, r.id)] := by
  have hin : ∀ x ∈ (withNames T ns u).regs, x.1 ∈ P := by
    intro x hx
    rw [← h.regs] at hx
    obtain ⟨g, hg, rfl⟩ := List.mem_map.mp hx
    exact h.conv.paths g hg
  have hnP : n ∈ P := hin (n, u) (List.mem_append_right _ (List.mem_map.mpr ⟨n, hn, rfl⟩))
  have hserve : ∀ x ∈ (withNames T ns u).regs, serves q x = decide (x.1 = n) := by
    intro x hx
    have hxP := hin x hx
    by_cases he : x.1 = n
    · simp [serves, he, hc]
    · have h1 : covers x.1 q = false := by
        cases hcx : covers x.1 q with
        | false => rfl
        | true => exact absurd (Routing.covers_unique hP q [] x.1 n [] [] (by simpa using hxP) (by simpa using hnP) hcx hc) he
      have h2 : covers x.1 (q ++ [rows]) = false := by
        cases hcx : covers x.1 (q ++ [rows]) with
        | false => rfl
        | true =>
          exfalso
          obtain ⟨p', e1, e2⟩ := covers_rows hcx
          have := Routing.covers_unique hP q [] p' n [rows] [] (by simpa [← e1] using hxP) (by simpa using hnP) e2 hc
          subst this
          exact hq.1.2.2 p' hnP hc [] (by rw [← e1]; exact hxP)
      simp [serves, h1, h2, he]
  have hfil : (withNames T ns u).regs.filter (serves q) = [(n, u)] := by
    rw [List.filter_congr hserve]
    simp only [withNames, List.filter_append]
    rw [List.filter_eq_nil_iff.mpr (by intro y hy; simpa using hnew n hn y hy), List.nil_append]
    clear hserve hnew hin h hnP
    induction ns with
    | nil => cases hn
    | cons m ns ih =>
      rw [List.nodup_cons] at hnd
      rw [List.map_cons]
      rcases List.mem_cons.mp hn with rfl | hn'
      · rw [List.filter_cons_of_pos (by simp), List.filter_eq_nil_iff.mpr]
        intro y hy
        obtain ⟨z, hz, rfl⟩ := List.mem_map.mp hy
        simp only [decide_eq_true_eq]
        rintro rfl
        exact hnd.1 hz
      · rw [List.filter_cons_of_neg, ih hnd.2 hn']
        simp only [decide_eq_true_eq]
        rintro rfl
        exact hnd.1 hn'
  rw [receivers_regs, hfil]
  have hh : holder (withNames T ns u) u = some (r.client, r.id) := by
    subst hu
    rw [holder, find_uid h.distinct (show r ∈ (withNames T ns r.uid).routes from hr)]
    rfl
  simp [hh]

end Verif.RegisterProof
