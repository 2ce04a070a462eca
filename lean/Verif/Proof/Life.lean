import Verif.Proof.Insert

/-!
# A provider in orderly use
-/

namespace Verif.Subs

open Verif Verif.Element
open Verif.Spec.Provider (Decl Fits Orderly declare Names Sane Life)

theorem spec_inTemplate : ∀ l : List Info, Spec.Provider.inTemplate l = inTemplate l
  | [] => rfl
  | [i] => by simp [Spec.Provider.inTemplate, inTemplate, isTemplate, TokenChain.parentIsTable]
  | i :: p :: up => by
    rw [Spec.Provider.inTemplate, spec_inTemplate (p :: up)]
    simp [inTemplate, isTemplate, TokenChain.parentIsTable]

theorem life_cover {sc : Bool} {D : List Decl} {s : State} (h : Life sc D s) :
    Inv sc s ∧ Cover s s.subs := by
  induction h with
  | start hD =>
    refine ⟨⟨.nil, .nil, ?_, .nil, ?_, ?_⟩, (tidy_declare hD).wf, ?_, ?_, ?_, .nil, ?_⟩ <;>
      try (intro x hx; cases hx)
    intro n
    exact ⟨.nil, fun a => by simp [State.init]⟩
  | @step s s' op env o _ hs h ih =>
    obtain ⟨hi, hc⟩ := ih
    refine ⟨step_inv hi h, ?_⟩
    cases op with
    | subscribe k =>
      obtain ⟨⟨s1, r⟩, h1, h2⟩ := res_bind_ok h
      cases h2
      rcases request_cases h1 with ⟨rfl, -⟩ | ⟨el, -, h1⟩
      · exact hc
      · obtain ⟨E, hE, hcE, -⟩ := hc.added (impl_added h1)
        rw [hE]
        exact hcE
    | unsubscribe k =>
      obtain ⟨⟨s1, r⟩, h1, h2⟩ := res_bind_ok h
      cases h2
      rcases request_cases h1 with ⟨rfl, -⟩ | ⟨el, -, h1⟩
      · exact hc
      · exact hc.removed (impl_removed hi.addrs h1)
    | disconnect l =>
      obtain ⟨s1, h1, h2⟩ := res_bind_ok h
      cases h2
      exact disconnectFrom_cover hc h1
    | addRow t i a =>
      obtain ⟨s1, h1, h2⟩ := res_bind_ok h
      cases h2
      refine addRow_cover hc (fun up n hl => ?_) h1
      have := hs up n hl
      rwa [spec_inTemplate] at this
    | delRow r =>
      obtain ⟨s1, h1, h2⟩ := res_bind_ok h
      cases h2
      refine delRow_cover hi hc (fun up n hl => ?_) h1
      obtain ⟨⟨i, p, u, hu, hp⟩, h3⟩ := hs up n hl
      rw [spec_inTemplate] at h3
      refine ⟨?_, h3⟩
      obtain ⟨-, u', hu', -, hmem⟩ := locate_sound hl
      have hok := hc.wf.ok _ hmem
      rw [hu] at hu' hok
      simp only [List.cons.injEq] at hu'
      rw [← hu'.1]
      exact hok.2.1 hp
    | register n t cb => exact hs.elim

theorem findInstance_mem {table : Bool} {t : Element.Token} {cs : List Node} {c : Node}
    (h : findInstance table t cs = some c) : c ∈ cs := by
  cases cs with
  | nil => cases h
  | cons d cs =>
    rw [findInstance] at h
    rcases Decidable.em (d.info.name = t) with hd | hd
    · rw [if_pos hd] at h
      cases h
      simp
    · rw [if_neg hd] at h
      exact List.mem_cons_of_mem _ (List.mem_of_find?_eq_some h)

theorem instanceFrom_mem : ∀ {ts : Path} {wild : Bool} {u : List Info} {n m : Node},
    ts ≠ [] → instanceFrom wild ts n = some m →
      ∃ l, (m.id, m.info :: l) ∈ flatList u n.children := by
  intro ts
  induction ts with
  | nil => intro wild u n m h; exact absurd rfl h
  | cons t ts ih =>
    intro wild u n m _ h
    unfold instanceFrom at h
    simp only at h
    split at h
    next c hc =>
      have hcm := findInstance_mem hc
      cases ts with
      | nil =>
        simp only [instanceFrom, Option.some.injEq] at h
        subst h
        exact ⟨u, (flatList_sublist_of_mem u hcm).subset (flat_head_mem u _)⟩
      | cons t' ts =>
        obtain ⟨l, hl⟩ := ih (u := c.info :: u) (by simp) h
        exact ⟨l, (flatList_sublist_of_mem u hcm).subset (by rw [flat_eq]; simp [hl])⟩
    · cases h

/-- The element a name leads to is in the tree. -/
theorem retrieveInstance_mem {T : Tree} {name : Bytes} {m : Node} (h : retrieveInstance T name = some m) :
    ∃ l, (m.id, m.info :: l) ∈ Tree.flat T := by
  unfold retrieveInstance at h
  split at h
  · cases h
  next ts hne => exact instanceFrom_mem (fun hn => hne (by simpa using hn)) h

mutual

theorem nodes_ids (up : List Info) : ∀ n : Node, (flat up n).map (·.1) = (nodes n).map (·.id)
  | ⟨a, i, cs⟩ => by
    rw [flat, nodes]
    simp only [List.map_cons]
    rw [nodesList_ids (i :: up) cs]

theorem nodesList_ids (up : List Info) : ∀ cs : List Node,
    (flatList up cs).map (·.1) = (nodesList cs).map (·.id)
  | [] => rfl
  | n :: ns => by
    rw [flatList, nodesList, List.map_append, List.map_append, nodes_ids up n, nodesList_ids up ns]

end

theorem takeWhile_split {α : Type} (p : α → Bool) : ∀ l : List α, ∃ r, l = l.takeWhile p ++ r ∧
    ∀ x ∈ r.head?, p x = false := by
  intro l
  induction l with
  | nil => exact ⟨[], rfl, by simp⟩
  | cons a l ih =>
    obtain ⟨r, h1, h2⟩ := ih
    cases ha : p a with
    | true => exact ⟨r, by rw [List.takeWhile_cons_of_pos ha, List.cons_append, ← h1], h2⟩
    | false => exact ⟨a :: l, by rw [List.takeWhile_cons_of_neg (by simp [ha])]; rfl, by simpa using ha⟩

/-! ### What is found by name -/

theorem retrieve_names {D : List Decl} {T : Tree} (h : Tidy D T) {pre ts us : Path} (hn : Names D pre ts us) :
    ∀ {n : Node}, nodeOf pre T.root = some n → retrieveFrom ts n = nodeOf us n := by
  induction hn with
  | nil => intro n _; rfl
  | @row pre ts us t hd _ ih =>
    intro n hpre
    obtain ⟨d, hd, hdp, hdt⟩ := hd
    have ht := (h.declared d hd n (by rw [hdp]; exact hpre)).1
    unfold retrieveFrom
    rw [if_pos (ht.trans hdt)]
    simp only [nodeOf]
    cases hc : child n template with
    | none => rfl
    | some c => exact ih (by rw [nodeOf_append, hpre]; simp [nodeOf, hc])
  | @step pre ts us t hd _ ih =>
    intro n hpre
    have ht : n.info.type ≠ tTable := by
      rcases Classical.em (∃ d ∈ D, d.path = pre) with ⟨d, hdD, hdp⟩ | hno
      · rw [(h.declared d hdD n (by rw [hdp]; exact hpre)).1]
        exact hd d hdD hdp
      · rw [h.undeclared pre n (fun d hd he => hno ⟨d, hd, he⟩) hpre]
        decide
    unfold retrieveFrom
    rw [if_neg ht]
    simp only [nodeOf]
    cases hc : child n t with
    | none => rfl
    | some c => exact ih (by rw [nodeOf_append, hpre]; simp [nodeOf, hc])

theorem names_total (D : List Decl) : ∀ (ts pre : Path), ∃ us, Names D pre ts us := by
  intro ts
  induction ts with
  | nil => intro pre; exact ⟨[], .nil⟩
  | cons t ts ih =>
    intro pre
    rcases Classical.em (∃ d ∈ D, d.path = pre ∧ d.type = tTable) with hd | hd
    · obtain ⟨us, hus⟩ := ih (pre ++ [template])
      exact ⟨_, .row hd hus⟩
    · obtain ⟨us, hus⟩ := ih (pre ++ [t])
      exact ⟨_, .step (fun d h1 h2 h3 => hd ⟨d, h1, h2, h3⟩) hus⟩

/-! ### Messages -/

theorem map_inj {α : Type} {f : α → Nat} {x y : α} : ∀ {l : List α}, (l.map f).Nodup → x ∈ l → y ∈ l →
    f x = f y → x = y := by
  intro l
  induction l with
  | nil => intro _ h; cases h
  | cons z l ih =>
    intro hn hx hy he
    rw [List.map_cons, List.nodup_cons] at hn
    rcases List.mem_cons.mp hx with h1 | h1 <;> rcases List.mem_cons.mp hy with h2 | h2
    · rw [h1, h2]
    · subst h1
      exact absurd (by rw [he]; exact List.mem_map_of_mem h2) hn.1
    · subst h2
      exact absurd (by rw [← he]; exact List.mem_map_of_mem h1) hn.1
    · exact ih hn.2 h1 h2 he

theorem Inv.ids_nodup {sc : Bool} {s : State} (h : Inv sc s) : (s.subs.map (·.subscriptionId)).Nodup := by
  rw [List.nodup_iff_pairwise_ne, List.pairwise_map]
  exact h.ids.imp (fun hlt he => by omega)


theorem byAddr_mem {s : State} {a : Nat} {x : Sub} (hn : (s.subs.map (·.addr)).Nodup)
    (h : x ∈ s.subs) (ha : x.addr = a) : byAddr s a = some x := by
  obtain ⟨p, q, hpq⟩ := List.append_of_mem h
  unfold byAddr
  rw [List.find?_append, ← ha, find_addr hpq hn]
  rfl

theorem entitled_flag {sc : Bool} {k : EventKind} {f : Filter.Filter} {g g1 : Option Bool} {p : Bool}
    (h : entitled sc k f g = .ok (p, g1)) (g0 : Option Bool) : ∃ g2, entitled sc k f g0 = .ok (p, g2) := by
  unfold entitled at h ⊢
  split at h
  next new old =>
    rcases Decidable.em (f = .null) with hf | hf
    · rw [if_pos hf] at h
      cases h
      exact ⟨g0, by simp only [if_pos hf]⟩
    · rw [if_neg hf] at h
      obtain ⟨a, ha, h⟩ := res_bind_ok h
      obtain ⟨b, hb, h⟩ := res_bind_ok h
      simp only [Res.pure_eq, Res.ok.injEq] at h
      rcases Decidable.em (a = b) with hab | hab
      · rw [if_pos hab] at h
        cases h
        exact ⟨g0, by simp only [if_neg hf, ha, hb, Res.ok_bind, Res.pure_eq, if_pos hab]⟩
      · rw [if_neg hab] at h
        cases h
        exact ⟨some a, by simp only [if_neg hf, ha, hb, Res.ok_bind, Res.pure_eq, if_neg hab]⟩
  next hno =>
    cases h
    exact ⟨g0, rfl⟩

/-- The messages of one event. -/
theorem deliver_spec {sc : Bool} {s : State} {k : EventKind} {net : Nat → Bool} :
    ∀ {xs : List Sub} {flag : Option Bool} {ms : List Msg} {ok : Bool},
    (∀ x ∈ xs, byAddr s x.addr = some x) →
    deliver sc s k net flag (xs.map (·.addr)) = .ok (ms, ok) →
    ∃ pub : Sub → Bool, (∀ x ∈ xs, ∃ g g', entitled sc k x.key.filter g = .ok (pub x, g')) ∧
      ms.map (fun m => (m.listener, m.eventName, m.componentId, m.subscriptionId)) =
        (xs.filter (fun x => pub x && !x.key.rawData)).map
          (fun x => (x.key.listener, x.key.eventName, x.key.componentId, x.subscriptionId)) ∧
      (∀ m ∈ ms, ∃ x ∈ xs, m.subscriptionId = x.subscriptionId ∧ ∃ g g', m.filter = g' ∧
        entitled sc k x.key.filter g = .ok (true, g')) ∧
      (ok = true ↔ ∀ m ∈ ms, net m.subscriptionId = true) ∧
      ((∀ x ∈ xs, x.key.filter = .null) → ∀ m ∈ ms, m.filter = flag) := by
  intro xs
  induction xs with
  | nil =>
    intro flag ms ok _ h
    cases h
    exact ⟨fun _ => false, by simp, rfl, by simp, by simp, by simp⟩
  | cons x xs ih =>
    intro flag ms ok hx h
    rw [List.map_cons] at h
    unfold deliver at h
    rw [hx x (by simp)] at h
    simp only at h
    obtain ⟨⟨p, g⟩, h1, h⟩ := res_bind_ok h
    obtain ⟨⟨ms', ok'⟩, h2, h⟩ := res_bind_ok h
    simp only at h
    obtain ⟨pub, i1, i2, i3, i4, i5⟩ := ih (fun y hy => hx y (by simp [hy])) h2
    have hent : ∀ g0 : Option Bool, ∃ g1, entitled sc k x.key.filter g0 = .ok (p, g1) := by
      exact entitled_flag h1
    refine ⟨fun y => if y = x then p else pub y, ?_, ?_, ?_, ?_, ?_⟩
    · intro y hy
      rcases Decidable.em (y = x) with rfl | hyx
      · simp only [if_true]
        exact ⟨_, _, h1⟩
      · rcases List.mem_cons.mp hy with hy | hy
        · exact absurd hy hyx
        · simp only [if_neg hyx]
          exact i1 y hy
    · have hrest : xs.filter (fun y => (if y = x then p else pub y) && !y.key.rawData) =
          xs.filter (fun y => pub y && !y.key.rawData) := by
        apply List.filter_congr
        intro y hy
        rcases Decidable.em (y = x) with rfl | hyx
        · simp only [if_true]
          obtain ⟨g0, g0', h0⟩ := i1 y hy
          obtain ⟨g1, hg1⟩ := hent g0
          rw [h0] at hg1
          simp only [Res.ok.injEq, Prod.mk.injEq] at hg1
          rw [hg1.1]
        · simp only [if_neg hyx]
      split at h
      next hp =>
        cases h
        rw [List.filter_cons_of_pos (by simpa using hp), List.map_cons, List.map_cons, i2, hrest]
      next hp =>
        cases h
        rw [List.filter_cons_of_neg (by simpa using hp), i2, hrest]
    · intro m hm
      split at h
      next hp =>
        cases h
        simp only [Bool.and_eq_true] at hp
        rcases List.mem_cons.mp hm with rfl | hm
        · exact ⟨x, by simp, rfl, _, _, rfl, by rw [← hp.1]; exact h1⟩
        · obtain ⟨y, hy, hh⟩ := i3 m hm
          exact ⟨y, by simp [hy], hh⟩
      next hp =>
        cases h
        obtain ⟨y, hy, hh⟩ := i3 m hm
        exact ⟨y, by simp [hy], hh⟩
    · split at h
      · cases h
        simp [i4]
      · cases h
        exact i4
    · intro hnull m hm
      have hg : g = flag := by
        have := hnull x (by simp)
        unfold entitled at h1
        rw [this] at h1
        split at h1
        · simp only [if_true] at h1; cases h1; rfl
        · cases h1; rfl
      have hrest := i5 (fun y hy => hnull y (by simp [hy]))
      split at h
      · cases h
        rcases List.mem_cons.mp hm with rfl | hm
        · exact hg
        · rw [hrest m hm, hg]
      · cases h
        rw [hrest m hm, hg]

/-! ### Subscriptions that stay -/

theorem resubscribeRow_keeps {sc : Bool} {env : Env} {row : Bytes} : ∀ {l : List Sub} {s s' : State},
    (∀ x ∈ l, x ∈ s.subs) → (s.subs.map (·.addr)).Nodup → (l.map (·.addr)).Nodup → Cover s s.subs →
    resubscribeRow sc env row l s = .ok s' →
    ∀ y ∈ s.subs, ¬ row <+: y.key.eventName → y ∈ s'.subs := by
  intro l
  induction l with
  | nil => intro s s' _ _ _ _ h; cases h; exact fun y hy _ => hy
  | cons x l ih =>
    intro s s' hl hn hd hc h y hy hrow
    rw [List.map_cons, List.nodup_cons] at hd
    have hrest := fun y hy => hl y (List.mem_cons_of_mem x hy)
    unfold resubscribeRow at h
    split at h
    next hpre =>
      split at h
      · exact ih hrest hn hd.2 hc h y hy hrow
      · obtain ⟨s1, h1, h⟩ := res_bind_ok h
        have hone : resubscribeRow sc env row [x] s = .ok s1 := by
          unfold resubscribeRow
          rw [if_pos hpre]
          simp_all [resubscribeRow]
        have hc1 := resubscribeRow_cover hc (l := [x]) (by simpa using hl x (by simp)) (by simp) hone
        unfold resubscribe at h1
        simp only at h1
        obtain ⟨⟨s2, r⟩, h2, h1⟩ := res_bind_ok h1
        obtain ⟨a, b, hab⟩ := List.append_of_mem (hl x (by simp))
        have herase : s.subs.eraseP (fun y => y.addr = x.addr) = a ++ b := by
          rw [hab]
          exact eraseP_addr (by rw [← hab]; exact hn)
        rw [herase] at h2
        have hE : ∃ E, s2.subs = a ++ b ++ E := by
          cases impl_added h2 with
          | refused hf => exact ⟨[], by rw [hf.subs]; simp⟩
          | rawTrace hm hf => exact ⟨_, by rw [hf.subs, hm.subs]⟩
          | made hm hf => exact ⟨_, by rw [hf.subs, hm.subs]⟩
        obtain ⟨E, hE⟩ := hE
        obtain ⟨rfl, -, -⟩ := freeSub_ok h1
        have hkeep : ∀ z ∈ s.subs, z ≠ x → z ∈ s2.subs := by
          intro z hz hne
          rw [hE]
          rw [hab] at hz
          simp only [List.mem_append, List.mem_cons, hne, false_or] at hz ⊢
          exact .inl hz
        refine ih (s := { s2 with attached := detach x.addr s2.attached x.instances, limbo := none })
          ?_ hc1.addrs hd.2 hc1 h y ?_ hrow
        · intro z hz
          refine hkeep z (hrest z hz) ?_
          rintro rfl
          exact hd.1 (List.mem_map_of_mem hz)
        · refine hkeep y hy ?_
          rintro rfl
          exact hrow hpre
    · exact ih hrest hn hd.2 hc h y hy hrow

end Verif.Subs
