import Verif.Proof.Registry

/-!
# What the loss of a consumer's connection does to the list of subscriptions
-/

namespace Verif.Subs

open Verif Verif.Element Verif.TokenChain Verif.Filter
open Verif.Spec.Registry (SameKey Plain)

/-- An unsubscription takes at most one subscription away, which has the key. -/
theorem Removed.split {sc : Bool} {s s' : State} {el : Node} {k : Key} {r : Nat} (hi : Inv sc s)
    (h : Removed sc s s' el k r) :
    s'.tree = s.tree ∧ ((r ≠ eOk ∧ s'.subs = s.subs) ∨
      ∃ a x b, s.subs = a ++ x :: b ∧ s'.subs = a ++ b ∧ SameKey sc x.key k ∧ r = eOk) := by
  cases h with
  | refused h _ _ hr => exact ⟨h.tree, .inl ⟨hr, h.subs⟩⟩
  | @gone x s1 hx hk hf hg hr =>
    refine ⟨hg.tree.trans hf.tree, .inr ?_⟩
    obtain ⟨a, b, hab⟩ := List.append_of_mem hx
    refine ⟨a, x, b, hab, ?_, sameKey_iff.mp hk, hr⟩
    have hn := hi.addrs
    rw [hab] at hn
    rw [hg.subs, hf.subs, hab, eraseP_addr hn]

/-- The key that is asked for when a consumer is gone. -/
def plainKey (k : Key) : Key := ⟨k.listener, k.eventName, k.componentId, .null, 0, 0, false⟩

theorem plainKey_eq {k : Key} (h : Plain k) : plainKey k = k := by
  obtain ⟨h1, h2, h3, h4⟩ := h
  cases k
  simp_all [plainKey]

/-- Nobody else is affected. -/
theorem disconnectFrom_others {sc : Bool} {env : Env} {l : Bytes} : ∀ {fuel : Nat} {c : Option Nat}
    {s s' : State}, Inv sc s → disconnectFrom sc env l fuel c s = .ok s' →
    s'.subs.Sublist s.subs ∧
      s'.subs.filter (fun x => x.key.listener ≠ l) = s.subs.filter (fun x => x.key.listener ≠ l) := by
  intro fuel
  induction fuel with
  | zero =>
    intro c s s' hi h
    cases c with
    | none => cases h; exact ⟨.refl _, rfl⟩
    | some a => cases h
  | succ fuel ih =>
    intro c s s' hi h
    cases c with
    | none => cases h; exact ⟨.refl _, rfl⟩
    | some a =>
      unfold disconnectFrom at h
      split at h
      · cases h
      next x _ =>
        simp only at h
        split at h
        next hc =>
          split at h
          · exact ih hi h
          · split at h
            · cases h
            · obtain ⟨⟨s1, r⟩, h1, h⟩ := res_bind_ok h
              have hr := impl_removed hi.addrs h1
              have h2 := ih (hr.inv hi) h
              obtain ⟨-, ⟨-, h3⟩ | ⟨u, y, v, h3, h4, h5, -⟩⟩ := hr.split hi
              · rw [h3] at h2
                exact h2
              · refine ⟨h2.1.trans ?_, h2.2.trans ?_⟩
                · rw [h3, h4]
                  exact List.Sublist.append (.refl _) (List.sublist_cons_self _ _)
                · have : y.key.listener = l := h5.listener.trans hc.1
                  rw [h3, h4]
                  simp [this]
        · exact ih hi h

/-- A plain subscription is found under its own key and removed, if the provider does not object. -/
theorem remove_plain {sc : Bool} {env : Env} {s s' : State} {x : Sub} {el : Node} {r : Nat}
    (hi : Inv sc s) (hx : x ∈ s.subs) (hp : Plain x.key) (ha : ∀ k b, (env.handler false k b).1 = eOk)
    (h : subscribeImpl sc env s false el x.key = .ok (s', r)) : r = eOk ∧ x ∉ s'.subs := by
  have hself : sameKey sc x.key x.key = .ok true := by
    rw [sameKey_iff]
    refine ⟨rfl, rfl, rfl, ?_, rfl, rfl, rfl⟩
    rw [hp.1]
    exact .null
  have hreg : ∀ {t : State} {auto : Bool}, Inv sc t → t.subs = s.subs →
      register sc env t false el x.key auto = .ok (s', r) → r = eOk ∧ x ∉ s'.subs := by
    intro t auto hit hts h
    unfold register at h
    rw [if_neg (by simp)] at h
    obtain ⟨f, hf, h⟩ := res_bind_ok h
    rw [if_neg (by simp)] at h
    cases f with
    | none =>
      have := getSub_none hf x (by rw [hts]; exact hx)
      rw [hself] at this
      cases this
    | some z =>
      obtain ⟨a, b, hab, h1, h2⟩ := getSub_some hf
      have hzx : z = x := by
        rw [hts] at hab
        rw [hab] at hx
        rcases List.mem_append.mp hx with hx | hx
        · have := h1 x hx
          rw [hself] at this
          cases this
        · rcases List.mem_cons.mp hx with hx | hx
          · exact hx.symm
          · have hk := hi.keys
            rw [hab, List.pairwise_append, List.pairwise_cons] at hk
            have := hk.2.1.1 x hx
            rw [h2] at this
            cases this
      subst hzx
      simp only [finish] at h
      rw [if_neg (by simp [hp.2.2.2])] at h
      obtain ⟨s2, h3, h⟩ := res_bind_ok h
      obtain ⟨s3, h4, h⟩ := res_bind_ok h
      cases h
      rw [if_neg (by simp)] at h4
      have hf2 : Frame t s2 := by
        split at h3
        · exact (polling_frame h3).1
        · cases h3; exact .refl _
      have hn := hit.addrs
      have hg := (removeSub_ok (by rw [hf2.subs, hab]; simp) (by rw [hf2.subs]; exact hn) h4).1
      refine ⟨rfl, ?_⟩
      rw [hab] at hn
      rw [hg.subs, hf2.subs, hab, eraseP_addr hn]
      intro hmem
      rw [(List.perm_middle.map _).nodup_iff, List.map_cons, List.nodup_cons] at hn
      exact hn.1 (List.mem_map_of_mem hmem)
  unfold subscribeImpl at h
  split at h
  · simp only at h
    rw [if_neg (by simp [hp.2.2.2]), if_neg (by simp [ha])] at h
    exact hreg (t := { s with told := s.told ++ [(false, x.key.eventName)] })
      (hi.frame ⟨rfl, rfl, rfl, rfl, rfl, rfl, rfl⟩) rfl h
  · exact hreg hi rfl h

/-- Every plain subscription of the consumer is gone at the end. -/
theorem disconnectFrom_plain {sc : Bool} {env : Env} {l : Bytes}
    (ha : ∀ k b, (env.handler false k b).1 = eOk) : ∀ {fuel : Nat} {pre rest : List Sub} {s s' : State},
    Inv sc s → s.subs = pre ++ rest →
    disconnectFrom sc env l fuel (rest.head?.map (·.addr)) s = .ok s' →
    ∀ x ∈ rest, x.key.listener = l → Plain x.key → (retrieveInstance s.tree x.key.eventName).isSome →
      x ∉ s'.subs := by
  intro fuel
  induction fuel with
  | zero =>
    intro pre rest s s' hi hs h x hx
    cases rest with
    | nil => cases hx
    | cons y rest => cases h
  | succ fuel ih =>
    intro pre rest s s' hi hs h x hx hl hp hr
    cases rest with
    | nil => cases hx
    | cons y rest =>
      simp only [List.head?_cons, Option.map_some] at h
      unfold disconnectFrom at h
      rw [find_addr hs hi.addrs] at h
      have hnext : nextOf y.addr s.subs = rest.head?.map (·.addr) := by
        rw [hs]
        exact nextOf_eq (by rw [← hs]; exact hi.addrs)
      simp only [hnext] at h
      -- going on with the same list
      have hon : disconnectFrom sc env l fuel (rest.head?.map (·.addr)) s = .ok s' →
          ¬ (y.key.listener = l ∧ (retrieveInstance s.tree y.key.eventName).isSome) → x ∉ s'.subs := by
        intro h hc
        rcases List.mem_cons.mp hx with rfl | hx
        · exact absurd ⟨hl, hr⟩ hc
        · exact ih (pre := pre ++ [y]) hi (by simp [hs]) h x hx hl hp hr
      split at h
      next hc =>
        split at h
        next he => exact absurd he (hi.bound y (by rw [hs]; simp)).1
        next e he =>
          split at h
          · cases h
          next el _ =>
            obtain ⟨⟨s1, r⟩, h1, h⟩ := res_bind_ok h
            have hrem := impl_removed hi.addrs h1
            have hi1 := hrem.inv hi
            have hsub := disconnectFrom_others hi1 h
            rcases Decidable.em (x = y) with hxy | hxy
            · subst hxy
              have hk := plainKey_eq hp
              unfold plainKey at hk
              rw [hk] at h1
              have := remove_plain hi (by rw [hs]; simp) hp ha h1
              exact fun hm => this.2 (hsub.1.subset hm)
            · have hx' : x ∈ rest := by
                rcases List.mem_cons.mp hx with h | h
                · exact absurd h hxy
                · exact h
              obtain ⟨htree, ⟨-, h3⟩ | ⟨u, z, v, h3, h4, h5, -⟩⟩ := hrem.split hi
              · exact ih (pre := pre ++ [y]) hi1 (by simp [h3, hs]) h x hx' hl hp (by rw [htree]; exact hr)
              · -- where the removed one was
                have hn := hi.addrs
                rw [h3] at hn
                have hz : z ∉ u ++ v := by
                  intro hmem
                  rw [(List.perm_middle.map _).nodup_iff, List.map_cons, List.nodup_cons] at hn
                  exact hn.1 (List.mem_map_of_mem hmem)
                rcases Decidable.em (x = z) with hxz | hxz
                · subst hxz
                  intro hm
                  exact hz (h4 ▸ hsub.1.subset hm)
                · have h6 : pre ++ [y] ++ rest = u ++ z :: v := by rw [← h3, hs]; simp
                  rcases List.append_eq_append_iff.mp h6 with ⟨w, hw1, hw2⟩ | ⟨w, hw1, hw2⟩
                  · -- among the rest
                    cases w with
                    | nil =>
                      -- it is the next one
                      simp only [List.nil_append] at hw2
                      rw [hw2] at h
                      simp only [List.head?_cons, Option.map_some] at h
                      cases fuel with
                      | zero => cases h
                      | succ fuel =>
                        unfold disconnectFrom at h
                        have : s1.subs.find? (fun x => x.addr = z.addr) = none := by
                          rw [List.find?_eq_none]
                          intro q hq hqz
                          rw [h4] at hq
                          rw [(List.perm_middle.map _).nodup_iff, List.map_cons, List.nodup_cons] at hn
                          exact hn.1 (List.mem_map.mpr ⟨q, hq, by simpa using hqz⟩)
                        rw [this] at h
                        cases h
                    | cons w0 w =>
                      have hrest : rest = w0 :: (w ++ z :: v) := by simpa using hw2
                      have hs1 : s1.subs = (pre ++ [y]) ++ (w0 :: (w ++ v)) := by
                        rw [h4, hw1]; simp
                      rw [hrest] at h
                      refine ih (pre := pre ++ [y]) (rest := w0 :: (w ++ v)) hi1 hs1 h x ?_ hl hp
                        (by rw [htree]; exact hr)
                      rw [hrest] at hx'
                      simp only [List.mem_cons, List.mem_append] at hx' ⊢
                      rcases hx' with h | h | h | h
                      · exact .inl h
                      · exact .inr (.inl h)
                      · exact absurd h hxz
                      · exact .inr (.inr h)
                  · cases w with
                    | nil =>
                      simp only [List.nil_append] at hw2
                      rw [← hw2] at h hx'
                      simp only [List.head?_cons, Option.map_some] at h
                      cases fuel with
                      | zero => cases h
                      | succ fuel =>
                        unfold disconnectFrom at h
                        have : s1.subs.find? (fun x => x.addr = z.addr) = none := by
                          rw [List.find?_eq_none]
                          intro q hq hqz
                          rw [h4] at hq
                          rw [(List.perm_middle.map _).nodup_iff, List.map_cons, List.nodup_cons] at hn
                          exact hn.1 (List.mem_map.mpr ⟨q, hq, by simpa using hqz⟩)
                        rw [this] at h
                        cases h
                    | cons w0 w =>
                      simp only [List.cons_append, List.cons.injEq] at hw2
                      obtain ⟨rfl, hv⟩ := hw2
                      exact ih (pre := u ++ w) (rest := rest) hi1 (by rw [h4, hv]; simp) h x hx' hl hp
                        (by rw [htree]; exact hr)
      next hc => exact hon h hc

end Verif.Subs
