import Verif.Spec.EventWire
import Verif.Proof.Meta
import Verif.Proof.Wire
import Verif.Proof.Life
import Verif.Proof.Consumer

/-!
# Proofs about events from end to end
-/

namespace Verif.EventWire

open Verif Verif.Message Verif.Wire Verif.Value
open Verif.Method (str getProp setProp)
open Verif.Subs (EventKind Sub byAddr Msg)
open Verif.Spec.EventWire

/-! ## Metadata -/

theorem closeMeta_bytes (body S : Bytes) (h : body.length < 2 ^ 31 - 32768) :
    closeMeta body S = body ++ (S ++ (0xd2 :: beBytes 4 body.length)) := by
  simp only [closeMeta, off_toInt (show body.length < 2 ^ 31 by omega)]
  have hpk : packInt ((body.length : Int) - 2 ^ 31) =
      0xd2 :: beBytes 4 (body.length + 2 ^ 31) := by
    unfold packInt
    rw [if_pos (by omega), if_pos (by omega), if_neg (by omega)]
    congr 2
    omega
  rw [hpk, beBytes_four, beBytes_four]
  have hlen : (body ++ S ++ 0xd2 :: [UInt8.ofNat ((body.length + 2 ^ 31) / 256 / 256 / 256),
      UInt8.ofNat ((body.length + 2 ^ 31) / 256 / 256),
      UInt8.ofNat ((body.length + 2 ^ 31) / 256), UInt8.ofNat (body.length + 2 ^ 31)]).length - 4
      = (body ++ S ++ [0xd2]).length := by
    simp
    omega
  rw [hlen]
  rw [show body ++ S ++ 0xd2 :: [UInt8.ofNat ((body.length + 2 ^ 31) / 256 / 256 / 256),
      UInt8.ofNat ((body.length + 2 ^ 31) / 256 / 256),
      UInt8.ofNat ((body.length + 2 ^ 31) / 256), UInt8.ofNat (body.length + 2 ^ 31)]
      = (body ++ S ++ [0xd2]) ++ UInt8.ofNat ((body.length + 2 ^ 31) / 256 / 256 / 256) ::
        [UInt8.ofNat ((body.length + 2 ^ 31) / 256 / 256),
          UInt8.ofNat ((body.length + 2 ^ 31) / 256), UInt8.ofNat (body.length + 2 ^ 31)] by simp]
  rw [modify_at, mask_top (by omega)]
  have e1 : UInt8.ofNat ((body.length + 2 ^ 31) / 256 / 256) = UInt8.ofNat (body.length / 256 / 256) := by
    apply UInt8.toNat_inj.mp
    simp only [UInt8.toNat_ofNat']
    omega
  have e2 : UInt8.ofNat ((body.length + 2 ^ 31) / 256) = UInt8.ofNat (body.length / 256) := by
    apply UInt8.toNat_inj.mp
    simp only [UInt8.toNat_ofNat']
    omega
  have e3 : UInt8.ofNat (body.length + 2 ^ 31) = UInt8.ofNat body.length := by
    apply UInt8.toNat_inj.mp
    simp only [UInt8.toNat_ofNat']
    omega
  rw [e1, e2, e3]
  simp

theorem closeMeta_length (body S : Bytes) : body.length ≤ (closeMeta body S).length := by
  simp only [closeMeta, List.length_modify, List.length_append]
  omega

theorem openMeta_close (body S : Bytes) (hb : body.length < 2 ^ 31 - 32768) :
    openMeta (closeMeta body S) = S ++ (0xd2 :: beBytes 4 body.length) := by
  rw [closeMeta_bytes body S hb]
  generalize hB : body ++ (S ++ (0xd2 :: beBytes 4 body.length)) = B
  have hBsplit : B = (body ++ S) ++ (0xd2 :: beBytes 4 body.length) := by rw [← hB]; simp
  have hlen : B.length = (body ++ S).length + 5 := by rw [hBsplit]; simp; omega
  have hdrop : B.drop (B.length - 5) = 0xd2 :: beBytes 4 body.length := by
    rw [hlen, Nat.add_sub_cancel]
    rw [hBsplit, List.drop_left]
  have hget : getInt32 (0xd2 :: beBytes 4 body.length) = some (BitVec.ofNat 32 body.length, []) := by
    have hU := grabU_append body.length 4 [] (by omega)
    rw [List.append_nil] at hU
    have hS : grabS (beBytes 4 body.length) 4 = some ((body.length : Int), []) := by
      simp only [grabS, hU, Option.map_some]
      rw [if_pos (by omega)]
    simp only [getInt32, unpackNext]
    simp [hS]
  have hoff : (BitVec.ofNat 32 body.length).toNat = body.length := by
    rw [BitVec.toNat_ofNat]; exact Nat.mod_eq_of_lt (by omega)
  have hnn : ¬ (BitVec.ofNat 32 body.length).toInt < 0 := by
    rw [BitVec.toInt_eq_toNat_of_lt (by omega), hoff]; omega
  simp only [openMeta]
  rw [if_neg (by omega), hdrop, hget]
  simp only [if_neg hnn, hoff]
  rw [← hB, List.drop_left]

theorem getName_set (s r : Bytes) (h : Name s) : getName (setString s ++ r) = .ok (some s, r) := by
  have hg := get_setString s h.1 h.2 r
  unfold getString at hg
  unfold getName
  cases hu : unpackNext (setString s ++ r) with
  | none => rw [hu] at hg; cases hg
  | some y =>
    obtain ⟨it, r'⟩ := y
    rw [hu] at hg
    cases it with
    | str t =>
      simp only at hg ⊢
      split at hg
      · rename_i hc
        rw [if_pos hc]
        cases hg
        rfl
      · cases hg
    | int _ => cases hg
    | dbl _ => cases hg
    | bin _ => cases hg

/-! ## The property that tells the answer of a filter -/

theorem filter_flag : EventWire.filter = flagName := rfl

theorem listed_set (v : WVal) : ∀ ps, (listed (setProp flagName v ps)).filter (fun y => y.1 ≠ flagName) =
    (listed ps).filter (fun y => y.1 ≠ flagName)
  | .nil => by simp [setProp, listed]
  | .cons n w r => by
    by_cases hn : n = flagName
    · simp [setProp, listed, hn]
    · simp only [setProp, if_neg hn, listed, List.filter_cons, listed_set v r]

theorem find_set (v : WVal) : ∀ ps, (listed (setProp flagName v ps)).find? (fun y => y.1 = flagName) = some (flagName, v)
  | .nil => by simp [setProp, listed]
  | .cons n w r => by
    by_cases hn : n = flagName
    · simp [setProp, listed, hn]
    · rw [setProp, if_neg hn, listed, List.find?_cons]
      simp only [hn, decide_false]
      exact find_set v r

theorem set_set (n : Bytes) (v w : WVal) : ∀ ps, setProp n v (setProp n w ps) = setProp n v ps
  | .nil => by simp [setProp]
  | .cons m u r => by
    by_cases hn : m = n
    · simp [setProp, hn]
    · simp only [setProp, if_neg hn, set_set n v w r]

theorem setFlag_setFlag (b c : Bool) (e : Ev) : setFlag b (setFlag c e) = setFlag b e := by
  obtain ⟨n, t, d⟩ := e
  cases d with
  | none => rfl
  | some o =>
    obtain ⟨m, u, ps, cs⟩ := o
    simp only [setFlag, set_set]

theorem sendable_set (fc : FloatConv) (n : Bytes) (hn : Name n) (b : Bool) : ∀ ps, SendableProps fc ps →
    SendableProps fc (setProp n (.scalar (.boolean b)) ps)
  | .nil, _ => ⟨hn, trivial, trivial⟩
  | .cons m u r, h => by
    by_cases he : m = n
    · simp only [setProp, if_pos he]
      exact ⟨h.1, trivial, h.2.2⟩
    · simp only [setProp, if_neg he]
      exact ⟨h.1, h.2.1, sendable_set fc n hn b r h.2.2⟩

theorem count_set (n : Bytes) (v : WVal) : ∀ ps, (setProp n v ps).count ≤ ps.count + 1
  | .nil => by simp [setProp, PropList.count]
  | .cons m u r => by
    by_cases he : m = n
    · simp only [setProp, if_pos he, PropList.count]
      omega
    · simp only [setProp, if_neg he, PropList.count]
      have := count_set n v r
      omega

/-- The event with the property set, or as it was. -/
abbrev flagged (e : Ev) (flag : Option Bool) : Ev := mark e flag

theorem flagged_step (e : Ev) (g flag : Option Bool) :
    mark (flagged e flag) g = flagged e (g.or flag) := by
  cases g with
  | none => rfl
  | some b =>
    cases flag with
    | none => rfl
    | some c => exact setFlag_setFlag b c e

theorem flagged_name (e : Ev) (flag : Option Bool) : (flagged e flag).name = e.name ∧ (flagged e flag).type = e.type := by
  obtain ⟨n, t, d⟩ := e
  cases flag with
  | none => exact ⟨rfl, rfl⟩
  | some b =>
    cases d with
    | none => exact ⟨rfl, rfl⟩
    | some o => cases o; exact ⟨rfl, rfl⟩

theorem flagged_sendable {fc : FloatConv} {e : Ev} (h : Fit fc e) (flag : Option Bool) :
    ∀ o, (flagged e flag).data = some o → SendableObj fc o := by
  obtain ⟨n, t, d⟩ := e
  intro o ho
  cases flag with
  | none =>
    obtain ⟨m, u, ps, cs⟩ := o
    exact (h.data _ _ _ _ ho).1
  | some b =>
    cases d with
    | none => cases ho
    | some o' =>
      obtain ⟨m, u, ps, cs⟩ := o'
      have ho : Obj.mk m u (setProp EventWire.filter (.scalar (.boolean b)) ps) cs = o := by
        simpa [flagged, mark, setFlag] using ho
      subst ho
      obtain ⟨⟨h1, h2, h3, h4⟩, h5⟩ := h.data _ _ _ _ rfl
      refine ⟨h1, ?_, sendable_set fc _ ⟨by decide, by decide⟩ b ps h3, h4⟩
      have := count_set EventWire.filter (.scalar (.boolean b)) ps
      omega

theorem alike_refl : ∀ o, Alike o o
  | .mk _ _ _ _ => ⟨rfl, rfl, rfl, rfl⟩

theorem flagged_data {sc : Bool} {k : EventKind} {x : Sub} (e : Ev) (flag : Option Bool)
    (h : x.key.filter ≠ .null → ∀ new old, k = .valueChanged (some new) (some old) →
      ∃ b, Filter.apply sc x.key.filter new = .ok b ∧ flag = some b) : Data sc k x e.data (flagged e flag).data := by
  obtain ⟨n, t, d⟩ := e
  cases d with
  | none => cases flag <;> rfl
  | some o =>
    obtain ⟨m, u, ps, cs⟩ := o
    cases flag with
    | none =>
      refine ⟨_, rfl, alike_refl _, fun hf new old hk => ?_⟩
      obtain ⟨b, _, hb⟩ := h hf new old hk
      cases hb
    | some c =>
      refine ⟨_, rfl, ⟨rfl, rfl, rfl, (listed_set _ ps).symm⟩, fun hf new old hk => ?_⟩
      obtain ⟨b, ha, hb⟩ := h hf new old hk
      cases hb
      exact ⟨c, ha, find_set _ ps⟩

/-! ## What leaves the provider -/

/-- A message carries the event for a subscription, with the property set as told. -/
def Carries (fc : FloatConv) (comp : Bytes) (e : Ev) (x : Sub) (flag : Option Bool) (p : Packet) : Prop :=
  p.listener = x.key.listener ∧ p.sender = comp ∧ p.subscription = x.subscriptionId ∧
    ∃ d, appendEvent fc (eventFor (flagged e flag) x) = .ok d ∧
      p.bytes = closeMeta d (setString x.key.eventName ++ (setString comp ++ setInt32 1))

theorem entitled_or {sc : Bool} {k : EventKind} {f : Filter.Filter} {flag g : Option Bool} {p : Bool}
    (h : Subs.entitled sc k f none = .ok (p, g)) : Subs.entitled sc k f flag = .ok (p, g.or flag) := by
  unfold Subs.entitled at h ⊢
  split at h
  · rename_i new old
    by_cases hf : f = .null
    · rw [if_pos hf] at h ⊢
      cases h
      rfl
    · rw [if_neg hf] at h ⊢
      obtain ⟨a, ha, h⟩ := res_bind_ok h
      obtain ⟨b, hb, h⟩ := res_bind_ok h
      rw [ha, Res.ok_bind, hb, Res.ok_bind]
      by_cases hab : a = b
      · rw [if_pos hab] at h ⊢
        cases h
        rfl
      · rw [if_neg hab] at h ⊢
        cases h
        rfl
  · rename_i hno
    cases h
    rfl

theorem deliver_rel {sc : Bool} {fc : FloatConv} {s : Subs.State} {comp : Bytes} {known : Bool} {net : Nat → Bool} {k : EventKind}
    {e : Ev} (hc : comp.length < maxName) : ∀ {as : List Nat} {flag : Option Bool} {ps : List Packet} {ok : Bool},
    deliver sc fc s comp known net k (flagged e flag) as = .ok (ps, ok) →
    ∃ ms, Subs.deliver sc s k (fun _ => known) flag as = .ok (ms, ok) ∧
      ps.map (·.subscription) = (ms.map (·.subscriptionId)).filter net ∧
      ∀ p ∈ ps, ∃ m ∈ ms, ∃ a ∈ as, ∃ x, byAddr s a = some x ∧ m.subscriptionId = x.subscriptionId ∧
        Carries fc comp e x m.filter p := by
  intro as
  induction as with
  | nil =>
    intro flag ps ok h
    cases h
    exact ⟨[], rfl, rfl, by simp⟩
  | cons a as ih =>
    intro flag ps ok h
    unfold deliver at h
    cases hx : byAddr s a with
    | none => rw [hx] at h; cases h
    | some x =>
      rw [hx] at h
      simp only at h
      obtain ⟨⟨pub, g⟩, h1, h⟩ := res_bind_ok h
      simp only [flagged_step] at h
      obtain ⟨⟨p, ok1⟩, h2, h⟩ := res_bind_ok h
      obtain ⟨⟨ps', ok2⟩, h3, h⟩ := res_bind_ok h
      simp only [Res.pure_eq, Res.ok.injEq, Prod.mk.injEq] at h
      obtain ⟨rfl, rfl⟩ := h
      obtain ⟨ms, i1, i2, i3⟩ := ih h3
      have hd : Subs.deliver sc s k (fun _ => known) flag (a :: as) =
          (if (pub && !x.key.rawData) = true then .ok
            (⟨x.key.listener, x.key.eventName, x.key.componentId, x.subscriptionId, g.or flag⟩ :: ms, known && ok2)
           else .ok (ms, ok2)) := by
        rw [Subs.deliver, hx]
        simp only [entitled_or h1, Res.ok_bind, i1, Res.pure_eq]
      rw [hd]
      by_cases hpub : (pub && !x.key.rawData) = true
      · rw [sendIf, if_pos hpub] at h2
        rw [if_pos hpub]
        obtain ⟨d, hd1, h2⟩ := res_bind_ok h2
        rw [if_neg (by omega)] at h2
        simp only [Res.pure_eq, Res.ok.injEq, Prod.mk.injEq] at h2
        obtain ⟨rfl, rfl⟩ := h2
        refine ⟨_, rfl, ?_, ?_⟩
        · by_cases hn : net x.subscriptionId = true
          · simp [hn, i2]
          · simp [hn, i2]
        · intro q hq
          rcases List.mem_append.mp hq with hq | hq
          · split at hq
            · have hq := List.mem_singleton.mp hq
              subst hq
              exact ⟨_, List.mem_cons_self, a, List.mem_cons_self, x, hx, rfl, rfl, rfl, rfl, d, hd1, rfl⟩
            · cases hq
          · obtain ⟨m, hm, b, hb, r⟩ := i3 q hq
            exact ⟨m, List.mem_cons_of_mem _ hm, b, List.mem_cons_of_mem _ hb, r⟩
      · rw [sendIf, if_neg hpub] at h2
        rw [if_neg hpub]
        cases h2
        refine ⟨ms, by simp, by simpa using i2, fun q hq => ?_⟩
        obtain ⟨m, hm, b, hb, r⟩ := i3 q hq
        exact ⟨m, hm, b, List.mem_cons_of_mem _ hb, r⟩

theorem publish_rel {sc : Bool} {fc : FloatConv} {s : Subs.State} {comp : Bytes} {known : Bool} {net : Nat → Bool} {k : EventKind}
    {e : Ev} {ps : List Packet} {r : Nat} (hc : comp.length < maxName) (hk : kindOf e = some k)
    (h : publish sc fc s comp known net e = .ok (ps, r)) :
    ∃ ms, Subs.publish sc s e.name k (fun _ => known) = .ok (ms, r) ∧
      ps.map (·.subscription) = (ms.map (·.subscriptionId)).filter net ∧
      ∀ p ∈ ps, ∃ m ∈ ms, ∃ el a, a ∈ s.attached el ∧ ∃ x, byAddr s a = some x ∧ m.subscriptionId = x.subscriptionId ∧
        Carries fc comp e x m.filter p := by
  unfold publish at h
  unfold Subs.publish
  cases hel : Element.retrieveInstance s.tree e.name with
  | none =>
    rw [hel] at h
    cases h
    exact ⟨[], rfl, rfl, by simp⟩
  | some el =>
    rw [hel] at h
    simp only at h ⊢
    by_cases ha : s.attached el.id = []
    · rw [if_pos ha] at h ⊢
      cases h
      exact ⟨[], rfl, rfl, by simp⟩
    · rw [if_neg ha] at h ⊢
      rw [hk] at h
      have go : (do
          let (ps, ok) ← deliver sc fc s comp known net k e (s.attached el.id)
          pure (ps, if ok then Subs.eOk else Subs.eBusError)) = Res.ok (ps, r) →
          ∃ ms, (do
            let (ms, ok) ← Subs.deliver sc s k (fun _ => known) none (s.attached el.id)
            pure (ms, if ok then Subs.eOk else Subs.eBusError)) = Res.ok (ms, r) ∧
          ps.map (·.subscription) = (ms.map (·.subscriptionId)).filter net ∧
          ∀ p ∈ ps, ∃ m ∈ ms, ∃ el a, a ∈ s.attached el ∧ ∃ x, byAddr s a = some x ∧ m.subscriptionId = x.subscriptionId ∧
            Carries fc comp e x m.filter p := by
        intro h
        obtain ⟨⟨ps', ok⟩, h1, h2⟩ := res_bind_ok h
        cases h2
        obtain ⟨ms, i1, i2, i3⟩ := deliver_rel (flag := none) hc h1
        refine ⟨ms, by rw [i1]; rfl, i2, fun p hp => ?_⟩
        obtain ⟨m, hm, a, ha, r⟩ := i3 p hp
        exact ⟨m, hm, el.id, a, ha, r⟩
      match k, h, go with
      | .other, h, go => exact go h
      | .valueChanged none _, h, _ => cases h; exact ⟨[], rfl, rfl, by simp⟩
      | .valueChanged (some _) none, h, _ => cases h; exact ⟨[], rfl, rfl, by simp⟩
      | .valueChanged (some _) (some _), h, go => exact go h

/-! ## What arrives at a subscriber -/

theorem lookup_mem {P : Process} {id : BitVec 32} {c : Consumer.State} (hm : (id, c) ∈ P) (hn : (P.map (·.1)).Nodup) :
    ∃ i, lookup P id = some i ∧ P[i]? = some (id, c) := by
  have hs : (P.findIdx? (fun h => h.1 = id)).isSome := by
    rw [List.findIdx?_isSome]
    exact List.any_eq_true.mpr ⟨_, hm, by simp⟩
  obtain ⟨i, hi⟩ := Option.isSome_iff_exists.mp hs
  refine ⟨i, by rw [lookup, hi], ?_⟩
  rw [List.findIdx?_eq_some_iff_getElem] at hi
  obtain ⟨hl, h1, _⟩ := hi
  have h1 : P[i].1 = id := by simpa using h1
  obtain ⟨j, hj, hj2⟩ := List.getElem_of_mem hm
  have : i = j := by
    have hn' := List.getElem_inj (h₀ := by simpa using hl) (h₁ := by simpa using hj) hn
    exact hn'.mp (by simp [h1, hj2])
  subst this
  rw [List.getElem?_eq_getElem hl, hj2]

theorem receive_carried {sc : Bool} {fc : FloatConv} {comp : Bytes} {e : Ev} {x : Sub} {flag : Option Bool} {p : Packet}
    (hcl : comp.length < maxName) (hcn : Name comp) (hf : Fit fc e) (hx : Subscribable sc fc x)
    (hp : Carries fc comp e x flag p) (hs : p.bytes.length < 2 ^ 31 - 32768) {P : Process} {c : Consumer.State} {r : Consumer.Ended}
    (hm : (BitVec.ofInt 32 x.key.componentId, c) ∈ P) (hn : (P.map (·.1)).Nodup) :
    ∃ i, P[i]? = some (BitVec.ofInt 32 x.key.componentId, c) ∧
      receive sc fc P p r = (do
        let (c, o) ← Consumer.step sc c (.event (keyOf x) (e.type = durationComplete) r)
        let P := P.set i (BitVec.ofInt 32 x.key.componentId, c)
        match o with
        | .invoked h => pure (P, .called (BitVec.ofInt 32 x.key.componentId) h ⟨e.name, e.type, (flagged e flag).data⟩)
        | _ => pure (P, .ignored)) := by
  obtain ⟨_, h2, _, d, h4, h5⟩ := hp
  obtain ⟨i, hi1, hi2⟩ := lookup_mem hm hn
  refine ⟨i, hi2, ?_⟩
  have hdl : d.length < 2 ^ 31 - 32768 := by
    have := closeMeta_length d (setString x.key.eventName ++ (setString comp ++ setInt32 1))
    rw [← h5] at this
    omega
  have hfn := flagged_name e flag
  obtain ⟨d', hd1, hd2⟩ := readEvent_append fc (eventFor (flagged e flag) x) (by rw [show (eventFor (flagged e flag) x).name = e.name from hfn.1]; exact hf.name)
    (flagged_sendable hf flag) hx.filter
  rw [h4] at hd1
  cases hd1
  unfold receive
  rw [h2, if_neg (by omega), h5, openMeta_close d _ hdl]
  simp only [List.append_assoc, getName_set _ _ hx.name, getName_set _ _ hcn, Res.ok_bind, get_setInt32]
  rw [if_neg (by decide)]
  unfold handle
  rw [closeMeta_bytes d _ hdl, hd2, Res.ok_bind]
  simp only [eventFor, hi1, hi2, hfn.1, hfn.2, keyOf]
  generalize Consumer.step sc c _ = y
  cases y with
  | fail => rfl
  | ub => rfl
  | ok y =>
    obtain ⟨c', o⟩ := y
    cases o <;> rfl

theorem step_on {sc : Bool} {h : Spec.Consumer.History} {c : Consumer.State} {k : Consumer.Key} {over r} {H : Nat}
    (i : Spec.Consumer.Inv sc h c) (hk : Spec.Consumer.PlainFilter sc k.filter) (hr : k.raw = false)
    (hv : Spec.Consumer.view sc k h = .on H) : ∃ c', Consumer.step sc c (.event k over r) = .ok (c', .invoked H) := by
  have := i.rep k hk
  rw [hv] at this
  obtain ⟨y, he, hh, hd⟩ := this
  simp only [Consumer.step, hr, Bool.false_eq_true, if_false, Spec.Consumer.find_sound i.good.sound hk, Res.ok_bind, he, hd, false_and,
    Res.pure_eq, hh]
  cases over
  · exact ⟨_, rfl⟩
  · exact ⟨_, rfl⟩

theorem step_off {sc : Bool} {h : Spec.Consumer.History} {c : Consumer.State} {k : Consumer.Key} {over r}
    (i : Spec.Consumer.Inv sc h c) (hk : Spec.Consumer.PlainFilter sc k.filter) (hr : k.raw = false)
    (hv : Spec.Consumer.view sc k h = .off) : Consumer.step sc c (.event k over r) = .ok (c, .ignored) := by
  have := i.rep k hk
  rw [hv] at this
  simp only [Consumer.step, hr, Bool.false_eq_true, if_false, Spec.Consumer.find_sound i.good.sound hk, Res.ok_bind,
    show Spec.Consumer.look sc c.subs k = none from this, Res.pure_eq]

theorem set_same {P : Process} {i : Nat} {y : BitVec 32 × Consumer.State} (h : P[i]? = some y) : P.set i y = P := by
  apply List.ext_getElem?
  intro j
  rw [List.getElem?_set]
  split
  · rename_i hj
    subst hj
    rw [h]
    have : i < P.length := by
      rw [List.getElem?_eq_some_iff] at h
      exact h.1
    rw [if_pos this]
  · rfl

theorem carried_reaches {sc : Bool} {fc : FloatConv} {comp : Bytes} {e : Ev} {k : EventKind} {x : Sub} {flag : Option Bool} {p : Packet}
    (hcl : comp.length < maxName) (hcn : Name comp) (hf : Fit fc e) (hx : Subscribable sc fc x)
    (hp : Carries fc comp e x flag p) (hs : p.bytes.length < 2 ^ 31 - 32768) {P : Process} {h : Spec.Consumer.History} {H : Nat}
    {r : Consumer.Ended} (hP : Holds sc P (BitVec.ofInt 32 x.key.componentId) h) (hv : Spec.Consumer.view sc (keyOf x) h = .on H) :
    ∃ P', receive sc fc P p r = .ok (P', .called (BitVec.ofInt 32 x.key.componentId) H ⟨e.name, e.type, (flagged e flag).data⟩) := by
  obtain ⟨c, hm, hexec⟩ := hP.handle
  obtain ⟨i, _, hr⟩ := receive_carried hcl hcn hf hx hp hs (r := r) hm hP.ids
  obtain ⟨c', hc'⟩ := step_on (over := decide (e.type = durationComplete)) (r := r)
    (Spec.Consumer.exec_inv hexec hP.plain hP.regular) hx.plain rfl hv
  rw [hr, hc']
  exact ⟨_, rfl⟩

theorem carried_spares {sc : Bool} {fc : FloatConv} {comp : Bytes} {e : Ev} {x : Sub} {flag : Option Bool} {p : Packet}
    (hcl : comp.length < maxName) (hcn : Name comp) (hf : Fit fc e) (hx : Subscribable sc fc x)
    (hp : Carries fc comp e x flag p) (hs : p.bytes.length < 2 ^ 31 - 32768) : Spares sc fc x p := by
  intro P h r hP hv
  obtain ⟨c, hm, hexec⟩ := hP.handle
  obtain ⟨i, hi, hr⟩ := receive_carried hcl hcn hf hx hp hs (r := r) hm hP.ids
  rw [hr, step_off (over := decide (e.type = durationComplete)) (r := r)
    (Spec.Consumer.exec_inv hexec hP.plain hP.regular) hx.plain rfl hv]
  simp only [Res.ok_bind, Res.pure_eq, set_same hi]

/-- The first property with a name, in the list. -/
theorem getProp_find {n : Bytes} {v : WVal} : ∀ {ps : PropList},
    (Spec.EventWire.listed ps).find? (fun y => y.1 = n) = some (n, v) → Method.getProp n ps = some v
  | .nil, h => by cases h
  | .cons m w r, h => by
    rw [Method.getProp]
    by_cases hm : m = n
    · subst hm
      simp only [Spec.EventWire.listed, List.find?_cons, decide_true, Option.some.injEq, Prod.mk.injEq, true_and] at h
      rw [if_pos rfl, h]
    · simp only [Spec.EventWire.listed, List.find?_cons, hm, decide_false] at h
      rw [if_neg hm]
      exact getProp_find h

/-- What publishing takes from the event is what it tells. -/
theorem kindOf_tidings {e : Ev} {k : Subs.EventKind} (h : Spec.EventWire.Tidings e k) : kindOf e = some k := by
  match k, h with
  | .other, h =>
    rw [kindOf, if_neg (show ¬ e.type = valueChanged from h)]
  | .valueChanged (some new) (some old), h =>
    obtain ⟨ht, n, t, ps, cs, hd, h1, h2⟩ := h
    rw [kindOf, if_pos (show e.type = valueChanged from ht), hd]
    have e1 : Method.getProp value ps = some (.scalar new) := getProp_find h1
    have e2 : Method.getProp oldValue ps = some (.scalar old) := getProp_find h2
    simp only [e1, e2]

end Verif.EventWire
