import Verif.Proof.EventWire
import Verif.Props.Provider
import Verif.Props.Consumer
import Verif.Props.Wire

/-!
# C91: a published event reaches its subscribers as it was published
-/

namespace Verif.Props

open Verif Verif.Wire Verif.Spec.EventWire
open Verif.EventWire (Ev Packet Process Heard receive publish kindOf maxName)
open Verif.Subs (Sub EventKind eOk eBusError)
open Verif.Element (Node retrieveInstance)
open Verif.Spec.Provider (Life Wants)
open Verif.Spec.Consumer (view)

/-- The bytes that a provider sends when it publishes an event, taken in by the process of a subscriber: for each
subscription that covers the element and is to hear of the event, and whose message the network takes, exactly one message leaves
to the subscriber, which calls the handler of this subscription at the handle that subscribed, with the name, type and data that
were published. Nothing is sent to others, and whoever is no longer subscribed is not called.

Partial: a message that could not be sent goes unnoticed (`C91_unsent_fails`); a handle that is closed while the subscription lives
on gets in the way of others (`C91_closed_fails`); subscribers without a filter can get the field `filter` of others, see
`C91_exact_partial`; histories of the subscriber and filters are those of `C68_delivery_partial`; no private connections; messages
below 2 GiB. -/
theorem C91_delivery_partial {sc : Bool} {fc : FloatConv} {D s} (hl : Life sc D s) {comp : Bytes} {known : Bool} {net : Nat → Bool}
    {e : Ev} {k : EventKind} {sent : List Packet} {r : Nat} {el : Node} (hc : Name comp ∧ comp.length < 256) (he : Fit fc e)
    (hx : ∀ x ∈ s.subs, Subscribable sc fc x) (hel : retrieveInstance s.tree e.name = some el) (hk : Tidings e k)
    (hp : publish sc fc s comp known net e = .ok (sent, r)) (hr : r = eOk ∨ r = eBusError)
    (hs : ∀ p ∈ sent, p.bytes.length < 2 ^ 31 - 32768) :
    (sent.map (·.subscription)).Nodup ∧
    (∀ x ∈ s.subs, el.id ∈ x.instances → x.key.rawData = false → Wants sc k x.key.filter → net x.subscriptionId = true →
      ∃ p ∈ sent, p.subscription = x.subscriptionId ∧ p.listener = x.key.listener ∧ Reaches sc fc k e x p ∧ Spares sc fc x p) ∧
    (∀ p ∈ sent, ∃ x ∈ s.subs, p.subscription = x.subscriptionId ∧ p.listener = x.key.listener ∧
      el.id ∈ x.instances ∧ x.key.rawData = false ∧ Wants sc k x.key.filter) := by
  obtain ⟨ms, hpub, hnum, hcar⟩ := EventWire.publish_rel hc.2 (EventWire.kindOf_tidings hk) hp
  obtain ⟨c1, c2, c3, _, _⟩ := C46_publish_partial hl hel hpub hr
  obtain ⟨hi, hcov⟩ := Subs.life_cover hl
  have hids : ∀ x ∈ s.subs, ∀ y ∈ s.subs, x.subscriptionId = y.subscriptionId → x = y := fun x hx y hy he =>
    Subs.map_inj hi.ids_nodup hx hy he
  have key : ∀ p ∈ sent, ∃ m ∈ ms, ∃ x ∈ s.subs, m.subscriptionId = x.subscriptionId ∧
      EventWire.Carries fc comp e x m.filter p ∧ (x.key.filter ≠ .null → ∀ new old, k = .valueChanged (some new) (some old) →
        ∃ b, Filter.apply sc x.key.filter new = .ok b ∧ m.filter = some b) := by
    intro p hpm
    obtain ⟨m, hm, nd, a, ha, x, hax, hmx, hcr⟩ := hcar p hpm
    obtain ⟨y, hy, hmy, _, _, _, hfl⟩ := c3 m hm
    obtain ⟨z, hz, hza, _⟩ := ((hcov.att nd).2 a).mp ha
    have hxz : x = z := by
      have := Subs.byAddr_mem hi.addrs hz hza
      rw [hax] at this
      exact Option.some.inj this
    subst hxz
    have hyx : y = x := hids y hy x hz (by rw [← hmy, hmx])
    subst hyx
    exact ⟨m, hm, y, hy, hmx, hcr, hfl⟩
  refine ⟨by rw [hnum]; exact c1.sublist List.filter_sublist, ?_, ?_⟩
  · intro x hxm h1 h2 h3 h4
    obtain ⟨m, hm, hmx⟩ := (c2 x hxm).mpr ⟨h1, h2, h3⟩
    have : x.subscriptionId ∈ sent.map (·.subscription) := by
      rw [hnum, List.mem_filter]
      exact ⟨by rw [← hmx]; exact List.mem_map_of_mem hm, h4⟩
    obtain ⟨p, hpm, hpx⟩ := List.mem_map.mp this
    obtain ⟨m', _, y, hy, _, hcr, hfl⟩ := key p hpm
    have hyx : y = x := hids y hy x hxm (by rw [← hcr.2.2.1, hpx])
    subst hyx
    refine ⟨p, hpm, hpx, hcr.1, ?_, EventWire.carried_spares hc.2 hc.1 he (hx y hy) hcr (hs p hpm)⟩
    intro P h H r hP hv
    obtain ⟨P', hP'⟩ := EventWire.carried_reaches (k := k) hc.2 hc.1 he (hx y hy) hcr (hs p hpm) hP hv
    exact ⟨P', _, hP', EventWire.flagged_data e _ hfl⟩
  · intro p hpm
    obtain ⟨m, hm, x, hxm, hmx, hcr, _⟩ := key p hpm
    obtain ⟨h1, h2, h3⟩ := (c2 x hxm).mp ⟨m, hm, hmx⟩
    exact ⟨x, hxm, hcr.2.2.1, hcr.1, h1, h2, h3⟩

/-- If no subscription of the element has a filter, the handler gets the event as it was published.

Partial: as in `C91_delivery_partial`. -/
theorem C91_exact_partial {sc : Bool} {fc : FloatConv} {D s} (hl : Life sc D s) {comp : Bytes} {known : Bool} {net : Nat → Bool}
    {e : Ev} {k : EventKind} {sent : List Packet} {r : Nat} {el : Node} (hc : Name comp ∧ comp.length < 256) (he : Fit fc e)
    (hx : ∀ x ∈ s.subs, Subscribable sc fc x) (hel : retrieveInstance s.tree e.name = some el) (hk : Tidings e k)
    (hp : publish sc fc s comp known net e = .ok (sent, r)) (hr : r = eOk ∨ r = eBusError)
    (hs : ∀ p ∈ sent, p.bytes.length < 2 ^ 31 - 32768)
    (hnull : ∀ x ∈ s.subs, el.id ∈ x.instances → x.key.filter = .null) {x : Sub} (hxm : x ∈ s.subs) {p : Packet} (hpm : p ∈ sent)
    (hpx : p.subscription = x.subscriptionId) {P : Process} {h : Spec.Consumer.History} {H : Nat}
    (hP : Holds sc P (BitVec.ofInt 32 x.key.componentId) h) (hv : view sc (keyOf x) h = .on H) (w : Consumer.Ended) :
    ∃ P', receive sc fc P p w = .ok (P', .called (BitVec.ofInt 32 x.key.componentId) H e) := by
  obtain ⟨ms, hpub, hnum, hcar⟩ := EventWire.publish_rel hc.2 (EventWire.kindOf_tidings hk) hp
  obtain ⟨_, _, _, c4, _⟩ := C46_publish_partial hl hel hpub hr
  obtain ⟨hi, hcov⟩ := Subs.life_cover hl
  obtain ⟨m, hm, nd, a, ha, y, hay, hmy, hcr⟩ := hcar p hpm
  obtain ⟨z, hz, hza, _⟩ := ((hcov.att nd).2 a).mp ha
  have hyz : y = z := by
    have := Subs.byAddr_mem hi.addrs hz hza
    rw [hay] at this
    exact Option.some.inj this
  subst hyz
  have hyx : y = x := Subs.map_inj hi.ids_nodup hz hxm (by rw [← hcr.2.2.1, hpx])
  subst hyx
  obtain ⟨P', hP'⟩ := EventWire.carried_reaches (k := k) (r := w) hc.2 hc.1 he (hx y hz) hcr (hs p hpm) hP hv
  rw [c4 hnull m hm] at hP'
  exact ⟨P', hP'⟩

/-- C91 fails: whatever is published, the answer is the same if not a single message could be sent, so success does not tell that
anybody was sent anything. -/
theorem C91_unsent_fails {sc : Bool} {fc : FloatConv} {s : Subs.State} {comp : Bytes} {known : Bool} {net : Nat → Bool}
    {e : Ev} {sent : List Packet} {r : Nat} (hp : publish sc fc s comp known net e = .ok (sent, r)) :
    publish sc fc s comp known (fun _ => false) e = .ok ([], r) := by
  have go : ∀ (k : EventKind) (as : List Nat) (e : Ev) (ps : List Packet) (ok : Bool),
      EventWire.deliver sc fc s comp known net k e as = .ok (ps, ok) →
      EventWire.deliver sc fc s comp known (fun _ => false) k e as = .ok ([], ok) := by
    intro k as
    induction as with
    | nil => intro e ps ok h; cases h; rfl
    | cons a as ih =>
      intro e ps ok h
      unfold EventWire.deliver at h ⊢
      cases hx : Subs.byAddr s a with
      | none => rw [hx] at h; cases h
      | some x =>
        rw [hx] at h
        simp only at h ⊢
        obtain ⟨⟨pub, g⟩, h1, h⟩ := res_bind_ok h
        obtain ⟨⟨p, ok1⟩, h2, h⟩ := res_bind_ok h
        obtain ⟨⟨ps', ok2⟩, h3, h⟩ := res_bind_ok h
        simp only [Res.pure_eq, Res.ok.injEq, Prod.mk.injEq] at h
        obtain ⟨rfl, rfl⟩ := h
        have h2' : EventWire.sendIf (pub && !x.key.rawData) fc comp known (fun _ => false) x (EventWire.mark e g) = .ok ([], ok1) := by
          unfold EventWire.sendIf at h2 ⊢
          split at h2
          · rename_i hb
            rw [if_pos hb]
            unfold EventWire.send at h2 ⊢
            obtain ⟨d, hd, h2⟩ := res_bind_ok h2
            rw [hd, Res.ok_bind]
            split at h2
            · rename_i hc
              rw [if_pos hc]
              cases h2
              rfl
            · rename_i hc
              rw [if_neg hc]
              cases h2
              rfl
          · rename_i hb
            rw [if_neg hb]
            cases h2
            rfl
        simp only [h1, Res.ok_bind, h2', ih _ _ _ h3, Res.pure_eq, List.append_nil]
  unfold publish at hp ⊢
  split
  · rename_i hel
    rw [hel] at hp
    cases hp
    rfl
  · rename_i el hel
    rw [hel] at hp
    simp only at hp
    by_cases ha : s.attached el.id = []
    · rw [if_pos ha] at hp ⊢
      cases hp
      rfl
    · rw [if_neg ha] at hp ⊢
      cases hk : kindOf e with
      | none => rw [hk] at hp; cases hp
      | some k =>
        rw [hk] at hp
        match k, hp with
        | .other, hp =>
          obtain ⟨⟨ps, ok⟩, h1, h2⟩ := res_bind_ok hp
          cases h2
          simp only [go _ _ _ _ _ h1, Res.ok_bind, Res.pure_eq]
        | .valueChanged none _, hp => cases hp; rfl
        | .valueChanged (some _) none, hp => cases hp; rfl
        | .valueChanged (some _) (some _), hp =>
          obtain ⟨⟨ps, ok⟩, h1, h2⟩ := res_bind_ok hp
          cases h2
          simp only [go _ _ _ _ _ h1, Res.ok_bind, Res.pure_eq]

/-! ## A small world -/

private def evName : Bytes := [65, 46, 116, 46, 42, 46, 112]
private def evKey : Consumer.Key := ⟨evName, .null, 0, 0, false⟩
private def evFilterKey : Consumer.Key := ⟨row2, .relation Filter.opGT (.int32 3), 0, 0, false⟩

/-- A handle that has subscribed with a key, with handler `h`. -/
private def evSubscribed (k : Consumer.Key) (h : Nat) : Consumer.State :=
  ⟨[⟨0, k, h, false, true, some 7⟩], [], [], 1⟩

private def evData (new old : BitVec 32) : Obj :=
  .mk [] false (.cons (Method.str "value") (.scalar (.int32 new)) (.cons (Method.str "oldValue") (.scalar (.int32 old)) .nil)) .nil

/-- What can be compared of a call of a handler: handle, handler, name and type of the event, and what it tells of a filter. -/
private structure EvCall where
  id : BitVec 32
  handler : Nat
  name : Bytes
  type : BitVec 32
  flag : Option Bool
  deriving DecidableEq

/-- The call that a message leads to. -/
private def evHeard : Res (Process × Heard) → Option (Option EvCall)
  | .ok (_, .called id h e) => some (some ⟨id, h, e.name, e.type,
      match e.data with
      | some (.mk _ _ ps _) =>
        match (listed ps).find? (fun y => y.1 = flagName) with
        | some (_, .scalar (.boolean b)) => some b
        | _ => none
      | none => none⟩)
  | .ok (_, _) => some none
  | _ => none

/-- An event of a provider, taken in by a process. -/
private def evRun (s : Option Subs.State) (e : Ev) (P : Process) :
    Option (List (Bytes × Option (Option EvCall)) × Nat) :=
  match s with
  | none => none
  | some s =>
    match publish false someConv s [80] true (fun _ => true) e with
    | .ok (ps, r) => some (ps.map (fun p => (p.listener, evHeard (receive false someConv P p .success))), r)
    | _ => none

/-- The subscription of all rows and that with a filter get a change of value, the second being told that it matches. -/
example : evRun (smallLife smallHistory) ⟨row2, 2, some (evData 5 1)⟩
      [(4, Consumer.State.init), (1, evSubscribed evKey 11)] =
    some ([([76], some (some ⟨1, 11, row2, 2, none⟩)), ([77], some none)], eOk) ∧
    evRun (smallLife smallHistory) ⟨row2, 2, some (evData 5 1)⟩ [(1, evSubscribed evFilterKey 12)] =
    some ([([76], some none), ([77], some (some ⟨1, 12, row2, 2, some true⟩))], eOk) ∧
    Tidings ⟨row2, 2, some (evData 5 1)⟩ (.valueChanged (some (.int32 5)) (some (.int32 1))) ∧
    Fit someConv ⟨row2, 2, some (evData 5 1)⟩ := by
  refine ⟨by decide +kernel, by decide +kernel, ⟨rfl, _, _, _, _, rfl, rfl, rfl⟩, ⟨by decide +kernel, by decide +kernel⟩, fun n t ps cs h => ?_⟩
  cases h
  exact ⟨⟨⟨by decide, by decide⟩, by decide +kernel, ⟨⟨by decide +kernel, by decide +kernel⟩, trivial,
    ⟨by decide +kernel, by decide +kernel⟩, trivial, trivial⟩, by decide, trivial⟩, by decide +kernel⟩

/-- The handle of the example has such a history. -/
example : Holds false [(4, Consumer.State.init), (1, evSubscribed evKey 11)] 1
      [(.subscribe 0 evKey 11, .going), (.replied 0 evKey 11 .accepted, .going), (.numbered 0 7, .success)] ∧
    view false evKey [(.subscribe 0 evKey 11, .going), (.replied 0 evKey 11 .accepted, .going), (.numbered 0 7, .success)] =
      .on 11 := by
  have hv : view false evKey
      [(.subscribe 0 evKey 11, .going), (.replied 0 evKey 11 .accepted, .going), (.numbered 0 7, .success)] = .on 11 := by
    have hs : Spec.Consumer.SameKey false evKey evKey := ⟨rfl, .null, rfl, rfl, rfl⟩
    simp [view, Spec.Consumer.next, hs, Spec.Consumer.Status.restart]
  refine ⟨⟨by decide, ⟨_, List.mem_cons_of_mem _ List.mem_cons_self, ?_⟩, ?_, ?_⟩, hv⟩
  · exact .snoc (h := [_, _]) (e := Consumer.Op.numbered 0 7) (.snoc (h := [_]) (e := Consumer.Op.replied 0 evKey 11 .accepted)
      (.snoc (h := []) (e := Consumer.Op.subscribe 0 evKey 11) .nil rfl) rfl) rfl
  · intro y hy k hk
    simp only [List.mem_cons, List.not_mem_nil, or_false] at hy
    rcases hy with rfl | rfl | rfl <;> simp only [Spec.Consumer.keyOf, Option.some.injEq, reduceCtorEq] at hk <;> subst hk <;> exact trivial
  · intro a ev o b hab k hk
    have : ev ∈ [Consumer.Op.subscribe 0 evKey 11, .replied 0 evKey 11 .accepted, .numbered 0 7] := by
      have h : (ev, o) ∈ [(Consumer.Op.subscribe 0 evKey 11, Consumer.Out.going), (.replied 0 evKey 11 .accepted, .going),
          (.numbered 0 7, .success)] := by rw [hab]; simp
      have := List.mem_map_of_mem (f := Prod.fst) h
      simpa using this
    simp only [List.mem_cons, List.not_mem_nil, or_false] at this
    rcases this with rfl | rfl | rfl <;> simp [Spec.Consumer.Usual]

/-- C91 fails: an event on its way to a handle that has been closed goes to the last handle of the process, and to its handler if it
has such a subscription, which so hears of the event twice. -/
theorem C91_closed_fails :
    evRun (smallLife smallHistory) ⟨row2, 2, some (evData 2 1)⟩ [(3, Consumer.State.init), (5, evSubscribed evKey 11)] =
      some ([([76], some (some ⟨5, 11, row2, 2, none⟩))], eOk) := by decide +kernel

/-- C91 fails: a message whose metadata holds a number but no names is taken to be an event, and a handle with any subscription
compares its name with NULL. -/
theorem C91_damaged_fails : ∃ p, receive false someConv [(1, evSubscribed evKey 11)] p .success = .ub := by
  refine ⟨⟨0, [76], [80], EventWire.closeMeta (Message.setString [65] ++ (Message.setInt32 3 ++ (Message.setInt32 0 ++
    (Message.setInt32 0 ++ (Message.setInt32 0 ++ (Message.setInt32 0 ++ Message.setInt32 1))))))
    (Message.setInt32 5 ++ (Message.setInt32 5 ++ Message.setInt32 1))⟩, ?_⟩
  have key : ∀ x : Res (Process × Heard), (match x with | .ub => true | _ => false) = true → x = .ub := by
    intro x h
    cases x with
    | ok _ => cases h
    | fail => cases h
    | ub => rfl
  exact key _ (by decide +kernel)

end Verif.Props
