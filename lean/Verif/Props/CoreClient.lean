import Verif.Proof.CoreClient

/-!
# C104: subscriptions made with the core library

A program that subscribed with rbus_subscribeToEvent, was told of success and did not unsubscribe gets every event
published, by the callback it gave.
-/

namespace Verif.Props

open Verif Verif.CoreClient Verif.Spec.CoreClient Verif.Proof.CoreClient

private def box : Bytes := "box".toUTF8.data.toList
private def full : Bytes := "full".toUTF8.data.toList
private def bell : Bytes := "bell".toUTF8.data.toList

/-- Elements named `bell` are of the object `box`, everything else is an object. -/
private def boxOwner (o : Bytes) : Bytes := if o = bell then box else o

private def calls : List (Event × Out) :=
  [(.begin (some box) (some full) (some 1), .requested), (.finish box full .accepted, .code .success),
   (.begin none (some bell) (some 2), .requested), (.publish box full, .called 1),
   (.finish bell bell .accepted, .code .success), (.publish box bell, .called 2),
   (.unsubscribe (some box) (some full) .accepted, .code .success), (.publish box full, .silent)]

/-- The callback of a subscription that was answered with success and not given up since is called for every event of
this name the object publishes. For programs whose calls about one event do not overlap, with providers that do not
forget who listens, and names used in one way; each of these is needed, as shown below. -/
theorem C104_flow_partial (owner : Bytes → Bytes) (h : List (Event × Out)) (s : State)
    (hx : Exec (step owner) init h s) (ha : Apart h) (hk : Kept h) (ht : Tidy owner h) (o e : Bytes) (k : Nat)
    (hh : (has o e h).1 = some k) : step owner s (.publish (owner o) e) = .ok (s, .called k) := by
  have hi := inv_exec hx ha
  have h2none : (has o e h).2 = none := by
    rcases hz : (has o e h).2 with _ | q
    · rfl
    · rw [(hi.coming o e q hz).2] at hh
      simp at hh
  have hloc : loc s.subs o e = some k := (hi.there o e h2none).trans hh
  have hl := listed_exec hx ha hk ht o e (by simp [hh])
  obtain ⟨x, hxm, hn⟩ := hi.seen o e (by simp [hloc])
  have hT := ht x hxm o e hn
  have hd : deliver s.subs (owner o) e = some k := by
    refine deliver_eq hi.wf hloc hT.1 ?_
    intro o' ho' hc
    obtain ⟨y, hy, hny⟩ := hi.seen o' e ho'
    exact hT.2 y hy o' hny hc
  have hc : s.listed.contains (owner o, e) = true := by simpa using hl
  simp only [step, hc, if_true, hd]

example : ∃ s, run boxOwner init (calls.map (·.1)) = .ok (s, calls.map (·.2)) := ⟨_, rfl⟩
example : Apart calls := apart_check (by decide +kernel)
example : Tidy boxOwner calls := tidy_check (by decide +kernel)
example : (has bell bell calls).1 = some 2 := by decide +kernel
example : Kept calls := by
  intro x hx o e
  simp only [calls, List.mem_cons, List.not_mem_nil, or_false] at hx
  rcases hx with rfl | rfl | rfl | rfl | rfl | rfl | rfl | rfl <;> simp

/-- A callback is called for an event only if it was given for this event of the object that published it, or of an
element of this name, and the subscription was not given up or refused since: whatever the providers do. -/
theorem C104_only (owner : Bytes → Bytes) (h : List (Event × Out)) (s : State)
    (hx : Exec (step owner) init h s) (ha : Apart h) (x e : Bytes) (k : Nat)
    (hc : step owner s (.publish x e) = .ok (s, .called k)) :
    ∃ o, (o = x ∨ o = e) ∧ ((has o e h).1 = some k ∨ (has o e h).2 = some k) := by
  have hi := inv_exec hx ha
  have hd : deliver s.subs x e = some k := by
    simp only [step, Res.ok.injEq, Prod.mk.injEq, true_and] at hc
    split at hc
    · split at hc
      · rename_i q hq
        rw [hq]
        exact congrArg some (Out.called.inj hc)
      · cases hc
    · cases hc
  obtain ⟨o, ho, hl⟩ := deliver_some hi.wf hd
  refine ⟨o, ho, ?_⟩
  rcases hz : (has o e h).2 with _ | q
  · exact .inl ((hi.there o e hz).symm.trans hl)
  · have := (hi.coming o e q hz).1
    rw [hl] at this
    exact .inr this.symm

/-- Once unsubscribing was answered with success the object sends nothing any more, whatever was before, as long as the
program does not subscribe again. -/
theorem C104_ended (owner : Bytes → Bytes) (s s' : State) (o e : Option Bytes) (r : Reply) (o' : Bytes)
    (hn : names (.unsubscribe o e r) = some (o', e.getD []))
    (hs : step owner s (.unsubscribe o e r) = .ok (s', .code .success)) :
    step owner s' (.publish (owner o') (e.getD [])) = .ok (s', .silent) := by
  have ho : o.or e = some o' := by
    rcases h : o.or e with _ | q
    · simp [names, h] at hn
    · simp only [names, h, Option.map_some, Option.some.injEq, Prod.mk.injEq, and_true] at hn
      rw [hn]
  simp only [step, unsubscribe, ho] at hs
  split at hs
  · cases hs
  · cases r <;> cases hs
    have hc : ¬ ((note s.listed (owner o') (e.getD []) false).contains (owner o', e.getD [])) = true := by
      rw [List.contains_iff_mem, mem_note]
      simp
    simp only [step, Reply.done, if_true, hc]
    rfl

example : ∃ s s' : State, step boxOwner s (.unsubscribe none (some bell) .accepted) = .ok (s', .code .success) ∧
    s.listed = [(box, bell)] ∧ s'.listed = [] :=
  ⟨⟨[⟨bell, [(bell, 2)]⟩], [], [(box, bell)]⟩, _, rfl, rfl, by decide +kernel⟩

/-- The header promises that the event may be NULL for objects with one event; its length is taken before NULL is
replaced by the empty name. -/
theorem C104_default_fails (owner : Bytes → Bytes) (s : State) (o : Bytes) (k : Nat) (ho : o.length < 256) :
    step owner s (.begin (some o) none (some k)) = .ub := by
  have : ¬ Core.maxName ≤ o.length := by unfold Core.maxName; omega
  simp only [step, begin, Option.or, this, if_false]

example : step id init (.begin (some box) none (some 1)) = .ub := rfl

/-- After the provider started again nothing arrives, and subscribing once more is answered with success without the
provider being asked: the program has to unsubscribe first. -/
theorem C104_forgotten_fails : ∃ (o e : Bytes) (s : State),
    run id init [.begin (some o) (some e) (some 1), .finish o e .accepted, .publish o e, .forget o e,
      .begin (some o) (some e) (some 1), .publish o e] =
    .ok (s, [.requested, .code .success, .called 1, .nothing, .code .success, .silent]) :=
  ⟨box, full, _, rfl⟩

/-- A second thread that subscribes while the request of the first is on its way is told of success; when the first is
refused, both are without a subscription. -/
theorem C104_overlap_fails : ∃ (o e : Bytes) (s : State),
    run id init [.begin (some o) (some e) (some 1), .begin (some o) (some e) (some 2), .finish o e .late,
      .publish o e] =
    .ok (s, [.requested, .code .success, .code .noResponse, .dropped]) ∧ s.subs = [] :=
  ⟨box, full, _, rfl, rfl⟩

/-- An event subscribed to by the name of its object and by its own name: giving up one of them ends both, for the
provider knows only one. -/
theorem C104_alias_fails : ∃ (owner : Bytes → Bytes) (x e : Bytes) (s : State),
    run owner init [.begin (some x) (some e) (some 1), .finish x e .accepted, .begin none (some e) (some 2),
      .finish e e .accepted, .publish x e, .unsubscribe none (some e) .accepted, .publish x e] =
    .ok (s, [.requested, .code .success, .requested, .code .success, .called 1, .code .success, .silent]) ∧
    s.subs = [⟨x, [(e, 1)]⟩] :=
  ⟨boxOwner, box, bell, _, rfl, by decide +kernel⟩

end Verif.Props
