import Verif.Proof.SubscribeMany

/-!
# Subscribing to several events at once without waiting (C111)
-/

namespace Verif.Props

open Verif Verif.Spec.Consumer Verif.SubscribeMany
open Verif.Consumer (Key Op Out Reply Ended Item subscribeEx)

private def mKey (n : String) (interval : BitVec 32) : Key := ⟨n.toUTF8.data.toList, .null, interval, 0, false⟩

private def mWish (n : String) (interval : BitVec 32) (handler : Nat) : Wish := ⟨mKey n interval, handler, .success⟩

/-- C111. `rbusEvent_SubscribeExAsync` is all or nothing: either all subscriptions have been asked for, in their order, and nothing
else is different; or the handle is as it was before. It succeeds just if none of the subscriptions exists, none is to an event and
filter that have been asked for already, and no two are to the same event and filter.

Missing: subscriptions ended while the provider could not be told (`C111_ended_fails`); requests settled during the call; filters
with NaN, NULL text or bytes. -/
theorem C111_all_or_nothing_partial {sc : Bool} {h : History} {s : Consumer.State} {qs : List Wish}
    (hx : Exec (Consumer.step sc) Consumer.State.init h s) (hp : Plain sc h) (hr : Regular sc h)
    (hq : ∀ q ∈ qs, q.Plain sc) (hv : ∀ q ∈ qs, ∀ x, view sc q.key h ≠ .ended x) :
    ∃ b : Bool, subscribeMany sc s qs = .ok (if b then asked s qs else s, b) ∧
      (b = true ↔ (∀ q ∈ qs, view sc q.key h = .off) ∧ (∀ q ∈ qs, ∀ p ∈ s.pending, ¬ Rival sc p.1 q.key) ∧
        qs.Pairwise fun a b => ¬ Rival sc a.key b.key) := by
  have i := exec_inv hx hp hr
  have hl : ∀ q ∈ qs, (look sc s.subs q.key = none ↔ view sc q.key h = .off) ∧
      ∀ e, look sc s.subs q.key = some e → e.dirty = false := by
    intro q hqq
    have hrep := i.rep q.key (hq q hqq).1
    cases hvq : view sc q.key h with
    | off =>
      rw [hvq] at hrep
      have hn : look sc s.subs q.key = none := hrep
      simp [hn]
    | on y =>
      rw [hvq] at hrep
      obtain ⟨e, he, _, hd⟩ := hrep
      simp [he, hd]
    | ended y => exact absurd hvq (hv q hqq y)
    | again y =>
      rw [hvq] at hrep
      obtain ⟨e, he, _, hd⟩ := hrep
      simp [he, hd]
  obtain ⟨b, hb, hi⟩ := ask_all (sc := sc) (s := s) qs [] ⟨i.good.sound, exec_waiting hx hp, hq, fun q hqq => (hl q hqq).2⟩
    ⟨fun _ h => (by cases h), fun _ h => (by cases h), .nil⟩
  rw [asked_nil, List.nil_append] at hb
  rw [List.nil_append] at hi
  refine ⟨b, hb, hi.trans ⟨fun f => ⟨fun q hqq => (hl q hqq).1.1 (f.new q hqq), f.unasked, f.apart⟩, ?_⟩⟩
  rintro ⟨h1, h2, h3⟩
  exact ⟨fun q hqq => (hl q hqq).1.2 (h1 q hqq), h2, h3⟩

/-- Two events are asked for; and with one of them subscribed to, none of three. -/
example : subscribeMany false Consumer.State.init [mWish "a" 0 1, mWish "b" 0 2] =
    .ok (asked Consumer.State.init [mWish "a" 0 1, mWish "b" 0 2], true) := rfl

example : ∃ b : Bool, subscribeMany false Consumer.State.init [mWish "a" 0 1, mWish "b" 0 2] =
    .ok (if b then asked Consumer.State.init [mWish "a" 0 1, mWish "b" 0 2] else Consumer.State.init, b) ∧
    (b = true ↔ (∀ q ∈ [mWish "a" 0 1, mWish "b" 0 2], view false q.key [] = .off) ∧
      (∀ q ∈ [mWish "a" 0 1, mWish "b" 0 2], ∀ p ∈ Consumer.State.init.pending, ¬ Rival false p.1 q.key) ∧
      [mWish "a" 0 1, mWish "b" 0 2].Pairwise fun a b => ¬ Rival false a.key b.key) :=
  C111_all_or_nothing_partial .nil (fun _ h => by cases h) (fun a e o b h => by simp at h)
    (fun q hq => by
      simp only [List.mem_cons, List.not_mem_nil, or_false] at hq
      rcases hq with rfl | rfl <;> exact ⟨trivial, rfl⟩)
    (fun q _ x => by simp [view])

example : ∃ s os, Consumer.run false Consumer.State.init
      [.subscribe 0 (mKey "b" 0) 9, .replied 0 (mKey "b" 0) 9 .accepted, .numbered 0 7] = .ok (s, os) ∧
    subscribeMany false s [mWish "a" 0 1, mWish "b" 0 2, mWish "c" 0 3] = .ok (s, false) := ⟨_, _, rfl, rfl⟩

/-- C111, until the answer. Whether the call succeeds or not, events go where they went before it; the new handlers are used only when
the provider has answered. This holds in every state. -/
theorem C111_unheard {sc : Bool} (s : Consumer.State) (qs : List Wish) (k : Key) : heard sc (asked s qs) k = heard sc s k := by
  unfold heard asked
  simp only [Consumer.step]
  split
  · rfl
  · cases Consumer.find sc s.subs k with
    | fail => rfl
    | ub => rfl
    | ok x =>
      simp only [Res.ok_bind]
      cases x with
      | none => rfl
      | some e =>
        simp only
        split
        · rfl
        · split <;> rfl

example : heard false (asked Consumer.State.init [mWish "a" 0 1]) (mKey "a" 0) = .ok .ignored := by
  rw [C111_unheard]; rfl

/-- C111 fails: a subscription that was ended while its provider was away is asked for together with one that exists. The call
fails, but the request stays: when the provider answers it, events go to the handler that was refused. -/
theorem C111_ended_fails : ∃ s os s' s'', Consumer.run false Consumer.State.init
      [.subscribe 0 (mKey "a" 0) 1, .replied 0 (mKey "a" 0) 1 .accepted, .numbered 0 7, .unsubscribe true (mKey "a" 0) .noProvider,
        .subscribe 0 (mKey "b" 0) 2, .replied 0 (mKey "b" 0) 2 .accepted, .numbered 0 8] = .ok (s, os) ∧
    subscribeMany false s [mWish "a" 0 3, mWish "b" 0 4] = .ok (s', false) ∧
    Consumer.step false s' (.repliedAsync 0 (mKey "a" 0) 3 (some 9)) = .ok (s'', .success) ∧
    heard false s (mKey "a" 0) = .ok .ignored ∧ heard false s'' (mKey "a" 0) = .ok (.invoked 3) :=
  ⟨_, _, _, _, rfl, rfl, rfl, rfl, rfl⟩

/-- C111 fails: subscriptions to the same event that differ in their interval are different ones, and can be had together by
`rbusEvent_SubscribeEx`; here they are refused, for every event and any two intervals. -/
theorem C111_interval_fails (n : Bytes) (i j : BitVec 32) (hij : i ≠ j) :
    subscribeMany false Consumer.State.init [⟨⟨n, .null, i, 0, false⟩, 1, .success⟩, ⟨⟨n, .null, j, 0, false⟩, 2, .success⟩] =
      .ok (Consumer.State.init, false) ∧
    ∃ s, subscribeEx false 0 Consumer.State.init [⟨⟨n, .null, i, 0, false⟩, some 1, .accepted, 7, .success⟩,
      ⟨⟨n, .null, j, 0, false⟩, some 2, .accepted, 8, .success⟩] = .ok (s, true) := by
  constructor
  · simp [subscribeMany, askAll, cancelAll, Consumer.step, Consumer.check, Consumer.State.init, Consumer.find, Consumer.takePending,
      Consumer.alike, Filter.cmp]
  · refine ⟨⟨[⟨0, ⟨n, .null, i, 0, false⟩, 1, false, true, some 7⟩, ⟨1, ⟨n, .null, j, 0, false⟩, 2, false, true, some 8⟩], [], [], 2⟩,
      ?_⟩
    simp [subscribeEx, Consumer.subscribeAll, Consumer.subscribeCall, Consumer.step, Consumer.check, Consumer.State.init,
      Consumer.find, Consumer.takePending, Consumer.hit, Filter.cmp, Consumer.put, hij]

example : subscribeMany false Consumer.State.init [mWish "a" 0 1, mWish "a" 5 2] = .ok (Consumer.State.init, false) :=
  (C111_interval_fails "a".toUTF8.data.toList 0 5 (by decide)).1

end Verif.Props
