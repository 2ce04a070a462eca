import Verif.Proof.Consumer

/-!
# C68, C69: events go to the handler of the subscription they are for; subscribing to several is all or nothing
-/

namespace Verif.Props

open Verif Verif.Value Verif.Spec.Consumer
open Verif.Consumer (Key Entry Call Op Out Reply Ended Item subscribeEx)
open Verif.Filter (Filter)

/-! ## C68 -/

/-- Where an event goes for a subscription that stands like this. -/
def eventGoes : Status → Out
  | .on x => .invoked x
  | _ => .ignored

theorem rep_goes {st : Status} {o : Option Entry} (h : Rep st o) (ha : ∀ x, st ≠ .again x) :
    goes (o.map fun e => (e.handler, e.dirty)) = eventGoes st := by
  cases st with
  | off => rw [show o = none from h]; rfl
  | on x => obtain ⟨e, rfl, rfl, hd⟩ := h; simp [goes, hd, eventGoes]
  | ended x => obtain ⟨e, rfl, rfl, hd⟩ := h; simp [goes, hd, eventGoes]
  | again x => exact absurd rfl (ha x)

theorem event_out {sc : Bool} {s s' : Consumer.State} {st : Status} {k : Key} {over r o}
    (g : Good sc s.subs s.next) (hk : PlainFilter sc k.filter) (hr : Rep st (look sc s.subs k))
    (hu : Usual (.event k over r) st) (h : Consumer.step sc s (.event k over r) = .ok (s', o)) : o = eventGoes st := by
  simp only [Consumer.step] at h
  split at h
  · cases h
  rw [find_sound g.sound hk, Res.ok_bind] at h
  cases st with
  | off =>
    rw [show look sc s.subs k = none from hr] at h
    cases h
    rfl
  | on x =>
    obtain ⟨e, he, rfl, hd⟩ := hr
    rw [he] at h
    simp only [hd, Bool.false_eq_true, false_and, if_false] at h
    split at h <;> (cases h; rfl)
  | ended x =>
    obtain ⟨e, he, rfl, hd⟩ := hr
    rw [he] at h
    cases r with
    | noProvider => exact absurd hu (by simp [Usual])
    | success => simp only [hd] at h; cases h; rfl
    | failed => simp only [hd] at h; cases h; rfl
  | again x => exact absurd hu (by cases r <;> simp [Usual])

/-- C68: an event goes to the handler that the last accepted subscription with its name, filter, interval and duration was
made with, and to none if there is no such subscription or it has been ended.

Missing: histories that are not `Regular`, see the theorems below; filters with NaN, NULL text or bytes. -/
theorem C68_delivery_partial {sc : Bool} {h : History} {s : Consumer.State}
    (hx : Exec (Consumer.step sc) Consumer.State.init h s) (hp : Plain sc h) (hr : Regular sc h) {a b : History} {k : Key}
    {over r o} (hab : h = a ++ (.event k over r, o) :: b) : o = eventGoes (view sc k a) := by
  obtain ⟨s1, s2, h1, h2⟩ := Exec.at hx a _ o b hab
  have hpa : Plain sc a := fun x hx => hp x (by rw [hab]; simp [hx])
  have hra : Regular sc a := fun a' e' o' b' h' => hr a' e' o' (b' ++ (.event k over r, o) :: b) (by simp [hab, h'])
  have i := exec_inv h1 hpa hra
  have hk : PlainFilter sc k.filter := hp (.event k over r, o) (by rw [hab]; simp) k rfl
  exact event_out i.good hk (i.rep k hk) (hr a _ _ _ hab k rfl) h2

/-- C68: whoever subscribes to what is subscribed is told so, and `rbusEvent_IsSubscriptionExist` tells what is; a
subscription whose provider could not be told of its end counts as well.

Missing: as in `C68_delivery_partial`. -/
theorem C68_exists_partial {sc : Bool} {h : History} {s : Consumer.State}
    (hx : Exec (Consumer.step sc) Consumer.State.init h s) (hp : Plain sc h) (hr : Regular sc h) {a b : History} {k : Key}
    {o} :
    (∀ c hd, h = a ++ (.subscribe c k hd, o) :: b → ∀ x, view sc k a = .on x → o = .already) ∧
    (∀ hd, h = a ++ (.subscribeAsync k hd, o) :: b → ∀ x, view sc k a = .on x → o = .already) ∧
    (h = a ++ (.exists k, o) :: b → o = .answer (decide (view sc k a ≠ .off))) := by
  have pre : ∀ {e}, keyOf e = some k → h = a ++ (e, o) :: b → ∃ s1 s2, Inv sc a s1 ∧
      Consumer.step sc s1 e = .ok (s2, o) ∧ PlainFilter sc k.filter := by
    intro e hke hab
    obtain ⟨s1, s2, h1, h2⟩ := Exec.at hx a _ o b hab
    have hpa : Plain sc a := fun x hx => hp x (by rw [hab]; simp [hx])
    have hra : Regular sc a := fun a' e' o' b' h' => hr a' e' o' (b' ++ (e, o) :: b) (by simp [hab, h'])
    exact ⟨s1, s2, exec_inv h1 hpa hra, h2, hp (e, o) (by rw [hab]; simp) k hke⟩
  have chk : ∀ {s1 x}, Inv sc a s1 → PlainFilter sc k.filter → view sc k a = .on x →
      Consumer.check sc s1 k = .ok none := by
    intro s1 x i hk hv
    have := i.rep k hk
    rw [hv] at this
    obtain ⟨e, he, _, hd⟩ := this
    unfold Consumer.check
    rw [find_sound i.good.sound hk, Res.ok_bind, he]
    simp [hd]
  refine ⟨fun c hd hab x hv => ?_, fun hd hab x hv => ?_, fun hab => ?_⟩
  · obtain ⟨s1, s2, i, h2, hk⟩ := pre rfl hab
    simp only [Consumer.step] at h2
    split at h2
    · cases h2
    · rw [chk i hk hv] at h2
      cases h2
      rfl
  · obtain ⟨s1, s2, i, h2, hk⟩ := pre rfl hab
    simp only [Consumer.step] at h2
    split at h2
    · cases h2
    · rw [chk i hk hv] at h2
      cases h2
      rfl
  · obtain ⟨s1, s2, i, h2, hk⟩ := pre rfl hab
    have hrep := i.rep k hk
    simp only [Consumer.step] at h2
    split at h2
    · cases h2
    · rw [find_sound i.good.sound hk, Res.ok_bind] at h2
      cases h2
      cases hv : view sc k a with
      | off => rw [hv] at hrep; rw [show look sc s1.subs k = none from hrep]; rfl
      | on x => rw [hv] at hrep; obtain ⟨e, he, _⟩ := hrep; rw [he]; rfl
      | ended x => rw [hv] at hrep; obtain ⟨e, he, _⟩ := hrep; rw [he]; rfl
      | again x => rw [hv] at hrep; obtain ⟨e, he, _⟩ := hrep; rw [he]; rfl

/-- A step that makes a subscription. -/
def makes (sc : Bool) (k : Key) : Op → Prop
  | .replied _ k' _ .accepted => SameKey sc k' k
  | .replied _ k' _ .existing => SameKey sc k' k
  | .repliedAsync _ k' _ (some _) => SameKey sc k' k
  | _ => False

theorem quiet_next {sc : Bool} {k : Key} {st : Status} {x : Op × Out} (hm : ¬ makes sc k x.1)
    (hst : ∀ y, st ≠ .on y) : ∀ y, next sc k st x ≠ .on y := by
  intro y
  obtain ⟨e, o⟩ := x
  cases e with
  | subscribe c k' hd =>
    cases o <;> simp only [next] <;> try exact hst y
    split
    · cases st <;> simp_all [Status.restart]
    · exact hst y
  | subscribeAsync k' hd =>
    cases o <;> simp only [next] <;> try exact hst y
    split
    · cases st <;> simp_all [Status.restart]
    · exact hst y
  | replied c k' hd r =>
    cases r <;> simp only [next] <;> try exact hst y
    · rw [if_neg (show ¬ SameKey sc k' k from hm)]; exact hst y
    · split
      · cases st <;> simp_all [Status.giveUp]
      · exact hst y
    · rw [if_neg (show ¬ SameKey sc k' k from hm)]; exact hst y
  | numbered c n => exact hst y
  | repliedAsync i k' hd n =>
    cases n with
    | none => exact hst y
    | some n => simp only [next]; rw [if_neg (show ¬ SameKey sc k' k from hm)]; exact hst y
  | event k' over r =>
    simp only [next]
    split
    · cases st with
      | ended x =>
        simp only [Status.hear]
        split <;> simp
      | _ => simp_all [Status.hear]
    · exact hst y
  | unsubscribe ex k' r =>
    simp only [next]
    split
    · cases r <;> cases st <;> simp_all [Status.stop]
    · exact hst y
  | «exists» k' => exact hst y

/-- C68: after a subscription has been ended by its user, and until one like it is made again, no handler is called for
it.

Missing: as in `C68_delivery_partial`. -/
theorem C68_unsubscribed_partial {sc : Bool} {h : History} {s : Consumer.State}
    (hx : Exec (Consumer.step sc) Consumer.State.init h s) (hp : Plain sc h) (hr : Regular sc h) {a b c : History}
    {k k' : Key} {ex : Bool} {r r' : Ended} {over : Bool} {o o' : Out}
    (hab : h = a ++ (.unsubscribe ex k r, o) :: b ++ (.event k' over r', o') :: c) (hk : SameKey sc k k')
    (hb : ∀ x ∈ b, ¬ makes sc k' x.1) : o' = .ignored := by
  have hd := C68_delivery_partial hx hp hr hab
  have key : ∀ y, view sc k' (a ++ (.unsubscribe ex k r, o) :: b) ≠ .on y := by
    have h0 : ∀ y, view sc k' (a ++ [(.unsubscribe ex k r, o)]) ≠ .on y := by
      intro y
      rw [view_snoc]
      simp only [next]
      rw [if_pos hk]
      cases r <;> cases view sc k' a <;> simp [Status.stop]
    have : ∀ b : History, (∀ x ∈ b, ¬ makes sc k' x.1) → ∀ a : History, (∀ y, view sc k' a ≠ .on y) →
        ∀ y, view sc k' (a ++ b) ≠ .on y := by
      intro b
      induction b with
      | nil => intro _ a ha; simpa using ha
      | cons x b ih =>
        intro hb a ha
        have := ih (fun z hz => hb z (List.mem_cons_of_mem _ hz)) (a ++ [x])
          (by rw [view_snoc]; exact quiet_next (hb x (by simp)) ha)
        simpa using this
    have := this b hb _ h0
    simpa using this
  rw [hd]
  cases hv : view sc k' (a ++ (.unsubscribe ex k r, o) :: b) with
  | on y => exact absurd hv (key y)
  | _ => rfl

private def dk : Key := ⟨[65], .null, 0, 0, false⟩
private def dk2 : Key := ⟨[66], .null, 0, 0, false⟩

/-- Two subscriptions, an event for each; one is ended while its provider is away; its next event is not delivered. -/
example : ∃ s, Consumer.run false Consumer.State.init
    [.subscribe 0 dk 1, .replied 0 dk 1 .accepted, .numbered 0 7, .subscribeAsync dk2 2, .repliedAsync 0 dk2 2 (some 8),
     .event dk2 false .success, .event dk false .success, .subscribe 0 dk 3, .unsubscribe true dk .noProvider,
     .exists dk, .event dk false .success, .exists dk, .event dk2 true .success, .event dk2 false .success] =
    .ok (s, [.going, .going, .success, .success, .success, .invoked 2, .invoked 1, .already, .success, .answer true,
      .ignored, .answer false, .invoked 2, .ignored]) := ⟨_, rfl⟩

/-- C68 fails: a user ends a subscription while the provider cannot be reached, subscribes again with another handler,
and is refused. From then on events go to the first handler, and subscribing is answered with "already exists". -/
theorem C68_refused_fails : ∃ s, Consumer.run false Consumer.State.init
    [.subscribe 0 dk 1, .replied 0 dk 1 .accepted, .numbered 0 7, .unsubscribe true dk .noProvider,
     .subscribe 0 dk 2, .replied 0 dk 2 .refused, .event dk false .success, .subscribe 0 dk 3] =
    .ok (s, [.going, .going, .success, .success, .going, .error, .invoked 1, .already]) := ⟨_, rfl⟩

/-- C68 fails: the same while the user is still subscribing again. -/
theorem C68_again_fails : ∃ s, Consumer.run false Consumer.State.init
    [.subscribe 0 dk 1, .replied 0 dk 1 .accepted, .numbered 0 7, .unsubscribe true dk .noProvider,
     .subscribe 0 dk 2, .event dk false .success] =
    .ok (s, [.going, .going, .success, .success, .going, .invoked 1]) := ⟨_, rfl⟩

/-- C68 fails: an event of a subscription that has been ended goes to its handler if the provider still cannot be told. -/
theorem C68_unreachable_fails : ∃ s, Consumer.run false Consumer.State.init
    [.subscribe 0 dk 1, .replied 0 dk 1 .accepted, .numbered 0 7, .unsubscribe true dk .noProvider,
     .event dk false .noProvider] =
    .ok (s, [.going, .going, .success, .success, .invoked 1]) := ⟨_, rfl⟩

/-- C68 fails: two threads subscribe to the same event, one is accepted and the other finds no provider; the next event
is dropped and the subscription is ended. -/
theorem C68_concurrent_fails : ∃ s, Consumer.run false Consumer.State.init
    [.subscribe 0 dk 1, .subscribe 1 dk 2, .replied 0 dk 1 .accepted, .numbered 0 7, .replied 1 dk 2 .noProvider,
     .event dk false .success, .exists dk] =
    .ok (s, [.going, .going, .going, .success, .error, .ignored, .answer false]) := ⟨_, rfl⟩

/-- C68 fails: when the provider answers that it has the subscription, the entry put into the list has a field that is
never set and that the next search reads. -/
theorem C68_existing_fails : Consumer.run false Consumer.State.init
    [.subscribe 0 dk 1, .replied 0 dk 1 .existing, .event dk false .success] = .ub := rfl

/-- C68 fails: the handler ends the subscription when it is given the initial value; the number is then stored in memory
that has been freed. -/
theorem C68_initial_value_fails : Consumer.run false Consumer.State.init
    [.subscribe 0 dk 1, .replied 0 dk 1 .accepted, .event dk false .success, .unsubscribe true dk .success,
     .numbered 0 7] = .ub := rfl

/-- C68 fails: with NaN in its filter a subscription is never found again: its events are dropped, it can be made twice
and cannot be ended. -/
theorem C68_nan_fails : ∃ s,
    let k : Key := { dk with filter := .relation 0 (.double 0x7ff8000000000000#64) }
    Consumer.run false Consumer.State.init
      [.subscribe 0 k 1, .replied 0 k 1 .accepted, .numbered 0 7, .event k false .success, .subscribe 0 k 1,
       .unsubscribe true k .success] =
      .ok (s, [.going, .going, .success, .ignored, .going, .error]) := ⟨_, rfl⟩

/-- C68 fails: all times are taken for equal, so that a subscription with a time in its filter stands in the way of one
with another time. -/
theorem C68_time_fails (t u : DateTime) (h : Nat) : ∃ s,
    Consumer.run false Consumer.State.init
      [.subscribe 0 { dk with filter := .relation 0 (.datetime t) } 1,
       .replied 0 { dk with filter := .relation 0 (.datetime t) } 1 .accepted, .numbered 0 7,
       .subscribe 0 { dk with filter := .relation 0 (.datetime u) } h] =
      .ok (s, [.going, .going, .success, .already]) := by
  have hc : ∀ t u : DateTime, Filter.cmp false (.relation 0 (.datetime t)) (.relation 0 (.datetime u)) = .ok .eq :=
    fun _ _ => rfl
  simp [Consumer.run, Consumer.step, Consumer.check, Consumer.put, Consumer.find, Consumer.takePending, Consumer.hit,
    Consumer.State.init, dk, hc]

/-- C68 fails: an asynchronous subscription that is pending stands in the way of one to the same event with another
interval. -/
theorem C68_pending_fails : ∃ s,
    Consumer.run false Consumer.State.init [.subscribeAsync dk 1, .subscribeAsync { dk with interval := 5 } 2] =
      .ok (s, [.success, .already]) := ⟨_, rfl⟩

/-! ## C69 -/

/-- C69: when `rbusEvent_SubscribeEx` succeeds, the events of each of the subscriptions go to its handler, where before
they went to none; when it fails, all events go where they went before. Either way nothing changes for other
subscriptions.

Missing: subscriptions ended while the provider could not be told, `rbusEvent_SubscribeExRawData`, a provider that knows
one of the subscriptions (see below); other calls or events during the call; filters as in `C68_delivery_partial`. -/
theorem C69_all_or_nothing_partial {sc : Bool} {h : History} {s s' : Consumer.State} {c : Nat} {qs : List Item} {b : Bool}
    (hx : Exec (Consumer.step sc) Consumer.State.init h s) (hp : Plain sc h) (hr : Regular sc h)
    (hq : ∀ q ∈ qs, Fit sc q) (hv : ∀ q ∈ qs, ∀ x, view sc q.key h ≠ .ended x)
    (hrun : subscribeEx sc c s qs = .ok (s', b)) :
    (b = true → ∀ q ∈ qs, heard sc s q.key = .ok .ignored ∧
      ∀ x, q.handler = some x → heard sc s' q.key = .ok (.invoked x)) ∧
    (∀ k, PlainFilter sc k.filter → k.raw = false → (b = false ∨ ∀ q ∈ qs, ¬ SameKey sc q.key k) →
      heard sc s' k = heard sc s k) := by
  have i := exec_inv hx hp hr
  have hc : ∀ q ∈ qs, ∀ x, shown sc s.subs q.key ≠ some (x, true) := by
    intro q hqq x hsh
    have hrep := i.rep q.key (hq q hqq).plain
    unfold shown at hsh
    cases hvq : view sc q.key h with
    | off => rw [hvq] at hrep; rw [show look sc s.subs q.key = none from hrep] at hsh; cases hsh
    | on y => rw [hvq] at hrep; obtain ⟨e, he, _, hd⟩ := hrep; rw [he] at hsh; simp [hd] at hsh
    | ended y => exact hv q hqq y hvq
    | again y => rw [hvq] at hrep; obtain ⟨e, he, _, hd⟩ := hrep; rw [he] at hsh; simp [hd] at hsh
  obtain ⟨g', ht, hf⟩ := subscribeAll_good i.good i.good (fun _ h => (by cases h)) hq hc (fun _ h => (by cases h))
    (fun _ _ _ => rfl) hrun
  refine ⟨fun hb q hqq => ?_, fun k hk hraw hcase => ?_⟩
  · have hfit := hq q hqq
    obtain ⟨h1, h2⟩ := (ht hb).1 q (by simpa using hqq)
    refine ⟨by rw [heard_shown i.good.sound hfit.plain hfit.raw, h1]; rfl, fun x hxq => ?_⟩
    rw [heard_shown g'.sound hfit.plain hfit.raw, h2, hxq]
    rfl
  · rw [heard_shown g'.sound hk hraw, heard_shown i.good.sound hk hraw]
    cases b with
    | false => rw [hf rfl k hk]
    | true =>
      rcases hcase with hcase | hcase
      · cases hcase
      · rw [(ht rfl).2 k hk (by simpa using hcase)]

private def it (k : Key) (h : Option Nat) (r : Reply) : Item := ⟨k, h, r, 7, .success⟩

/-- Both are made; or, when the second is refused, none. -/
example : ∃ s, subscribeEx false 0 Consumer.State.init [it dk (some 1) .accepted, it dk2 (some 2) .accepted] =
    .ok (s, true) ∧ heard false s dk = .ok (.invoked 1) ∧ heard false s dk2 = .ok (.invoked 2) := ⟨_, rfl, rfl, rfl⟩

example : ∃ s, subscribeEx false 0 Consumer.State.init [it dk (some 1) .accepted, it dk2 (some 2) .refused] =
    .ok (s, false) ∧ heard false s dk = .ok .ignored ∧ heard false s dk2 = .ok .ignored := ⟨_, rfl, rfl, rfl⟩

/-- C69 fails: a subscription that was ended while its provider was away comes back to life, with the old handler, when
subscribing to it is refused. -/
theorem C69_ended_fails : ∃ s os s', Consumer.run false Consumer.State.init
      [.subscribe 0 dk 1, .replied 0 dk 1 .accepted, .numbered 0 7, .unsubscribe true dk .noProvider] = .ok (s, os) ∧
    subscribeEx false 0 s [it dk (some 2) .refused] = .ok (s', false) ∧
    heard false s dk = .ok .ignored ∧ heard false s' dk = .ok (.invoked 1) := ⟨_, _, _, rfl, rfl, rfl, rfl⟩

/-- C69 fails for `rbusEvent_SubscribeExRawData`: when the second subscription is refused the first one stays; and if the
user had a usual subscription like it, that one is ended. -/
theorem C69_raw_fails : ∃ s os s' s'' o, Consumer.run false Consumer.State.init
      [.subscribe 0 dk 1, .replied 0 dk 1 .accepted, .numbered 0 7] = .ok (s, os) ∧
    subscribeEx false 0 s [it { dk with raw := true } (some 2) .accepted, it { dk2 with raw := true } (some 3) .refused] =
      .ok (s', false) ∧
    heard false s dk = .ok (.invoked 1) ∧ heard false s' dk = .ok .ignored ∧
    Consumer.step false s' (.subscribe 0 { dk with raw := true } 4) = .ok (s'', o) ∧ o = .already :=
  ⟨_, _, _, _, _, rfl, rfl, rfl, rfl, rfl, rfl⟩

/-- C69 fails for `rbusEvent_SubscribeExRawData`: a handler that is NULL is noticed only when its turn comes, and the
subscriptions made before stay. -/
theorem C69_null_fails : ∃ s' s'' o,
    subscribeEx false 0 Consumer.State.init
      [it { dk with raw := true } (some 2) .accepted, it { dk2 with raw := true } none .accepted] = .ok (s', false) ∧
    Consumer.step false s' (.subscribe 0 { dk with raw := true } 4) = .ok (s'', o) ∧ o = .already :=
  ⟨_, _, _, rfl, rfl, rfl⟩

end Verif.Props
