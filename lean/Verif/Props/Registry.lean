import Verif.Proof.Disconnect

/-!
# C28, C29, C32, C33, C61: a provider's subscriptions

`History sc h s`: a provider that started without cached subscriptions went through `h` and is now in
state `s`. `h` may hold any mixture of subscribe and unsubscribe requests, lost connections, added and
deleted rows, and registrations, with any answers of the provider's own handlers.
-/

namespace Verif.Props

open Verif Verif.Subs
open Verif.Element (tTable tProperty tEvent retrieveInstance)
open Verif.Spec.Registry (SameKey Plain History)

/-! ## A small world for the examples -/

/-- Handlers that agree to everything. -/
def agreeable : Env := ⟨fun _ _ auto => (0, auto), fun _ => true⟩

/-- A consumer's subscription, nothing special. -/
def plainSub (listener event : Bytes) : Key := ⟨listener, event, 1, .null, 0, 0, false⟩

/-- `A.t.{i}.`, a table (at address 2) with a property `A.t.{i}.p`, and its rows 1 and 2 (at 5 and 7). -/
def twoRows : List (Op × Env) :=
  [(.register [65, 46, 116, 46, 123, 105, 125, 46] tTable {}, agreeable),
   (.register [65, 46, 116, 46, 123, 105, 125, 46, 112] tProperty { get := some 1 }, agreeable),
   (.addRow 2 1 none, agreeable), (.addRow 2 2 none, agreeable)]

/-- `A.t.1.p` -/
def row1 : Bytes := [65, 46, 116, 46, 49, 46, 112]

/-- `A.t.2.p` -/
def row2 : Bytes := [65, 46, 116, 46, 50, 46, 112]

/-- What is seen of a run: listener and event name of each subscription with its id, and the answers. -/
def seen : Res (State × List (Option Nat)) → Option (List (Bytes × Bytes × Nat) × List (Option Nat))
  | .ok (s, o) => some (s.subs.map (fun x => (x.key.listener, x.key.eventName, x.subscriptionId)), o)
  | _ => none

theorem history_of_run {sc : Bool} {es : List (Op × Env)} {s : State} {os : List (Option Nat)}
    (h : Subs.run sc State.init es = .ok (s, os)) : History sc (es.zip os) s := by
  have := Exec.extend (step := Subs.step sc) (h := []) (s := State.init) .nil (run := Subs.run sc)
    (fun _ => rfl) (fun _ _ _ => rfl) es s os h
  simpa [History] using this.2

/-! ## One subscription per key -/

/-- C28. At no time do two subscriptions of a provider agree in listener, component, event name, filter,
interval, duration and rawness. -/
theorem C28_keys_distinct {sc : Bool} {h s} (hh : History sc h s) :
    s.subs.Pairwise (fun x y => ¬ SameKey sc x.key y.key) :=
  (history_inv hh).keys.imp not_same_of_false

/-- C28. A successful subscribe request adds exactly the requested subscription, which was not there. -/
theorem C28_subscribe_adds {sc : Bool} {h s} (_hh : History sc h s) {k : Key} {env : Env} {s' : State}
    (hs : Subs.step sc s (.subscribe k, env) = .ok (s', some eOk)) :
    (∀ x ∈ s.subs, ¬ SameKey sc x.key k) ∧ ∃ x, x.key = k ∧ s'.subs = s.subs ++ [x] := by
  obtain ⟨⟨s1, r⟩, h1, h2⟩ := res_bind_ok hs
  cases h2
  rcases request_cases h1 with ⟨-, hr⟩ | ⟨el, -, h1⟩
  · exact absurd rfl hr
  · cases impl_added h1 with
    | refused _ _ _ hr => exact absurd rfl hr
    | rawTrace _ _ _ _ _ hr => cases hr
    | made hm hf hk _ _ =>
      exact ⟨fun x hx => not_same_of_false (hk x hx), _, hm.key, by rw [hf.subs, hm.subs]⟩

/-- C28. Asking again for a subscription that is there is refused and changes no subscription. -/
theorem C28_duplicate_refused {sc : Bool} {h s} (_hh : History sc h s) {k : Key} {env : Env} {s' : State}
    {r : Nat} (hd : ∃ x ∈ s.subs, SameKey sc x.key k)
    (hs : Subs.step sc s (.subscribe k, env) = .ok (s', some r)) : r ≠ eOk ∧ s'.subs = s.subs := by
  obtain ⟨x, hx, hxk⟩ := hd
  obtain ⟨⟨s1, r1⟩, h1, h2⟩ := res_bind_ok hs
  cases h2
  rcases request_cases h1 with ⟨rfl, hr⟩ | ⟨el, -, h1⟩
  · exact ⟨hr, rfl⟩
  · cases impl_added h1 with
    | refused hf _ _ hr => exact ⟨hr, hf.subs⟩
    | rawTrace _ _ hk => exact absurd hxk (not_same_of_false (hk x hx))
    | made _ _ hk => exact absurd hxk (not_same_of_false (hk x hx))

/-- C28. The refusal is the one meant for this case whenever the provider's handler agrees and the request
is otherwise in order. -/
theorem C28_duplicate_answer {sc : Bool} {h s} (hh : History sc h s) {k : Key} {env : Env} {el}
    (hd : ∃ x ∈ s.subs, x.key = k ∧ SameKey sc k k ∧ ∀ y ∈ s.subs, y ≠ x →
      y.key.listener ≠ k.listener ∨ y.key.eventName ≠ k.eventName ∨ y.key.componentId ≠ k.componentId)
    (he : retrieveInstance s.tree k.eventName = some el)
    (ht : el.info.type = tTable → k.eventName.getLast? = some 46)
    (ha : ∀ a, (env.handler true k a).1 = eOk ∧ ¬ (k.rawData = true ∧ (env.handler true k a).2 = true))
    (hi : ¬ (k.interval ≠ 0 ∧ k.eventName.getLast? = some 46)) :
    ∃ s', Subs.step sc s (.subscribe k, env) = .ok (s', some eExists) := by
  obtain ⟨x, hx, rfl, hself, hoth⟩ := hd
  have hinv := history_inv hh
  have hget : getSub sc x.key none s.subs = .ok (some x) := by
    obtain ⟨a, b, hab⟩ := List.append_of_mem hx
    have hne : ∀ y ∈ a, y ≠ x := by
      have hn := hinv.addrs
      rw [hab, (List.perm_middle.map _).nodup_iff, List.map_cons, List.nodup_cons] at hn
      rintro y hy rfl
      exact hn.1 (List.mem_map_of_mem (by simp [hy]))
    have hf : ∀ y ∈ a, sameKey sc y.key x.key = .ok false := by
      intro y hy
      unfold sameKey
      rw [if_neg]
      rintro ⟨h1, h2, h3⟩
      rcases hoth y (by rw [hab]; simp [hy]) (hne y hy) with h | h | h
      · exact h h1
      · exact h h3
      · exact h h2
    rw [hab]
    clear hab hne
    induction a with
    | nil =>
      simp only [List.nil_append, getSub]
      rw [sameKey_iff.mpr hself]
      simp
    | cons y a ih =>
      rw [List.cons_append]
      unfold getSub
      rw [if_neg (by simp), hf y (by simp)]
      simpa using ih (fun z hz => hf z (by simp [hz]))
  have hreg : ∀ (t : State) (auto : Bool), t.subs = s.subs →
      register sc env t true el x.key auto = .ok (t, eExists) := by
    intro t auto ht
    unfold register
    rw [if_neg (by simpa [Element.dot] using hi), ht, hget]
    rfl
  have hreq : ∃ s', request sc env s true x.key = .ok (s', eExists) := by
    unfold request
    rw [he]
    simp only
    rw [if_neg (by rintro ⟨h1, h2⟩; exact h2 (ht h1))]
    unfold subscribeImpl
    split
    · simp only
      rw [if_neg (ha _).2, if_neg (by simp [(ha _).1])]
      exact ⟨_, hreg { s with told := s.told ++ [(true, x.key.eventName)] } _ rfl⟩
    · exact ⟨_, hreg s _ rfl⟩
  obtain ⟨s', hs'⟩ := hreq
  exact ⟨s', by simp [Subs.step, hs']⟩

/-- C28. A successful unsubscribe request removes exactly one subscription, the one asked for; a refused one
removes none. -/
theorem C28_unsubscribe_removes {sc : Bool} {h s} (hh : History sc h s) {k : Key} {env : Env} {s' : State}
    {r : Nat} (hs : Subs.step sc s (.unsubscribe k, env) = .ok (s', some r)) :
    (r ≠ eOk ∧ s'.subs = s.subs) ∨
      ∃ a x b, s.subs = a ++ x :: b ∧ s'.subs = a ++ b ∧ SameKey sc x.key k ∧ r = eOk := by
  obtain ⟨⟨s1, r1⟩, h1, h2⟩ := res_bind_ok hs
  cases h2
  rcases request_cases h1 with ⟨rfl, hr⟩ | ⟨el, -, h1⟩
  · exact .inl ⟨hr, rfl⟩
  · exact ((impl_removed (history_inv hh).addrs h1).split (history_inv hh)).2

example : seen (Subs.run false State.init (twoRows ++ [
      (.subscribe (plainSub [76] row1), agreeable), (.subscribe (plainSub [77] row1), agreeable),
      (.subscribe (plainSub [76] row1), agreeable), (.unsubscribe (plainSub [76] row1), agreeable)])) =
    some ([([77], row1, 4)], [none, none, none, none, some eOk, some eOk, some eExists, some eOk]) := by
  decide +kernel

/-! ## Refused subscriptions -/

/-- C29. A subscribe request answered with an error leaves everything as it was, apart from the provider's
handler having been asked.
Partial: not for raw data of an element that is not an event (`C29_raw_data_fails`); and the handler has
been told of a subscription that does not come about (`C29_provider_told_fails`). -/
theorem C29_no_trace_partial {sc : Bool} {h s} (_hh : History sc h s) {k : Key} {env : Env} {s' : State}
    {r : Nat} (hs : Subs.step sc s (.subscribe k, env) = .ok (s', some r)) (hr : r ≠ eOk)
    (hraw : k.rawData = true → ∀ el, retrieveInstance s.tree k.eventName = some el →
      el.info.type = tEvent) :
    s'.subs = s.subs ∧ s'.tree = s.tree ∧ s'.attached = s.attached ∧ s'.polled = s.polled ∧
      s'.intervals = s.intervals ∧ s'.cache = s.cache ∧ s'.nextId = s.nextId := by
  obtain ⟨⟨s1, r1⟩, h1, h2⟩ := res_bind_ok hs
  cases h2
  rcases request_cases h1 with ⟨rfl, -⟩ | ⟨el, hel, h1⟩
  · exact ⟨rfl, rfl, rfl, rfl, rfl, rfl, rfl⟩
  · cases impl_added h1 with
    | refused hf hp hi _ => exact ⟨hf.subs, hf.tree, hf.attached, hp, hi, hf.cache, hf.nextId⟩
    | rawTrace _ _ _ h4 h5 => exact absurd (hraw h4 el hel) h5
    | made _ _ _ _ h5 => exact absurd h5 hr

/-- The subscription of `A.t.1.p` for raw data. -/
def rawKey : Key := { plainSub [76] row1 with rawData := true }

/-- C29 (failure). A request for raw data of a property is answered with an error, but the subscription
stays; it cannot be unsubscribed, and asking again is answered differently. -/
theorem C29_raw_data_fails :
    seen (Subs.run false State.init (twoRows ++ [(.subscribe rawKey, agreeable),
        (.subscribe rawKey, agreeable), (.unsubscribe rawKey, agreeable)])) =
      some ([([76], row1, 3)],
        [none, none, none, none, some eInvalidInput, some eExists, some eInvalidInput]) := by
  decide +kernel

/-- C29 (failure). The provider's handler is told about each refused repetition as about a new subscriber:
it has counted two subscriptions and one unsubscription when nobody is subscribed any more. -/
theorem C29_provider_told_fails :
    ∃ s o, Subs.run false State.init [
        (.register [65, 46, 101] tEvent { sub := some 1 }, agreeable),
        (.subscribe (plainSub [76] [65, 46, 101]), agreeable),
        (.subscribe (plainSub [76] [65, 46, 101]), agreeable),
        (.unsubscribe (plainSub [76] [65, 46, 101]), agreeable)] = .ok (s, o) ∧
      o = [none, some eOk, some eExists, some eOk] ∧ s.subs = [] ∧
      s.told = [(true, [65, 46, 101]), (true, [65, 46, 101]), (false, [65, 46, 101])] := by
  refine ⟨_, _, rfl, ?_, ?_, ?_⟩ <;> decide +kernel

/-! ## Lost connections -/

/-- C32. When a consumer is gone, nobody else's subscriptions change, and all its subscriptions without
filter, interval, duration and raw data are removed, if the provider's handlers agree and the elements are
still there.
Partial: subscriptions with a filter, interval, duration or raw data stay (`C32_filter_fails`), and the
code may read freed memory (`C32_crash_fails`), which is excluded here by `hs`. -/
theorem C32_disconnect_partial {sc : Bool} {h s} (hh : History sc h s) {l : Bytes} {env : Env} {s' : State}
    {o : Option Nat} (hs : Subs.step sc s (.disconnect l, env) = .ok (s', o))
    (ha : ∀ k b, (env.handler false k b).1 = eOk) :
    s'.subs.Sublist s.subs ∧
      s'.subs.filter (fun x => x.key.listener ≠ l) = s.subs.filter (fun x => x.key.listener ≠ l) ∧
      ∀ x ∈ s.subs, x.key.listener = l → Plain x.key → (retrieveInstance s.tree x.key.eventName).isSome →
        x ∉ s'.subs := by
  obtain ⟨s1, h1, h2⟩ := res_bind_ok hs
  cases h2
  have hi := history_inv hh
  have ho := disconnectFrom_others hi h1
  exact ⟨ho.1, ho.2, disconnectFrom_plain ha (pre := []) hi rfl h1⟩

example : seen (Subs.run false State.init (twoRows ++ [
      (.subscribe (plainSub [76] row1), agreeable), (.subscribe (plainSub [77] row1), agreeable),
      (.subscribe (plainSub [76] row2), agreeable), (.disconnect [76], agreeable)])) =
    some ([([77], row1, 4)], [none, none, none, none, some eOk, some eOk, some eOk, none]) := by
  decide +kernel

/-- The subscription of `A.t.1.p` with a filter. -/
def filtered : Key := { plainSub [76] row1 with filter := .relation 0 (.int32 3) }

/-- C32 (failure). A subscription with a filter outlives its consumer; so do those with an interval or a
duration. -/
theorem C32_filter_fails :
    seen (Subs.run false State.init (twoRows ++ [(.subscribe filtered, agreeable),
        (.subscribe { plainSub [76] row1 with interval := 5 }, agreeable),
        (.subscribe { plainSub [76] row1 with interval := 5, duration := 10 }, agreeable),
        (.disconnect [76], agreeable)])) =
      some ([([76], row1, 3), ([76], row1, 4), ([76], row1, 5)],
        [none, none, none, none, some eOk, some eOk, some eOk, none]) := by
  decide +kernel

/-- C32 (failure). If a consumer has subscribed to the same event with a filter and then without, the loss of
its connection makes the provider read freed memory. -/
theorem C32_crash_fails :
    Subs.run false State.init (twoRows ++ [(.subscribe filtered, agreeable),
      (.subscribe (plainSub [76] row1), agreeable), (.disconnect [76], agreeable)]) = .ub := by
  have : (match Subs.run false State.init (twoRows ++ [(.subscribe filtered, agreeable),
      (.subscribe (plainSub [76] row1), agreeable), (.disconnect [76], agreeable)]) with
      | .ub => true | _ => false) = true := by decide +kernel
  revert this
  generalize Subs.run false State.init _ = r
  cases r <;> simp

end Verif.Props
