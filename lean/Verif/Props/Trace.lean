import Verif.Proof.Trace

/-!
# C94: The trace of a request goes along with all that is done on its behalf
-/

namespace Verif.Props

open Verif Verif.Message Verif.Trace Verif.Spec.Trace

private def traceA : Bytes := "00-0af7651916cd43dd8448eb211c80319c-b7ad6b7169203331-01".toUTF8.data.toList
private def traceB : Bytes := "a=1".toUTF8.data.toList
private def traceM : Bytes := "M".toUTF8.data.toList

/-- Thread 1 sets a trace and asks thread 2, which asks thread 3, which asks on. -/
private def traceHops : List Event :=
  [.set 1 true (some traceA) (some traceB), .request 1 traceM [7], .deliver 2 0, .get 2 true (some 64) (some 3),
   .clear 1 true, .request 2 traceM [], .deliver 3 1, .answered 2 false, .request 3 traceM [1, 2]]

private theorem sane_of {h : List Event} (p : ∀ i, ∀ hi : i < h.length, Sane (requests (h.take i)) h[i]) : AllSane h := by
  intro a e b hab
  have hi : a.length < h.length := by rw [hab]; simp
  have := p a.length hi
  simp only [hab, List.take_left] at this
  have he : (a ++ e :: b)[a.length]'(by simp) = e := by simp
  simpa [he] using this

private theorem traceHops_sane : AllSane traceHops := by
  refine sane_of fun i hi => ?_
  have hi' : i < 9 := hi
  have c : CString traceM := ⟨by decide, by decide⟩
  have a : (0 : UInt8) ∉ traceA := by decide
  have b : (0 : UInt8) ∉ traceB := by decide
  match i with
  | 0 => exact ⟨fun s h => by cases h; exact a, fun s h => by cases h; exact b⟩
  | 1 => exact ⟨c, by decide⟩
  | 2 => exact (by decide : 0 < 1)
  | 3 => exact ⟨fun s h => by cases h; decide, fun s h => by cases h; decide⟩
  | 4 => trivial
  | 5 => exact ⟨c, by decide⟩
  | 6 => exact (by decide : 1 < 2)
  | 7 => trivial
  | 8 => exact ⟨c, by decide⟩
  | n + 9 => omega

/-- Whatever threads do, nothing undefined happens, and what each call gives is what the traces of the threads, kept as
`after` says, make it give; a request takes its thread's trace along. Missing: arrays of no bytes, and what `after` and
`Reply` say of strings longer than 510 bytes, of methods called asynchronously and of private connections. -/
theorem C94_replies_partial {h : List Event} (hs : AllSane h) :
    ∃ s os, run start h = .ok (s, os) ∧ Replies empty h os := by
  obtain ⟨s, os, h1, _, _, h2, _⟩ := Proof.Trace.run_start hs
  exact ⟨s, os, h1, h2⟩

example : AllSane traceHops := traceHops_sane

/-- A trace that a thread has set is what the thread gets back, and what its requests take along, until the thread
itself sets, clears or is given another. Missing: strings longer than 510 bytes. -/
theorem C94_set_partial {h b : List Event} {t : Nat} {p q : Bytes} (hp : p.length ≤ 510) (hq : q.length ≤ 510)
    (hb : ∀ e ∈ b, touches t e = false) :
    (∀ lp lq, AllSane (h ++ .set t true (some p) (some q) :: b ++ [.get t true lp lq]) →
      ∃ s os, run start (h ++ .set t true (some p) (some q) :: b ++ [.get t true lp lq])
        = .ok (s, os ++ [.success (found p lp) (found q lq)])) ∧
    (∀ m body, AllSane (h ++ .set t true (some p) (some q) :: b ++ [.request t m body]) →
      ∃ s os msg, run start (h ++ .set t true (some p) (some q) :: b ++ [.request t m body])
        = .ok (s, os ++ [.message msg]) ∧ Carries msg m ⟨p, q⟩) := by
  have key : (afterAll empty (h ++ .set t true (some p) (some q) :: b)).has t = ⟨p, q⟩ := by
    rw [Proof.Trace.afterAll_append]
    simp only [afterAll, List.foldl_cons]
    refine (Proof.Trace.untouched hb _).trans ?_
    simp [after, Sheet.give, kept, hp, hq]
  refine ⟨fun lp lq hs => ?_, fun m body hs => ?_⟩
  · obtain ⟨s, os, o, h1, h2⟩ := Proof.Trace.run_last hs
    simp only [Reply, key, if_true] at h2
    subst h2
    exact ⟨s, os, h1⟩
  · obtain ⟨s, os, o, h1, msg, rfl, h2⟩ := Proof.Trace.run_last hs
    rw [key] at h2
    exact ⟨s, os, msg, h1, h2⟩

example : traceA.length ≤ 510 ∧ traceB.length ≤ 510 ∧
    ∀ e ∈ ([.set 2 true none none, .request 1 traceM [], .deliver 3 0, .exit 2] : List Event), touches 1 e = false :=
  ⟨by decide, by decide, by decide⟩

/-- What other threads do does not change a thread's trace: after it, a call gives the same as before it. -/
theorem C94_others {h b : List Event} {t : Nat} (hb : ∀ e ∈ b, touches t e = false) {lp lq : Option Int}
    (h1 : AllSane (h ++ [.get t true lp lq])) (h2 : AllSane (h ++ b ++ [.get t true lp lq])) :
    ∃ s s' os os' o, run start (h ++ [.get t true lp lq]) = .ok (s, os ++ [o]) ∧
      run start (h ++ b ++ [.get t true lp lq]) = .ok (s', os' ++ [o]) := by
  obtain ⟨s, os, o, hr, ho⟩ := Proof.Trace.run_last h1
  obtain ⟨s', os', o', hr', ho'⟩ := Proof.Trace.run_last h2
  simp only [Reply, if_true] at ho ho'
  rw [Proof.Trace.afterAll_append, Proof.Trace.untouched hb, ← ho] at ho'
  subst ho'
  exact ⟨s, s', os, os', _, hr, hr'⟩

example : (∀ e ∈ ([.clear 1 true, .request 2 traceM [], .set 2 false none none] : List Event), touches 2 e = false) ∧
    AllSane (traceHops.take 3 ++ [.get 2 true (some 64) none]) := by
  refine ⟨by decide, sane_of fun i hi => ?_⟩
  have hi' : i < 4 := hi
  match i with
  | 0 => exact ⟨fun s h => by cases h; decide, fun s h => by cases h; decide⟩
  | 1 => exact ⟨⟨by decide, by decide⟩, by decide⟩
  | 2 => exact (by decide : 0 < 1)
  | 3 => exact ⟨fun s h => by cases h; decide, fun s h => by cases h⟩
  | n + 4 => omega

/-- Requests made on behalf of a request, directly or over any number of components, carry its trace. Missing: requests
through private connections, and methods called asynchronously. -/
theorem C94_chain_partial {h : List Event} (hs : AllSane h) {i j : Nat} (hi : i < requests h) (hc : Chain h i j)
    {s : State} {os : List Out} (hr : run start h = .ok (s, os)) :
    ∃ m m' x, (messages os)[i]? = some m ∧ (messages os)[j]? = some m' ∧ (∃ c, Carries m c x) ∧ ∃ c, Carries m' c x :=
  Proof.Trace.chain_messages hs hc hi hr

example : AllSane traceHops ∧ 0 < requests traceHops ∧ Chain traceHops 0 2 := by
  refine ⟨traceHops_sane, by decide, .next (.next .self (j := 0) (k := 1) ?_) ?_⟩
  · exact ⟨traceHops.take 2, 2, [.get 2 true (some 64) (some 3), .clear 1 true], traceM, [],
      traceHops.drop 6, rfl, by decide, rfl⟩
  · exact ⟨traceHops.take 6, 3, [.answered 2 false], traceM, [1, 2], [], rfl, by decide, rfl⟩

/-- Once a request has been answered, its trace is gone from the thread that handled it: nothing the thread does next
carries it. Missing: handlers that answer later. -/
theorem C94_answered_partial {h b : List Event} {t : Nat} (hb : ∀ e ∈ b, touches t e = false) {m body : Bytes}
    (hs : AllSane (h ++ .answered t false :: b ++ [.request t m body])) :
    ∃ s os msg, run start (h ++ .answered t false :: b ++ [.request t m body]) = .ok (s, os ++ [.message msg]) ∧
      Carries msg m ⟨[], []⟩ := by
  obtain ⟨s, os, o, h1, msg, rfl, h2⟩ := Proof.Trace.run_last hs
  rw [Proof.Trace.afterAll_append] at h2
  simp only [afterAll, List.foldl_cons] at h2
  have key := Proof.Trace.untouched hb (after (List.foldl after empty h) (.answered t false))
  simp only [afterAll] at key
  rw [key] at h2
  simp only [after, Sheet.give, if_true] at h2
  exact ⟨s, os, msg, h1, h2⟩

example : AllSane (traceHops.take 7 ++ .answered 2 false :: [] ++ [.request 2 traceM []]) := by
  refine sane_of fun i hi => ?_
  have hi' : i < 9 := hi
  match i with
  | 0 => exact ⟨fun s h => by cases h; decide, fun s h => by cases h; decide⟩
  | 1 => exact ⟨⟨by decide, by decide⟩, by decide⟩
  | 2 => exact (by decide : 0 < 1)
  | 3 => exact ⟨fun s h => by cases h; decide, fun s h => by cases h; decide⟩
  | 4 => trivial
  | 5 => exact ⟨⟨by decide, by decide⟩, by decide⟩
  | 6 => exact (by decide : 1 < 2)
  | 7 => trivial
  | 8 => exact ⟨⟨by decide, by decide⟩, by decide⟩
  | n + 9 => omega

/-- The last message among what was given, if it can be read. -/
private def lastCarried (r : Res (State × List Out)) : Option (Bytes × Bytes) :=
  match r with
  | .ok (_, os) =>
    match (messages os).getLast? with
    | some m =>
      match getMeta m 0 with
      | .ok ((_, p, q), _) => some (p, q)
      | _ => none
    | none => none
  | _ => none

/-- The last thing given. -/
private def lastOut (r : Res (State × List Out)) : Option Out :=
  match r with
  | .ok (_, os) => os.getLast?
  | _ => none

/-- A method called asynchronously does not carry the caller's trace: the thread made for the call has none. -/
theorem C94_invoke_async_fails :
    lastCarried (run start [.set 1 true (some traceA) (some traceB), .invokeAsync 1 2 traceM []]) = some ([], []) := by
  decide +kernel

/-- A request through a private connection carries the trace, but the thread that handles it does not take it: what it
asks on behalf of the request goes without. -/
theorem C94_direct_fails :
    lastCarried (run start [.set 1 true (some traceA) (some traceB), .request 1 traceM [], .direct 2 0]) = some (traceA, traceB) ∧
    lastCarried (run start [.set 1 true (some traceA) (some traceB), .request 1 traceM [], .direct 2 0,
      .request 2 traceM []]) = some ([], []) := by
  constructor <;> decide +kernel

/-- When a handler answers later, the trace of its request stays with the thread that delivers: what a handler of events
asks next on that thread carries the trace of a request it has nothing to do with. -/
theorem C94_answer_later_fails :
    lastCarried (run start [.set 1 true (some traceA) (some traceB), .request 1 traceM [], .deliver 2 0, .answered 2 true,
      .request 2 traceM []]) = some (traceA, traceB) := by
  decide +kernel

/-- A trace longer than 510 bytes is dropped, though RBUS_ERROR_SUCCESS is returned (W3C asks for at least 512
characters of `tracestate`). -/
theorem C94_long_fails (p : Bytes) (h : 510 < p.length) :
    ∃ s, run start [.set 1 true (some p) (some p), .get 1 true (some 1024) (some 1024)]
      = .ok (s, [.success none none, .success (some []) (some [])]) := by
  have hn : ¬ (0 < p.length ∧ p.length < capacity - 1) := by simp only [capacity]; omega
  refine ⟨start.keep 1 (some ⟨(List.replicate capacity 0).set 0 0, (List.replicate capacity 0).set 0 0⟩), ?_⟩
  have hp : put (List.replicate capacity 0) (some p) = .ok ((List.replicate capacity 0).set 0 0) := by
    rw [put, if_neg hn, poke, if_pos (by rw [List.length_replicate]; decide)]
  have hc : cstr ((List.replicate capacity 0).set 0 0) = .ok [] := by decide +kernel
  simp only [run, step, if_true, setContext, own, start, Option.getD_none, fresh, hp, Res.ok_bind, Res.pure_eq,
    getContext, State.keep, Option.getD_some, hc, copyOut?, copyOut]
  rfl

example : 510 < (List.replicate 511 (65 : UInt8)).length := by rw [List.length_replicate]; decide

/-- The name of the header is not removed from a trace set with it, as rbus.h promises. -/
theorem C94_header_name_fails :
    lastOut (run start [.set 1 true (some ("traceparent: 00-1-2-01".toUTF8.data.toList)) none, .get 1 true (some 64) none])
      = some (.success (some ("traceparent: 00-1-2-01".toUTF8.data.toList)) none) := by
  decide +kernel

/-- Asking for the trace with an array of no bytes writes outside of it. -/
theorem C94_no_room_fails (s : State) (t : Nat) (hp : ∃ x, getContext s t = .ok x) (n : Int) (hn : n ≤ 0) :
    step s (.get t true (some n) none) = .ub := by
  obtain ⟨⟨p, q⟩, hx⟩ := hp
  simp only [step, if_true, hx, Res.ok_bind, copyOut?, copyOut, if_pos hn, Res.ub_bind]

example : ∃ x, getContext start 1 = .ok x := ⟨([], []), by decide +kernel⟩

end Verif.Props
