import Verif.Proof.Core

/-!
# C103: objects, methods and events of the core library

Programs that use the core library register objects, methods and events, and rely on it that every request reaches
what was registered for it and every event those who asked for it.
-/

namespace Verif.Props

open Verif Verif.Core Verif.Spec.Core Verif.Proof.Core

private def dev : Bytes := "dev".toUTF8.data.toList
private def ping : Bytes := "ping".toUTF8.data.toList
private def up : Bytes := "up".toUTF8.data.toList
private def ann : Bytes := "ann".toUTF8.data.toList
private def bob : Bytes := "bob".toUTF8.data.toList

private def day : List Event :=
  [.registerObj dev 1 true, .registerObj dev 2 true, .registerMethod dev ping 3, .registerEvent dev (some up) (some 4),
   .request dev subscribeName (some (up, ann)) .success, .request dev subscribeName (some (up, bob)) .success,
   .request dev subscribeName (some (up, ann)) .success, .publish dev (some up), .request dev ping none .success,
   .request dev unsubscribeName (some (up, ann)) .success, .publish dev (some up), .request dev up none .success,
   .unregisterEvent dev (some up), .publish dev (some up), .unregisterObj dev true, .request dev ping none .success]

/-- Every call and every request is answered as the sheet of what is registered says: names already taken, too long or
unknown are refused; a method reaches the callback registered for it, anything else the handler of the object; those
who asked for an event are its listeners, in the order they came, until they ask no longer; its callback is told of
each who comes and goes; publishing sends to the listeners. For all histories in which the program leaves the two
reserved methods alone and no object had too many methods to take subscriptions; what happens otherwise is below. -/
theorem C103_answers_partial (h : List Event) (hp : ∀ e ∈ h, Polite e)
    (hc : ∀ x ∈ h.zip (run [] h).2, ¬ Crowded x) : (run [] h).2 = (empty.answers h).2 :=
  (run_rel h rel_init hp hc).1

example : (run [] day).2 =
    [.code .success, .code .invalidParam, .code .success, .code .success,
     .answered (some .success) none (some (4, true)), .answered (some .success) none (some (4, true)),
     .answered (some .success) none none, .sent [ann, bob], .method 3,
     .answered (some .success) none (some (4, false)), .sent [bob], .object 1,
     .code .success, .code .invalidParam, .code .success, .nobody] := by decide +kernel

/-- Each listener is sent an event once. -/
theorem C103_once (h : List Event) (hp : ∀ e ∈ h, Polite e) (hc : ∀ x ∈ h.zip (run [] h).2, ¬ Crowded x)
    (o : Bytes) (e : Option Bytes) (ls : List Bytes)
    (hs : (step (run [] h).1 (.publish o e)).2 = .sent ls) : ls.Nodup := by
  have hr := (run_rel h rel_init hp hc).2
  revert hs
  simp only [step, publish]
  split
  · simp
  · split
    · rename_i x hx
      split
      · rename_i v hv
        intro hs
        obtain rfl := Out.sent.inj hs
        exact (hr.good o x hx).listeners v (find_key (key := Ev.name) hv).2
      · simp
    · simp

example : (step (run [] (day.take 8)).1 (.publish dev (some up))).2 = .sent [ann, bob] := by decide +kernel

/-- A request for an object that is registered is always taken by something of that object: the callback of a method,
its handler, or, for subscriptions, by an answer. No history makes it disappear. -/
theorem C103_taken (s : List Obj) (o m : Bytes) (texts : Option (Bytes × Bytes)) (answer : Code) :
    (step s (.request o m texts answer)).2 = .nobody ↔ ∀ x ∈ s, x.name ≠ o := by
  simp only [step, request]
  rcases hx : getObj s o with _ | x
  · have := (find_none_iff (key := Obj.name) s o).1 hx
    simp only [true_iff]
    rintro x hmem rfl
    exact this (List.mem_map_of_mem hmem)
  · have hk := find_key (key := Obj.name) hx
    have hno : ¬ ∀ x ∈ s, x.name ≠ o := fun h => h x hk.2 hk.1
    simp only [hno, iff_false]
    rcases x.method m with _ | (k | _)
    · simp
    · simp
    · simp only [subscription]
      repeat' split
      all_goals simp

example : (step (run [] (day.take 1)).1 (.request dev up none .success)).2 = .object 1 := by decide +kernel

/-- While a thread publishes and nobody leaves, the event is sent to those who were listeners when it began, in their
order, whoever else comes meanwhile. -/
theorem C103_quiet (ls : List Bytes) (ts : List Turn) (hl : ∀ l, Turn.leave l ∉ ts)
    (hn : ls.length ≤ ts.count .next) : ∃ s, Loop.run (Loop.start ls) ts = .ok (s, ls) := by
  obtain ⟨s, hs⟩ := loop_quiet ls ts [] 0 hl
  refine ⟨s, ?_⟩
  simpa [Loop.start, List.take_of_length_le hn] using hs

example : ∃ s, Loop.run (Loop.start [ann, bob]) [.next, .join up, .next, .next] = .ok (s, [ann, bob]) :=
  C103_quiet _ _ (by intro l; simp) (by decide)

/-- The lock is given back before the handler of subscriptions runs, so that a listener can leave while another thread
publishes. The number of listeners was counted before: the loop reads beyond the end of the list and uses a NULL
address, whatever the listeners are and whoever leaves. -/
theorem C103_race_fails (ls : List Bytes) (l : Bytes) (hl : l ∈ ls) :
    Loop.run (Loop.start ls) (.leave l :: List.replicate ls.length .next) = .ub := by
  have hlen : (ls.erase l).length = ls.length - 1 := List.length_erase_of_mem hl
  have hpos : 0 < ls.length := List.length_pos_of_mem hl
  simp only [Loop.run, Loop.turn, Loop.start, Res.ok_bind]
  rw [loop_ends (ls.erase l) ls.length ls.length 0 (by omega) (by omega) (by omega)]
  rfl

example : Loop.run (Loop.start [ann]) [.leave ann, .next] = .ub := C103_race_fails [ann] ann (by simp)

/-- Before that, one who did not leave is passed over: `bob` is a listener all the time and gets nothing. -/
theorem C103_race_skips_fails : ∃ s : Loop, Loop.run (Loop.start [ann, bob, up]) [.next, .leave ann, .next] =
    .ok (s, [ann, up]) ∧ bob ∈ s.listeners ∧ s.pos = 2 :=
  ⟨⟨[bob, up], 2, 3⟩, by decide +kernel, by decide +kernel, rfl⟩

private def many : List (Bytes × Nat) := (List.range 31).map fun i => ([UInt8.ofNat (65 + i)], i)

/-- An object with 31 methods: registering an event is answered with OUT_OF_RESOURCES and yet the event is there, can be
published and subscribed to; the second call succeeds; but nobody can leave any more, for requests to unsubscribe go to
the handler of the object. -/
theorem C103_crowded_fails : ∃ (o e l : Bytes) (t : List (Bytes × Nat)),
    (run [] [.registerObj o 1 true, .registerMethodTable o t, .registerEvent o (some e) none, .publish o (some e),
      .registerEvent o (some e) none, .request o subscribeName (some (e, l)) .success,
      .request o unsubscribeName (some (e, l)) .success, .publish o (some e)]).2 =
    [.code .success, .code .success, .code .outOfResources, .sent [], .code .success,
      .answered (some .success) none none, .object 1, .sent [l]] :=
  ⟨dev, up, ann, many, by decide +kernel⟩

/-- Registering an event that is there is answered with success, but the callback given is dropped: the first one is
told of listeners. -/
theorem C103_callback_fails : ∃ (o e l : Bytes),
    (run [] [.registerObj o 1 true, .registerEvent o (some e) (some 2), .registerEvent o (some e) (some 3),
      .request o subscribeName (some (e, l)) .success]).2 =
    [.code .success, .code .success, .code .success, .answered (some .success) none (some (2, true))] :=
  ⟨dev, up, ann, by decide +kernel⟩

/-- The two reserved methods can be removed like others. Then registering events goes on to succeed, but requests to
subscribe go to the handler of the object. -/
theorem C103_reserved_fails : ∃ (o e e' l : Bytes),
    (run [] [.registerObj o 1 true, .registerEvent o (some e) none, .unregisterMethod o subscribeName,
      .registerEvent o (some e') none, .request o subscribeName (some (e', l)) .success]).2 =
    [.code .success, .code .success, .code .success, .code .success, .object 1] :=
  ⟨dev, up, ping, ann, by decide +kernel⟩

/-- Registering a method while another thread removes the object is safe in every order of their steps: the mutex is
held from looking the object up to the end. -/
theorem C103_lock (ws : List Bool) : ∃ s, (Two.mk registerMethodActs unregisterObjActs none false).run ws = .ok s := by
  have hl : ∀ s ∈ reach 12 [Two.mk registerMethodActs unregisterObjActs none false],
      ∀ w, ∃ q ∈ reach 12 [Two.mk registerMethodActs unregisterObjActs none false], s.turn w = .ok q := by
    decide +kernel
  obtain ⟨q, _, h⟩ := two_closed _ hl ws (Two.mk registerMethodActs unregisterObjActs none false) (by decide +kernel)
  exact ⟨q, h⟩

example : (Two.mk registerMethodActs unregisterObjActs none false).run
    [true, false, true, true, true, true, false, false, false, false] = .ok ⟨[], [], none, true⟩ := by decide +kernel

/-- Registering the first event of an object takes the mutex a second time for each of the two methods it adds. The
mutex refuses that, but gives way when it is unlocked: from the first of the two on the object is used without it, and
another thread that removes the object meanwhile frees it under the first. -/
theorem C103_nested_fails : ∃ ws, (Two.mk registerEventActs unregisterObjActs none false).run ws = .ub :=
  ⟨List.replicate 10 true ++ List.replicate 4 false ++ List.replicate 2 true, by decide +kernel⟩

/-- An object can be freed while a request for it is being handled: the callback thread holds its address without
looking it up. -/
theorem C103_dispatch_fails : ∃ ws, (Two.mk dispatchActs unregisterObjActs none false).run ws = .ub :=
  ⟨[false, false, false, false, true, true], by decide +kernel⟩

end Verif.Props
