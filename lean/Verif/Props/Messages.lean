import Verif.Proof.Messages

/-!
# C73: message listeners

The full statement: a handler added for a topic is called, with its own user data, for every message on
that topic, in order, until it is removed, and for no other; removing it affects no other listener; and
a listener is there exactly from when adding it succeeded until it is removed. The code needs the
application's help for all of it: see the `_fails` theorems and `Allowed`.
-/

namespace Verif.Props

open Verif.Messages (Held Msg For View Careful Plain Allowed callFor)

/-- An application that is careful (`Allowed`) meets no undefined behaviour, whatever the threads do.
Missing for the full property: the cases ruled out by `Allowed`. -/
theorem C73_no_undefined_partial (inbox : Bytes) (direct : List Bytes) (h : Messages.History) (s : Messages.State)
    (hx : Exec Messages.step (Messages.init inbox direct) h s) (hc : Careful inbox h) (e : Messages.Op)
    (ha : Allowed inbox (Messages.after h) e) : Messages.step s e ≠ .ub :=
  (Messages.step_all (Messages.inv_of_exec hx hc) ha).1

/-- Every call of a handler, for a message that came through the router, is that of a listener added
before for the topic of the message, with the handler and the user data it was added with, and the
message was sent on the topic before. Missing: applications that are not careful. -/
theorem C73_called_for_own_topic_partial (inbox : Bytes) (direct : List Bytes) (h : Messages.History)
    (s : Messages.State) (hx : Exec Messages.step (Messages.init inbox direct) h s) (hc : Careful inbox h)
    (a b : Messages.History) (handler user : Nat) (m : Msg)
    (hab : h = a ++ (.call false, .called handler user m) :: b) :
    (Messages.Op.add m.topic handler user m.control, Messages.Out.success) ∈ a ∧
    ∃ o, (Messages.Op.publish m.topic m.body, o) ∈ a := by
  obtain ⟨⟨m', w⟩, h1, h2⟩ := Messages.out_of_exec hx hc hab
  obtain ⟨s1, s2, hxa, h3⟩ := hx.at a _ _ b hab
  have hca : Careful inbox a := fun a' e' o' b' h' =>
    hc a' e' o' (b' ++ (.call false, .called handler user m) :: b) (by rw [hab, h']; simp)
  have ho := Messages.origin_of_exec hxa hca
  cases w with
  | listener x =>
    simp only [callFor, Messages.Out.called.injEq] at h2
    obtain ⟨rfl, rfl, rfl⟩ := h2
    have ht := (Messages.inv_of_exec hxa hca).handTopic m x h1
    have hid : x.id = m.control := Messages.hand_id hxa false m x h1
    rw [← ht, ← hid]
    refine ⟨(ho.hand m _ h1).2 x rfl, ?_⟩
    rw [ht]
    exact (ho.hand m _ h1).1
  | connection => simp [callFor] at h2
  | nobody => simp [callFor] at h2

/-- A message sent on a topic is put into the queue once for the listener on that topic, unless more
than 25 messages wait; it is then dropped. Without a listener nothing is put into the queue. Missing:
applications that are not careful; no message should be dropped. -/
theorem C73_sent_reaches_listener_partial (inbox : Bytes) (direct : List Bytes) (h : Messages.History)
    (s : Messages.State) (hx : Exec Messages.step (Messages.init inbox direct) h s) (hc : Careful inbox h)
    (a b : Messages.History) (topic : Bytes) (body : Nat) (o : Messages.Out)
    (hab : h = a ++ (.publish topic body, o) :: b) (hne : topic ≠ inbox) :
    ∃ ms d, o = .queued ms d ∧
      (∀ x ∈ (Messages.after a).held, x.priv = false → x.topic = topic →
        (((Messages.after a).waiting false).length ≤ 25 ∧ ms = [⟨x.id, topic, body⟩] ∧ d = 0) ∨
        (25 < ((Messages.after a).waiting false).length ∧ ms = [] ∧ d = 1)) ∧
      ((∀ x ∈ (Messages.after a).held, x.priv = false → x.topic ≠ topic) → ms = [] ∧ d = 0) := by
  obtain ⟨ms, d, h1, h2⟩ := Messages.out_of_exec hx hc hab
  exact ⟨ms, d, h1, (h2 hne).1, (h2 hne).2⟩

/-- Messages are taken from the queue of a connection in the order they came, and the call made for a
message is that of the listener which, when it was taken, was there with the id of the message on that
connection; there is none if it was removed. Missing: applications that are not careful. -/
theorem C73_calls_in_order_partial (inbox : Bytes) (direct : List Bytes) (h : Messages.History)
    (s : Messages.State) (hx : Exec Messages.step (Messages.init inbox direct) h s) (hc : Careful inbox h)
    (a b : Messages.History) (p : Bool) (o : Messages.Out) :
    (h = a ++ (.look p, o) :: b → ∃ m r, o = .looked m ∧ (Messages.after a).waiting p = m :: r ∧
      (Messages.after (a ++ [(.look p, o)])).hand p = some (m, Messages.whom (Messages.after a).held p m)) ∧
    (h = a ++ (.call p, o) :: b → ∃ x, (Messages.after a).hand p = some x ∧ o = callFor x) := by
  constructor
  · intro hab
    obtain ⟨m, r, h1, h2⟩ := Messages.out_of_exec hx hc hab
    subst h1
    refine ⟨m, r, rfl, h2, ?_⟩
    rw [Messages.after_snoc]
    exact Messages.put_same _ _ _
  · intro hab
    exact Messages.out_of_exec hx hc hab

/-- As long as adding a listener never failed and there were none on private connections, asking
whether there is a listener on a topic says what is the case, and there is no memory left over from
removed listeners. Missing: the other cases, see `C73_has_listener_private_fails` and
`C73_has_listener_full_fails`. -/
theorem C73_has_listener_partial (inbox : Bytes) (direct : List Bytes) (h : Messages.History)
    (s : Messages.State) (hx : Exec Messages.step (Messages.init inbox direct) h s) (hc : Careful inbox h)
    (hp : Plain h) (topic : Bytes) :
    (∃ b, Messages.step s (.has topic) = .ok (s, .has b) ∧
      (b = true ↔ ∃ x ∈ (Messages.after h).held, x.topic = topic)) ∧
    s.heap.length = (Messages.after h).held.length := by
  have hi := Messages.inv_of_exec hx hc
  have hq := Messages.pinv_of_exec hx hc hp
  constructor
  · obtain ⟨b, h1, h2⟩ := Messages.hasListener_ok hi.keys topic s.vec hi.vecIn
    refine ⟨b, by simp [Messages.step, h1, Res.pure_eq], h2.trans ?_⟩
    constructor
    · rintro ⟨a, -, c, hc', he⟩
      have : c ∈ s.heap.map (·.2) := List.mem_map.mpr ⟨_, hc', rfl⟩
      rw [hq.ctxs] at this
      obtain ⟨x, hx', rfl⟩ := List.mem_map.mp this
      exact ⟨x, hx', he⟩
    · rintro ⟨x, hx', he⟩
      have : Messages.ctxOf x ∈ s.heap.map (·.2) := by rw [hq.ctxs]; exact List.mem_map.mpr ⟨x, hx', rfl⟩
      obtain ⟨⟨k, c⟩, h3, h4⟩ := List.mem_map.mp this
      simp only at h4
      subst h4
      refine ⟨k, ?_, _, h3, he⟩
      rw [← hq.vec]
      exact List.mem_map.mpr ⟨_, h3, rfl⟩
  · have := congrArg List.length hq.ctxs
    simpa using this

/-- Topics and an inbox for the examples. -/
private def topicA : Bytes := [65]
private def topicB : Bytes := [66]
private def box : Bytes := [73]

/-- Two listeners, a message for each, one listener removed before its message is taken. -/
private def busyMessages : List Messages.Op :=
  [.add topicA 1 2 3, .add topicB 4 5 6, .publish topicB 7, .publish topicA 8, .look false, .call false,
   .remove topicA 3, .look false, .call false, .has topicA, .has topicB]

private def busyMessagesOut : List Messages.Out :=
  [.success, .success, .queued [⟨6, topicB, 7⟩] 0, .queued [⟨3, topicA, 8⟩] 0, .looked ⟨6, topicB, 7⟩,
   .called 4 5 ⟨6, topicB, 7⟩, .success, .looked ⟨3, topicA, 8⟩, .ignored ⟨3, topicA, 8⟩, .has false, .has true]

private def busyMessagesEnd : Messages.State :=
  match Messages.run (Messages.init box []) busyMessages with
  | .ok r => r.1
  | _ => Messages.init box []

private theorem busyMessages_exec :
    Exec Messages.step (Messages.init box []) (busyMessages.zip busyMessagesOut) busyMessagesEnd := by
  simpa using (Exec.extend (step := Messages.step) (s₀ := Messages.init box []) .nil (run := Messages.run)
    (fun _ => rfl) (fun _ _ _ => rfl) busyMessages busyMessagesEnd busyMessagesOut rfl).2

private theorem busyMessages_careful : Careful box (busyMessages.zip busyMessagesOut) := by
  refine Messages.careful_of ?_
  simp [busyMessages, busyMessagesOut, Messages.CarefulFrom, Allowed, Messages.see, Messages.start, Messages.put,
    Messages.inboxId, topicA, topicB, box, Messages.NotInHand]

private theorem busyMessages_plain : Plain (busyMessages.zip busyMessagesOut) := by
  simp [Plain, busyMessages, busyMessagesOut]

example : Messages.step busyMessagesEnd (.remove topicB 6) ≠ .ub :=
  C73_no_undefined_partial box [] _ _ busyMessages_exec busyMessages_careful _ (by
    simp [busyMessages, busyMessagesOut, Messages.after, Allowed, Messages.see, Messages.start, Messages.put,
      Messages.NotInHand])

example : (Messages.Op.add topicB 4 5 6, Messages.Out.success) ∈ (busyMessages.zip busyMessagesOut).take 5 :=
  (C73_called_for_own_topic_partial box [] _ _ busyMessages_exec busyMessages_careful
    ((busyMessages.zip busyMessagesOut).take 5) ((busyMessages.zip busyMessagesOut).drop 6) 4 5 ⟨6, topicB, 7⟩ rfl).1

example : ∃ ms d, Messages.Out.queued [⟨3, topicA, 8⟩] 0 = .queued ms d :=
  (C73_sent_reaches_listener_partial box [] _ _ busyMessages_exec busyMessages_careful
    ((busyMessages.zip busyMessagesOut).take 3) ((busyMessages.zip busyMessagesOut).drop 4) topicA 8 _ rfl
    (by decide)).imp fun _ h => h.imp fun _ h => h.1

example : ∃ x, (Messages.after ((busyMessages.zip busyMessagesOut).take 8)).hand false = some x ∧
    Messages.Out.ignored ⟨3, topicA, 8⟩ = callFor x :=
  (C73_calls_in_order_partial box [] _ _ busyMessages_exec busyMessages_careful
    ((busyMessages.zip busyMessagesOut).take 8) ((busyMessages.zip busyMessagesOut).drop 9) false _).2 rfl

example : busyMessagesEnd.heap.length = 1 :=
  (C73_has_listener_partial box [] _ _ busyMessages_exec busyMessages_careful busyMessages_plain topicA).2

/-! ## What goes wrong -/

/-- Two listeners added with the same id, for different topics: all messages for the second are given to
the handler of the first. The documentation of `rbusMessage_AddListener` does not mention the id
(rbus_message.h:99-111), the sample and the tests use 0 throughout; for data sent as is, the id is
chosen by each provider, all of which count from 3 (rbus_subscriptions.c:126), so two providers give a
consumer the same one. -/
theorem C73_same_id_fails (h1 u1 h2 u2 b : Nat) : ∃ s,
    Messages.run (Messages.init box []) [.add topicA h1 u1 0, .add topicB h2 u2 0, .publish topicB b, .look false,
      .call false] = .ok (s, [.success, .success, .queued [⟨0, topicB, b⟩] 0, .looked ⟨0, topicB, b⟩,
      .called h1 u1 ⟨0, topicB, b⟩]) :=
  ⟨_, rfl⟩

/-- Two listeners on the same topic, as two subscriptions to one event's data as is have it: when the
second is removed, the router forgets the route of the first, so that the first gets nothing any more. -/
theorem C73_same_topic_lost_fails (h1 u1 h2 u2 b : Nat) : ∃ s,
    Messages.run (Messages.init box []) [.add topicA h1 u1 3, .add topicA h2 u2 4, .remove topicA 4,
      .publish topicA b, .look false, .call false] = .ok (s, [.success, .success, .success,
      .queued [⟨4, topicA, b⟩] 0, .looked ⟨4, topicA, b⟩, .ignored ⟨4, topicA, b⟩]) :=
  ⟨_, rfl⟩

/-- And the context freed is that of the first: a message for it which waits already is handled with
freed memory. -/
theorem C73_same_topic_fails (h1 u1 h2 u2 b : Nat) :
    Messages.run (Messages.init box []) [.add topicA h1 u1 3, .add topicA h2 u2 4, .publish topicA b,
      .remove topicA 4, .look false, .call false] = .ub :=
  rfl

set_option maxRecDepth 8192 in
/-- Removing a listener with another id than it was added with returns an error, but frees its context;
the listener stays, and the next message is handled with freed memory. -/
theorem C73_wrong_id_fails (h1 u1 b : Nat) :
    (∃ s, Messages.run (Messages.init box []) [.add topicA h1 u1 3, .remove topicA 4]
      = .ok (s, [.success, .busError])) ∧
    Messages.run (Messages.init box []) [.add topicA h1 u1 3, .remove topicA 4, .publish topicA b, .look false,
      .call false] = .ub :=
  ⟨⟨_, rfl⟩, rfl⟩

/-- A listener is removed while the callback thread has found its context and not called it yet: freed
memory is used. -/
theorem C73_remove_during_call_fails (h1 u1 b : Nat) :
    Messages.run (Messages.init box []) [.add topicA h1 u1 3, .publish topicA b, .look false, .remove topicA 3,
      .call false] = .ub :=
  rfl

/-- When an id is used again, a message that waited for the removed listener is given to the new one,
which listens to another topic. -/
theorem C73_id_again_fails (h1 u1 h2 u2 b : Nat) : ∃ s,
    Messages.run (Messages.init box []) [.add topicA h1 u1 3, .publish topicA b, .remove topicA 3,
      .add topicB h2 u2 3, .look false, .call false] = .ok (s, [.success, .queued [⟨3, topicA, b⟩] 0, .success,
      .success, .looked ⟨3, topicA, b⟩, .called h2 u2 ⟨3, topicA, b⟩]) :=
  ⟨_, rfl⟩

/-- Removing a listener of a private connection does not remove its context, because the contexts are
searched for another name than they were stored under: the listener still seems to be there, and the
memory is not given back. -/
theorem C73_has_listener_private_fails (h1 u1 : Nat) : ∃ s,
    Messages.run (Messages.init box [topicA]) [.addPrivate topicA h1 u1 3, .removePrivate topicA 3, .has topicA]
      = .ok (s, [.success, .success, .has true]) ∧ s.heap.length = 1 :=
  ⟨_, rfl, rfl⟩

set_option maxRecDepth 8192 in
/-- When all listeners are removed, those of private connections stay in the connection's table with
their contexts freed: the next message is handled with freed memory. -/
theorem C73_remove_all_private_fails (h1 u1 b : Nat) :
    Messages.run (Messages.init box [topicA]) [.addPrivate topicA h1 u1 3, .removeAll, .direct ⟨3, topicA, b⟩,
      .look true, .call true] = .ub :=
  rfl

/-- After adding a listener failed because the table is full, there seems to be one on the topic. -/
theorem C73_has_listener_full_fails (inbox : Bytes) (direct : List Bytes) (h : Messages.History)
    (s s' : Messages.State) (hx : Exec Messages.step (Messages.init inbox direct) h s) (hc : Careful inbox h)
    (e : Bytes) (handler user id : Nat) (ha : Allowed inbox (Messages.after h) (.add e handler user id))
    (hs : Messages.step s (.add e handler user id) = .ok (s', .busError)) :
    Messages.step s' (.has e) = .ok (s', .has true) := by
  have hi := ((Messages.step_all (Messages.inv_of_exec hx hc) ha).2 _ _ hs).1
  obtain ⟨b, h1, h2⟩ := Messages.hasListener_ok hi.keys e s'.vec hi.vecIn
  have hb : b = true := by
    rw [h2]
    simp only [Messages.step, Res.ok.injEq, Messages.addListener] at hs
    split at hs
    · cases hs
    · simp only [Prod.mk.injEq, and_true] at hs
      subst hs
      exact ⟨s.next, by simp [Messages.newCtx], ⟨e, handler, user, id⟩, by simp [Messages.newCtx], rfl⟩
  subst hb
  simp [Messages.step, h1, Res.pure_eq]

private def manyMessages : List Messages.Op :=
  (List.range 128).map (fun i => .add [UInt8.ofNat i, 66] 1 2 (i + 3)) ++ [.has [127, 66], .has [128, 66]]

example : (match Messages.run (Messages.init box []) manyMessages with
    | .ok (_, os) => os.drop 126 == [.success, .busError, .has true, .has false]
    | _ => false) = true := by decide +kernel

/-- After all listeners were removed while there was at least one, every further call that looks at the
listeners reads freed memory: the pointers are not taken out of the vector. -/
theorem C73_after_remove_all_fails (inbox : Bytes) (direct : List Bytes) (h : Messages.History)
    (s s' : Messages.State) (o : Messages.Out) (hx : Exec Messages.step (Messages.init inbox direct) h s)
    (hc : Careful inbox h) (hp : Plain h) (hl : (Messages.after h).held ≠ [])
    (hs : Messages.step s .removeAll = .ok (s', o)) (e : Bytes) (id : Nat) :
    Messages.step s' (.has e) = .ub ∧ Messages.step s' (.remove e id) = .ub ∧ Messages.step s' .removeAll = .ub := by
  have hq := Messages.pinv_of_exec hx hc hp
  simp only [Messages.step] at hs
  obtain ⟨s1, h1, hs⟩ := res_bind_ok hs
  cases hs
  obtain ⟨h2, h3⟩ := Messages.removeEach_heap h1
  cases hv : s.vec with
  | nil =>
    have h4 := congrArg List.length hq.vec
    have h5 := congrArg List.length hq.ctxs
    rw [hv] at h4
    simp only [List.length_map, List.length_nil] at h4 h5
    rw [h4] at h5
    exact (hl (List.length_eq_zero_iff.mp h5.symm)).elim
  | cons a r =>
    have h4 : Messages.ctxAt s' a = .ub := Messages.ctxAt_ub (h3 a (by rw [hv]; simp))
    rw [hv] at h2
    refine ⟨?_, ?_, ?_⟩
    · simp [Messages.step, h2, Messages.hasListener, h4, Res.ub_bind]
    · simp [Messages.step, Messages.removeListener, Messages.dropCtx, h2, Messages.takeFirst, h4, Res.ub_bind]
    · simp [Messages.step, h2, Messages.removeEach, h4, Res.ub_bind]

example : Messages.run (Messages.init box []) [.add topicA 1 2 3, .removeAll, .has topicB] = .ub := rfl

end Verif.Props
