import Verif.Proof.Dispatch

/-!
# C23, C24: message callbacks and listeners
-/

namespace Verif.Props

open Verif Verif.Dispatch

/-- A story for the examples: the inbox listener, two listeners, three messages, one for an id nobody
has; the second listener is removed while messages wait. -/
def dispatchStory : List Event :=
  [.addWithId 1 [73] 100, .add [65] 101, .add [66] 102, .receive ⟨10001, 1⟩, .fetch, .receive ⟨10000, 2⟩,
    .receive ⟨7, 3⟩, .look, .call, .remove [66], .next, .look, .receive ⟨10001, 4⟩, .call, .next, .look,
    .call, .next, .look, .call]

/-- **C23.** In every execution the messages taken up for delivery are a beginning of the messages
accepted, in order of arrival, each once; and the callbacks called are those found for the messages
taken up, in that order, each once, except that the last may be still to come. -/
theorem C23_fifo {es s os} (h : Dispatch.run init es = .ok (s, os)) :
    (lookups (es.zip os)).map (·.1) <+: accepted (es.zip os) ∧
    calls (es.zip os) <+: (lookups (es.zip os)).filterMap (fun x => x.2.map (fun c => (x.1, c))) ∧
    (lookups (es.zip os)).length ≤ (calls (es.zip os)).length
      + ((lookups (es.zip os)).filter (fun x => x.2.isNone)).length + 1 := by
  have hi := qinv (exec_of_run h).2
  refine ⟨?_, ?_, ?_⟩
  · rw [hi.hand, ← hi.flow]
    refine (List.prefix_append_right_inj _).mpr ?_
    have hf := hi.front
    revert hf
    cases s.worker <;> simp only [holdsFront, inHand, List.nil_prefix, implies_true]
    all_goals
      rintro ⟨r, hr⟩
      rw [hr]
      simp
  · rw [hi.call]
    exact List.prefix_append _ _
  · have h1 := congrArg List.length hi.call
    have h2 : ((pendingCall s.worker).filterMap (fun x => x.2.map (fun c => (x.1, c)))).length ≤ 1 := by
      cases s.worker with
      | found a m cb => cases cb <;> simp [pendingCall]
      | _ => simp [pendingCall]
    have h3 : ∀ l : List (Msg × Option Nat), l.length = (l.filterMap (fun x => x.2.map (fun c => (x.1, c)))).length
        + (l.filter (fun x => x.2.isNone)).length := by
      intro l
      induction l with
      | nil => rfl
      | cons x l ih =>
        obtain ⟨m, cb⟩ := x
        cases cb <;> simp <;> omega
    have h4 := h3 (lookups (es.zip os))
    rw [List.length_append] at h1
    omega

example : (match Dispatch.run init dispatchStory with
    | .ok (_, os) =>
      decide (accepted (dispatchStory.zip os) = [⟨10001, 1⟩, ⟨10000, 2⟩, ⟨7, 3⟩, ⟨10001, 4⟩] ∧
        calls (dispatchStory.zip os) = [(⟨10001, 1⟩, 102), (⟨10000, 2⟩, 101)])
    | _ => false) = true := by
  decide +kernel

/-- **C23.** A message is discarded exactly when more than 25 messages wait: those accepted and not yet
released, the one whose callback is running among them. -/
theorem C23_discards_only_beyond_limit {es s os} (h : Dispatch.run init es = .ok (s, os)) :
    ∀ a m o b, es.zip os = a ++ (.receive m, o) :: b →
      (o = .dropped ∧ 25 < waiting a) ∨ (o = .queued ∧ waiting a ≤ 25) := by
  intro a m o b hab
  obtain ⟨s1, s2, hx, hs⟩ := (exec_of_run h).2.at a _ _ b hab
  rw [waiting_eq (qinv hx)]
  simp only [Dispatch.step] at hs
  by_cases hl : s1.queue.length > maxMessages
  · rw [if_pos hl] at hs
    cases hs
    exact .inl ⟨rfl, hl⟩
  · rw [if_neg hl] at hs
    cases hs
    exact .inr ⟨rfl, by unfold maxMessages at hl; omega⟩

/-- 26 messages are queued while a callback runs; the next is discarded. -/
example : (match Dispatch.run init (List.replicate 27 (.receive ⟨1, 1⟩)) with
    | .ok (_, os) => decide (os.getLast? = some .dropped ∧ os.dropLast.all (· = .queued))
    | _ => false) = true := by
  decide +kernel

/-- **C23.** Every accepted message is taken up: from any point of an execution at which the callback
thread has a message in hand and is not told to stop, three steps of it for each waiting message
deliver all of them, in order, and leave none. -/
theorem C23_all_delivered {es s os item m} (h : Dispatch.run init es = .ok (s, os))
    (hr : s.running = true) (hw : s.worker = .fetched item m) :
    ∃ s' os', Dispatch.run init
        (es ++ (List.replicate (waiting (es.zip os)) [Event.look, .call, .next]).flatten)
        = .ok (s', os ++ os') ∧
      waiting ((es ++ (List.replicate (waiting (es.zip os)) [Event.look, .call, .next]).flatten).zip
        (os ++ os')) = 0 ∧
      (lookups ((es ++ (List.replicate (waiting (es.zip os)) [Event.look, .call, .next]).flatten).zip
        (os ++ os'))).map (·.1) = accepted (es.zip os) := by
  have hx := exec_of_run h
  have hi := qinv hx.2
  have hf := hi.front
  rw [hw] at hf
  obtain ⟨q, hq⟩ := hf
  rw [waiting_eq hi]
  have hd := run_append h (drains s hr item m q hw hq)
  refine ⟨_, _, hd, ?_, ?_⟩
  · rw [waiting_eq (qinv (exec_of_run hd).2)]; rfl
  · have hi' := qinv (exec_of_run hd).2
    rw [hi'.hand]
    have h1 := hi'.flow
    simp only [List.map_nil, List.append_nil] at h1
    simp only [inHand, List.append_nil]
    have happ : ∀ x y, accepted (x ++ y) = accepted x ++ accepted y := by
      intro x y; simp [accepted]
    rw [h1, List.zip_append hx.1, happ]
    have : accepted
        ((List.replicate s.queue.length [Event.look, .call, .next]).flatten.zip
          (s.queue.map (fun x => handles x.2 (lookup x.2.control s.slots))).flatten) = [] := by
      unfold accepted
      rw [List.filterMap_eq_nil_iff]
      rintro ⟨e, o⟩ hm
      have he := (List.of_mem_zip hm).1
      simp only [List.mem_flatten, List.mem_replicate] at he
      obtain ⟨l, ⟨_, rfl⟩, he⟩ := he
      simp only [List.mem_cons, List.not_mem_nil, or_false] at he
      rcases he with rfl | rfl | rfl <;> rfl
    rw [this, List.append_nil]

example : (match Dispatch.run init (dispatchStory.take 7) with
    | .ok (s, os) => decide (s.running = true ∧ s.worker = .fetched 0 ⟨10001, 1⟩ ∧
        waiting ((dispatchStory.take 7).zip os) = 3)
    | _ => false) = true := by
  decide +kernel

/-- **C24, what is proved.** If every listener was added under an id not in use at that time, then a
message finds the callback of the listener that was added under its id and not removed since, and no
other; ids in use are distinct, and never more than 128. Missing: ids added twice, see
`C24_same_id_fails`; and what happens to a message that was looked up before its listener was removed,
see `C24_removed_listener_called_fails`. -/
theorem C24_message_finds_its_listener_partial {es s os} (h : Dispatch.run init es = .ok (s, os))
    (hf : FreshIds (es.zip os)) :
    ((live (es.zip os)).map (·.id)).Nodup ∧ (live (es.zip os)).length ≤ 128 ∧
    ∀ a e m cb b, es.zip os = a ++ (e, .looked m cb) :: b →
      cb = ((live a).find? (fun l => l.id = m.control)).map (·.callback) := by
  have hx := (exec_of_run h).2
  have hi := tinv hx hf
  refine ⟨hi.nodup, ?_, ?_⟩
  · rw [← hi.perm.length_eq, ← show maxListeners = 128 from rfl, ← hi.len]
    exact List.length_filterMap_le _ _
  · intro a e m cb b hab
    obtain ⟨s1, s2, hx1, hs⟩ := hx.at a _ _ b hab
    have hi1 := tinv hx1 (fun a' e' id b' h' => hf a' e' id (b' ++ (e, .looked m cb) :: b) (by simp [hab, h']))
    have : cb = lookup m.control s1.slots := by
      cases e <;> simp only [Dispatch.step, addListener, removeListener] at hs <;>
        (repeat' split at hs) <;> cases hs <;> rfl
    rw [this, lookup_eq]
    rw [find_perm hi1.perm ((hi1.perm.map _).nodup_iff.mpr hi1.nodup)]

/-- **C24, what is proved.** Under the same condition adding fails exactly when 128 listeners are
registered, removing by id removes the listener with that id and fails exactly when there is none, and
removing by expression removes a listener with that expression and fails exactly when there is none. -/
theorem C24_table_operations_partial {es s os} (h : Dispatch.run init es = .ok (s, os))
    (hf : FreshIds (es.zip os)) :
    ∀ a e o b, es.zip os = a ++ (e, o) :: b → match e with
      | .addWithId id _ _ => (o = .added id ∧ (live a).length < 128) ∨ (o = .full ∧ (live a).length = 128)
      | .add _ _ => (∃ id, o = .added id ∧ (live a).length < 128) ∨ (o = .full ∧ (live a).length = 128)
      | .removeWithId id => (o = .removed id ∧ ∃ l ∈ live a, l.id = id) ∨
          (o = .notFound ∧ ∀ l ∈ live a, l.id ≠ id)
      | .remove x => (∃ l ∈ live a, l.expr = x ∧ o = .removed l.id) ∨
          (o = .notFound ∧ ∀ l ∈ live a, l.expr ≠ x)
      | _ => True := by
  intro a e o b hab
  obtain ⟨s1, s2, hx1, hs⟩ := (exec_of_run h).2.at a _ _ b hab
  have hi := tinv hx1 (fun a' e' id b' h' => hf a' e' id (b' ++ (e, o) :: b) (by simp [hab, h']))
  have hle : (live a).length ≤ 128 := by
    rw [← hi.perm.length_eq, ← show maxListeners = 128 from rfl, ← hi.len]
    exact List.length_filterMap_le _ _
  have hadd : ∀ l : Listener, (fill l s1.slots = none ↔ (live a).length = 128) := by
    intro l
    rw [fill_none, hi.perm.length_eq, hi.len]; rfl
  cases e with
  | addWithId id x cb =>
    simp only [Dispatch.step, addListener] at hs
    split at hs <;> cases hs
    · rename_i t ht
      have := mt (hadd ⟨id, x, cb⟩).mpr (by simp [ht])
      exact .inl ⟨rfl, by omega⟩
    · rename_i ht
      exact .inr ⟨rfl, (hadd _).mp ht⟩
  | add x cb =>
    simp only [Dispatch.step, addListener] at hs
    split at hs <;> cases hs
    · rename_i t ht
      have := mt (hadd ⟨s1.nextId, x, cb⟩).mpr (by simp [ht])
      exact .inl ⟨_, rfl, by omega⟩
    · rename_i ht
      exact .inr ⟨rfl, (hadd _).mp ht⟩
  | removeWithId id =>
    simp only [Dispatch.step, removeListener] at hs
    split at hs <;> cases hs
    · rename_i t i ht
      obtain ⟨_, l, h2, h3, h4, _⟩ := clear_some ht
      simp only [decide_eq_true_eq] at h3
      refine .inl ⟨by rw [← h3, h4], l, hi.perm.mem_iff.mp h2, h3⟩
    · rename_i ht
      refine .inr ⟨rfl, fun l hl => ?_⟩
      simpa using clear_none ht l (hi.perm.mem_iff.mpr hl)
  | remove x =>
    simp only [Dispatch.step, removeListener] at hs
    split at hs <;> cases hs
    · rename_i t i ht
      obtain ⟨_, l, h2, h3, h4, _⟩ := clear_some ht
      simp only [decide_eq_true_eq] at h3
      exact .inl ⟨l, hi.perm.mem_iff.mp h2, h3, by rw [h4]⟩
    · rename_i ht
      refine .inr ⟨rfl, fun l hl => ?_⟩
      simpa using clear_none ht l (hi.perm.mem_iff.mpr hl)
  | _ => trivial

/-- **C24, what is proved.** The condition on ids holds if the ids the application chooses itself are
below 10000 and not in use when chosen, and the library chose fewer than 2^32 - 10000 ids. -/
theorem C24_library_ids_are_new_partial {es s os} (h : Dispatch.run init es = .ok (s, os))
    (hg : GoodIds (es.zip os)) (hn : adds es ≤ 4294967296 - 10001) : FreshIds (es.zip os) := by
  have hx := exec_of_run h
  refine (ids_below hx.2 hg ?_).2.2
  rw [List.map_fst_zip (by omega)]
  exact hn

/-- The listeners of the story: three, then two; message 4 for the removed one finds nothing. -/
example : (match Dispatch.run init dispatchStory with
    | .ok (_, os) => decide (live (dispatchStory.zip os) = [⟨1, [73], 100⟩, ⟨10000, [65], 101⟩] ∧
        (lookups (dispatchStory.zip os)).getLast? = some (⟨10001, 4⟩, none))
    | _ => false) = true := by
  decide +kernel

/-- The story meets the conditions. -/
example : ∃ s os, Dispatch.run init dispatchStory = .ok (s, os) ∧ FreshIds (dispatchStory.zip os) ∧
    adds dispatchStory ≤ 4294967296 - 10001 := by
  have h : (match Dispatch.run init dispatchStory with
      | .ok (_, os) => freshCheck [] (dispatchStory.zip os)
      | _ => false) = true := by decide +kernel
  split at h
  · rename_i s os hr
    exact ⟨s, os, hr, .of_check h, by decide⟩
  · cases h

/-- **C24 fails.** An id in use is accepted again: two listeners are registered under one id, and the
messages for that id all go to the first. -/
theorem C24_same_id_fails (id : Nat) (x y : Bytes) (c d : Nat) (b : Nat) :
    ∃ s, Dispatch.run init [.addWithId id x c, .addWithId id y d, .receive ⟨id, b⟩, .fetch, .look, .call]
      = .ok (s, [.added id, .added id, .queued, .nothing, .looked ⟨id, b⟩ (some c), .called ⟨id, b⟩ c]) ∧
      some ⟨id, x, c⟩ ∈ s.slots ∧ some ⟨id, y, d⟩ ∈ s.slots := by
  refine ⟨{ init with
    slots := some ⟨id, x, c⟩ :: some ⟨id, y, d⟩ :: List.replicate 126 none
    queue := [(0, ⟨id, b⟩)], made := 1, worker := .returned 0 ⟨id, b⟩ }, ?_, by simp, by simp⟩
  have hl : init = ⟨none :: none :: List.replicate 126 none, 10000, [], 0, .idle, true⟩ := rfl
  rw [hl]
  simp [Dispatch.run, Dispatch.step, addListener, fill, lookup, front, maxMessages]

/-- **C24 fails.** A callback can be called after its listener was removed and the removal reported:
the lookup and the call are not one step. -/
theorem C24_removed_listener_called_fails (id : Nat) (x : Bytes) (c b : Nat) :
    ∃ s, Dispatch.run init [.addWithId id x c, .receive ⟨id, b⟩, .fetch, .look, .removeWithId id, .call]
      = .ok (s, [.added id, .queued, .nothing, .looked ⟨id, b⟩ (some c), .removed id, .called ⟨id, b⟩ c]) := by
  refine ⟨{ init with queue := [(0, ⟨id, b⟩)], made := 1, worker := .returned 0 ⟨id, b⟩ }, ?_⟩
  have hl : init = ⟨none :: List.replicate 127 none, 10000, [], 0, .idle, true⟩ := rfl
  rw [hl]
  simp [Dispatch.run, Dispatch.step, addListener, removeListener, fill, clear, lookup, front,
    maxMessages]

end Verif.Props
