import Verif.Proof.Interval

/-!
# C35: a subscription with an interval publishes the promised number of times
-/

namespace Verif.Props

open Verif Verif.Interval Verif.Spec.Interval

/-- Every second, for two seconds, with one failing read; then the subscription removes itself. -/
def tickOps : List Interval.Op :=
  [.publisher, .timeout true, .publisher, .timeout false, .publisher, .timeout true, .publisher, .timeout true,
    .publisher, .publisher, .publisher]

def tickSeen : List Interval.Out :=
  [.silent, .interval, .silent, .silent, .silent, .interval, .silent, .complete, .silent, .silent, .silent]

theorem tick_leads : Leads 1 2 (tickOps.zip tickSeen) ⟨true, 2, .ended, .away, none, none, false, false⟩ := by
  have := leads_run (i := 1) (d := 2) (h := []) (s := Interval.State.init) (es := tickOps) (os := tickSeen)
    (s' := ⟨true, 2, .ended, .away, none, none, false, false⟩) .nil (by decide)
  simpa using this

/-- C35: with a positive interval, every successful reading of the value sends one event, and nothing else does;
with a duration there are `duration / interval` of them, then one notice that it is over, and then nothing, whatever
else happens (unsubscribing, closing the handle). Without a duration, there is no notice.

Missing: the value is read once per interval, but a failed reading is not made up for and not counted
(`C35_outlasts_fails`); unsubscribing triggers one more (`C35_early_fails`); a huge duration or interval is
something else (`C35_negative_fails`, `C35_overflow_fails`). -/
theorem C35_count_partial {i d : Nat} (hi : 0 < i) {h : Spec.Interval.History} {s : Interval.State}
    (hx : Leads i d h s) :
    sent h = expected i d (reads h) ∧ (d ≠ 0 → reads h ≤ d / i + 1) := by
  unfold expected
  rcases leads_inv hi hx with ⟨h1, h2, h3, _⟩ | ⟨h1, h2, h3, _⟩
  · refine ⟨?_, fun hd => by have := h3 hd; omega⟩
    by_cases hd : d = 0
    · rw [if_pos hd, h1, h2]
    · rw [if_neg hd, if_pos (by rw [h2]; exact h3 hd), h1, h2]
  · exact ⟨by rw [if_neg h1, if_neg (by omega), h3], fun _ => by omega⟩

example : sent (tickOps.zip tickSeen) = [.interval, .interval, .complete] ∧ reads (tickOps.zip tickSeen) = 3 ∧
    expected 1 2 3 = [.interval, .interval, .complete] :=
  ⟨by decide, by decide, by decide⟩

example : sent (tickOps.zip tickSeen) = expected 1 2 (reads (tickOps.zip tickSeen)) :=
  (C35_count_partial (i := 1) (d := 2) (by decide) tick_leads).1

/-- C35, without a duration: as long as nobody unsubscribes or closes the handle, the next event can always come
after one more interval. The interval has to be below 25 days (`C35_overflow_fails`). -/
theorem C35_endless_partial {i : Nat} (hi : 0 < i) (hlt : i * 1000 < 2 ^ 31) {h : Spec.Interval.History}
    {s : Interval.State} (hx : Leads i (0 : Nat) h s) (hu : Undisturbed h) :
    ∃ h' s', Leads i (0 : Nat) (h ++ h') s' ∧ Undisturbed h' ∧ timeouts h' = 1 ∧ sent h' = [.interval] := by
  obtain ⟨h', s', h1, h2, h3, _, h4⟩ := next_event hi hlt hx hu (by simp)
  exact ⟨h', s', h1, h2, h3, by simpa using h4⟩

example : ∃ h' s', Leads (3600 : Nat) (0 : Nat) ([] ++ h') s' ∧ Undisturbed h' ∧ timeouts h' = 1 ∧
    sent h' = [.interval] :=
  C35_endless_partial (by decide) (by decide) .nil (by intro e he; cases he)

/-- C35, with a duration: as long as nobody unsubscribes or closes the handle, the subscription can always come to
its end: it needs at most as many more intervals as events are missing, and then it is not in the registry any
more. -/
theorem C35_ends_partial {i d : Nat} (hi : 0 < i) (hlt : i * 1000 < 2 ^ 31) (hd : d ≠ 0)
    {h : Spec.Interval.History} {s : Interval.State} (hx : Leads i d h s) (hu : Undisturbed h) :
    ∃ h' s', Leads i d (h ++ h') s' ∧ Undisturbed h' ∧ timeouts h' = d / i + 1 - reads h ∧
      sent (h ++ h') = List.replicate (d / i) .interval ++ [.complete] ∧ s'.present = false := by
  obtain ⟨h', s', h1, h2, h3, h4⟩ := completes hi hlt hd hx hu
  refine ⟨h', s', h1, h2, h3, ?_, h4.1⟩
  rcases leads_inv hi h1 with ⟨_, _, _, h | h | h⟩ | ⟨_, _, h, _⟩
  · rw [h4.2.1] at h; cases h
  · rw [h4.2.1] at h; cases h
  · rw [h4.2.2] at h; cases h.2
  · exact h

example : ∃ h' s', Leads (60 : Nat) (3600 : Nat) ([] ++ h') s' ∧ Undisturbed h' ∧ timeouts h' = 61 ∧
    sent ([] ++ h') = List.replicate 60 .interval ++ [.complete] ∧ s'.present = false :=
  C35_ends_partial (by decide) (by decide) (by decide) .nil (by intro e he; cases he)

/-- C35: after the answer to unsubscribing, no event comes. -/
theorem C35_silence_partial {i d : Int} {h : Spec.Interval.History} {s : Interval.State} (hx : Leads i d h s)
    {a b : Spec.Interval.History} {e : Interval.Op} (hab : h = a ++ (e, .unsubscribed) :: b) : sent b = [] :=
  unsubscribed_quiet hx a e b hab

/-- Unsubscribing during the first wait. -/
def stopOps : List Interval.Op :=
  [.publisher, .unsubscribe, .other, .other, .signal true, .publisher, .other, .other, .unsubscribe, .other]

def stopSeen : List Interval.Out :=
  [.silent, .silent, .silent, .silent, .interval, .silent, .silent, .unsubscribed, .silent, .unknown]

theorem stop_leads : Leads 60 0 (stopOps.zip stopSeen) ⟨false, 1, .ended, .away, none, none, false, false⟩ := by
  have := leads_run (i := 60) (d := 0) (h := []) (s := Interval.State.init) (es := stopOps) (os := stopSeen)
    (s' := ⟨false, 1, .ended, .away, none, none, false, false⟩) .nil (by decide)
  simpa using this

example : sent [(Interval.Op.unsubscribe, Interval.Out.silent), (.other, .unknown)] = [] :=
  C35_silence_partial stop_leads (a := (stopOps.zip stopSeen).take 7) (e := .other) (by decide)

/-- C35 fails: unsubscribing sends an event although no interval is over. The thread does not look whether it was
woken to stop (rbus_intervalsubscription.c:125-132). -/
theorem C35_early_fails : ∃ h s, Leads 60 0 h s ∧ timeouts h = 0 ∧ sent h = [.interval] :=
  ⟨_, _, stop_leads, by decide, by decide⟩

/-- C35 fails: a reading that fails is not counted (the `continue` of line 152), so the subscription outlasts its
duration: after any number of intervals it may not be over. -/
theorem C35_outlasts_fails {i d : Nat} (hi : 0 < i) (hlt : i * 1000 < 2 ^ 31) (n : Nat) :
    ∃ h s, Leads i d h s ∧ Undisturbed h ∧ timeouts h = n ∧ sent h = [] ∧ s.present = true := by
  have H : ∃ h, Leads i d h Interval.State.init ∧ Undisturbed h ∧ timeouts h = n ∧ sent h = [] := by
    induction n with
    | zero => exact ⟨[], .nil, by simp [Undisturbed], rfl, rfl⟩
    | succ n ih =>
      obtain ⟨h, h1, h2, h3, h4⟩ := ih
      refine ⟨h ++ [(.publisher, .silent), (.timeout false, .silent)], ?_, ?_, ?_, ?_⟩
      · refine leads_run h1 (es := [.publisher, .timeout false]) (os := [.silent, .silent]) ?_
        simp only [Interval.run, start_step (i := i) (d := d) (by omega) (by omega), Res.ok_bind]
        rfl
      · intro e he
        rw [List.mem_append] at he
        rcases he with he | he
        · exact h2 e he
        · simp at he
          rcases he with rfl | rfl <;> simp
      · unfold timeouts at *
        rw [List.countP_append, h3]
        rfl
      · rw [sent_append, h4]
        rfl
  obtain ⟨h, h1, h2, h3, h4⟩ := H
  exact ⟨h, _, h1, h2, h3, h4, rfl⟩

example : ∃ h s, Leads (60 : Nat) (60 : Nat) h s ∧ Undisturbed h ∧ timeouts h = 1000 ∧ sent h = [] ∧ s.present = true :=
  C35_outlasts_fails (by decide) (by decide) 1000

/-- C35 fails: unsubscribing after the notice of the end was sent, and before the subscription has removed itself,
blocks both threads for ever, and with them everyone who needs the handle's subscriptions. The unsubscribing thread
waits for the publishing thread while it holds the mutex that the publishing thread needs to remove the
subscription (rbus.c:1145, rbus_intervalsubscription.c:205 and 291). -/
theorem C35_deadlock_fails : ∃ h s, Leads 60 60 h s ∧ sent h = [.interval, .complete] ∧ Stuck 60 60 s := by
  have h1 := leads_run (i := 60) (d := 60) (h := []) (s := Interval.State.init)
    (es := [.publisher, .timeout true, .publisher, .timeout true, .unsubscribe, .other, .other, .publisher])
    (os := [.silent, .interval, .silent, .complete, .silent, .silent, .silent, .silent])
    (s' := ⟨false, 1, .wantSubs, .join, some .publisher, some .other, true, false⟩) .nil (by decide)
  exact ⟨_, _, h1, by decide, fun e => by cases e <;> rfl⟩

/-- C35 fails: also when the notice is sent while the unsubscribing thread looks for the record. -/
theorem C35_deadlock2_fails : ∃ h s, Leads 60 60 h s ∧ s.un = .wantRecords ∧ Stuck 60 60 s := by
  have h1 := leads_run (i := 60) (d := 60) (h := []) (s := Interval.State.init)
    (es := [.publisher, .timeout true, .publisher, .timeout true, .publisher, .unsubscribe, .other])
    (os := [.silent, .interval, .silent, .complete, .silent, .silent, .silent])
    (s' := ⟨true, 1, .wantSubs, .wantRecords, some .publisher, some .other, true, false⟩) .nil (by decide)
  exact ⟨_, _, h1, rfl, fun e => by cases e <;> rfl⟩

/-- C35 fails: closing the provider's handle frees the subscription and leaves the thread running; with the next
interval it uses freed memory (rbus.c:3213-3229 stops only the value-change polling). -/
theorem C35_close_fails : ∃ h s, Leads 60 0 h s ∧ Interval.step 60 0 s (.timeout true) = .ub := by
  have h1 := leads_run (i := 60) (d := 0) (h := []) (s := Interval.State.init)
    (es := [.publisher, .close]) (os := [.silent, .silent])
    (s' := ⟨true, 0, .asleep, .away, none, none, true, true⟩) .nil (by decide)
  exact ⟨_, _, h1, by decide⟩

/-- C35 fails: a duration from 2³¹ seconds on comes out negative, and the first event already is the notice that it
is over. The consumer may ask for it: the type is `uint32_t` (include/rbus.h:298). -/
theorem C35_negative_fails (n : Nat) (h31 : 2 ^ 31 ≤ n) (h32 : n < 2 ^ 32) :
    ∃ h s, Leads (int32 1) (int32 n) h s ∧ sent h = [.complete] := by
  have e1 : int32 1 = 1 := by decide
  have e2 := int32_large h31 h32
  have h1 := leads_run (i := int32 1) (d := int32 n) (h := []) (s := Interval.State.init)
    (es := [.publisher, .timeout true]) (os := [.silent, .complete])
    (s' := ⟨true, 0, .wantRecords, .away, none, none, true, false⟩) .nil (by
      rw [e1]
      simp only [Interval.run, start_step (i := 1) (d := int32 n) (by decide) (by decide), Res.ok_bind]
      rw [publish_negative e2 _ rfl rfl]
      rfl)
  exact ⟨_, _, h1, rfl⟩

example : ∃ h s, Leads (int32 1) (int32 4294967295) h s ∧ sent h = [.complete] :=
  C35_negative_fails _ (by decide) (by decide)

/-- C35 fails: an interval of 25 days or more overflows in the thread's very first computation (line 124). -/
theorem C35_overflow_fails (d : Int) (n : Nat) (hn : 2147484 ≤ n) (h31 : n < 2 ^ 31) :
    Interval.step (int32 n) d Interval.State.init .publisher = .ub := by
  apply start_overflow
  rw [int32_small h31]
  omega

example : Interval.step (int32 2592000) 0 Interval.State.init .publisher = .ub :=
  C35_overflow_fails 0 2592000 (by decide) (by decide)

end Verif.Props
