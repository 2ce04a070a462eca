import Verif.Proof.AsyncSubscribe

/-!
# C34: asynchronous subscriptions

`Leads sc timeout h s`: `h` is what happened so far, with what was seen of it, and nothing undefined happened.
Requests, cancellations and closing of handles come at any point between the worker's steps, with any answers from
the bus at any times. `timeout n` is the subscribe timeout of handle `n` in milliseconds. See Spec/AsyncSubscribe.
-/

namespace Verif.Props

open Verif Verif.Async
open Verif.Spec.Time (Normal nanos)
open Verif.Spec.Async

/-! ## A small world for the examples -/

/-- A whole second. -/
def second (n : Nat) : Time.Time := ⟨n, 0⟩

/-- What was seen, or nothing if it is undefined; all handles have a timeout of ten seconds. -/
def asyncSeen (es : List Async.Op) : Option (List Out) :=
  match Async.run false (fun _ => 10000) State.init es with
  | .ok (_, os) => some os
  | _ => none

theorem leads_of_run {sc : Bool} {T : Nat → Nat} {es : List Async.Op} {s : State} {os : List Out}
    (h : Async.run sc T State.init es = .ok (s, os)) : Leads sc T (es.zip os) s := by
  have := Exec.extend (step := Async.step sc T) (h := []) (s := State.init) .nil (run := Async.run sc T)
    (fun _ => rfl) (fun _ _ _ => rfl) es s os h
  simpa [Leads] using this.2

theorem asyncSeen_last {es : List Async.Op} {e : Async.Op} {os : List Out} {o : Out}
    (h : asyncSeen (es ++ [e]) = some (os ++ [o])) :
    ∃ s s', Leads false (fun _ => 10000) (es.zip os) s ∧
      Async.step false (fun _ => 10000) s e = .ok (s', o) := by
  unfold asyncSeen at h
  cases hr : Async.run false (fun _ => 10000) State.init (es ++ [e]) with
  | fail => rw [hr] at h; cases h
  | ub => rw [hr] at h; cases h
  | ok p =>
    obtain ⟨s', os'⟩ := p
    rw [hr] at h
    cases h
    obtain ⟨s, h1, h2⟩ := run_snoc hr
    exact ⟨s, s', leads_of_run h1, h2⟩

/-- For the examples: after one request at `t`, only answers that come in time. -/
def inTime (t : Time.Time) (e : Async.Op) : Bool :=
  (times e).all (fun u => decide (0 ≤ u.nsec ∧ u.nsec < 1000000000)) &&
    match e with
    | .request _ _ _ _ => false
    | .answer _ u => decide (nanos t ≤ nanos u ∧ nanos u < nanos t + 2 ^ 32 * 1000000)
    | _ => true

theorem clock_of_one {T : Nat → Nat} {n : Nat} {e : Bytes} {f : Filter.Filter} {t : Time.Time} {o : Out}
    {rest : Spec.Async.History} (hT : ∀ n, T n + 60000 < 2 ^ 32) (ht : Normal t)
    (h : rest.all (fun x => inTime t x.1) = true) : Clock T ((.request n e f t, o) :: rest) := by
  have hin : ∀ x ∈ rest, inTime t x.1 = true := fun x hx => List.all_eq_true.1 h x hx
  have hreq : ∀ x ∈ rest, ∀ n e f u, x.1 ≠ .request n e f u := by
    intro x hx n e f u heq
    have := hin x hx
    rw [heq] at this
    simp [inTime] at this
  refine ⟨hT, ?_, ?_⟩
  · intro x hx u hu
    rcases List.mem_cons.1 hx with rfl | hx
    · simp only [times, List.mem_singleton] at hu
      rw [hu]; exact ht
    · have := hin x hx
      simp only [inTime, Bool.and_eq_true, List.all_eq_true, decide_eq_true_eq] at this
      exact this.1 u hu
  · rw [List.pairwise_cons]
    constructor
    · intro y hy n' e' f' u a u' h1 h2
      cases h1
      have := hin y hy
      rw [h2] at this
      simp only [inTime, Bool.and_eq_true, decide_eq_true_eq] at this
      exact this.2
    · rw [List.pairwise_iff_forall_sublist]
      intro x y hxy n' e' f' u a u' h1
      exact absurd h1 (hreq x (hxy.subset (by simp)) n' e' f' u)

/-- One attempt without a provider at the given second. -/
def noProvider (n : Nat) : List Async.Op :=
  [.check (second n) (second n), .look, .answer .notFound (second n), .look]

/-- A request at second 1 that is tried three times. -/
def tried : List Async.Op :=
  .request 1 [101] .null (second 1) :: (noProvider 1 ++ noProvider 2 ++ noProvider 4)

/-- What is seen of it. -/
def triedSeen : List Out :=
  [.accepted 0, .sending, .attempt 0, .retry 0 (second 2), .silent, .sending, .attempt 0,
    .retry 0 (second 4), .silent, .sending, .attempt 0, .retry 0 (second 8), .silent]

/-! ## One callback -/

/-- C34 (partial: as long as nothing undefined happens, see below). The callback of a request is called for
requests that were made, at most once, and not after the request was taken back. -/
theorem C34_at_most_once_partial {sc : Bool} {timeout : Nat → Nat} {h : Spec.Async.History} {s : State}
    (hl : Leads sc timeout h s) :
    (completions h).Nodup ∧
    ∀ a b e id c, h = a ++ (e, Out.done id c) :: b → (∃ n t, Accepted a id n t) ∧ ¬ Withdrawn a id := by
  refine ⟨(leads_inv hl).once, ?_⟩
  intro a b e id c heq
  subst heq
  obtain ⟨s1, s2, h1, h2⟩ := Exec.at hl _ _ _ _ rfl
  have hi := leads_inv h1
  cases e with
  | answer w t =>
    simp only [Async.step] at h2
    split at h2
    · split at h2
      · cases h2
      · rename_i x hfx
        obtain ⟨hx, rfl⟩ := find_id hfx
        split at h2
        · cases h2
        split at h2
        · cases h2
        · cases h2
          exact ⟨⟨_, _, hi.known x hx⟩, fun hw => (hi.gone _ hw).2 x hx rfl⟩
    · cases h2
  | request n ev f t =>
    simp only [Async.step] at h2
    split at h2
    · cases h2
    · obtain ⟨found, _, h2⟩ := res_bind_ok h2
      cases found <;> cases h2
  | cancel n ev f =>
    obtain ⟨found, _, h2⟩ := res_bind_ok h2
    cases found <;> cases h2
  | close n =>
    obtain ⟨found, _, h2⟩ := res_bind_ok h2
    cases found <;> cases h2
  | check t t' =>
    simp only [Async.step] at h2
    split at h2
    · split at h2 <;> cases h2
    · cases h2
  | look =>
    simp only [Async.step] at h2
    split at h2
    · split at h2
      · cases h2
      · split at h2 <;> cases h2
    · cases h2
    · cases h2
  | back =>
    simp only [Async.step] at h2
    split at h2
    · split at h2
      · cases h2
      · split at h2 <;> cases h2
    · cases h2
  | finish =>
    simp only [Async.step] at h2
    split at h2
    · split at h2 <;> cases h2
    · cases h2

example : asyncSeen (tried ++ [.check (second 8) (second 8), .look, .answer (.accepted 7) (second 8), .back, .finish,
      .look, .check (second 9) (second 9)]) =
    some (triedSeen ++ [.sending, .attempt 0, .done 0 0, .silent, .silent, .silent, .sleeping (second 70)]) := by decide +kernel

/-- C34 (partial: as long as nothing undefined happens, see below). Whenever the worker goes to sleep, at time
`t` until `w`, each request made so far has had its callback or was taken back, unless its timeout is still to come;
the worker will then wake up before the timeout. So a request that is not taken back has had its callback once the
worker is at rest after the timeout. -/
theorem C34_settled_partial {sc : Bool} {timeout : Nat → Nat} {h : Spec.Async.History} {s s' : State}
    {t t' w : Time.Time} (hl : Leads sc timeout h s)
    (hs : Async.step sc timeout s (.check t t') = .ok (s', .sleeping w))
    (hc : Clock timeout (h ++ [(.check t t', .sleeping w)])) {id n : Nat} {t0 : Time.Time}
    (ha : Accepted h id n t0) :
    (∃ c, Completed h id c) ∨ Withdrawn h id ∨
      (nanos t < nanos t0 + timeout n * 1000000 ∧ nanos w ≤ nanos t0 + timeout n * 1000000) := by
  rcases (leads_inv hl).settled _ _ _ ha with ⟨x, hx, rfl, rfl, rfl⟩ | h1 | h1
  · refine Or.inr (Or.inr ?_)
    have ht := leads_tinv hl hc.left
    have hn : Normal t := hc.normal (.check t t', .sleeping w) (by simp) t (by simp [times])
    simp only [Async.step] at hs
    split at hs
    · split at hs
      · cases hs
      · rename_i hcond
        cases hs
        have hne : s.items ≠ [] := by intro h0; rw [h0] at hx; cases hx
        obtain ⟨e1, e2, e3⟩ := earliest_le (l := s.items)
          (later_ns hn (ms := maxWait + 1000) (by decide)).1 (fun y hy => (ht y hy).2.1)
        have hlt : ¬ Time.compare (earliest s.items (Time.later t (BitVec.ofNat 32 (maxWait + 1000)))) t ≤ 0 :=
          fun h0 => hcond ⟨hne, h0⟩
        rw [compare_le e1 hn] at hlt
        have := e3 x hx
        have := (ht x hx).2.2
        omega
    · cases hs
  · exact Or.inr (Or.inl h1)
  · exact Or.inl h1

example : ∃ h s s' w, Leads false (fun _ => 10000) h s ∧
    Async.step false (fun _ => 10000) s (.check (second 4) (second 4)) = .ok (s', .sleeping w) ∧
    Clock (fun _ => 10000) (h ++ [(.check (second 4) (second 4), .sleeping w)]) ∧ Accepted h 0 1 (second 1) ∧
    w = second 8 := by
  obtain ⟨s, s', h1, h2⟩ := asyncSeen_last (es := tried) (e := .check (second 4) (second 4)) (os := triedSeen)
    (o := .sleeping (second 8)) (by decide +kernel)
  refine ⟨_, s, s', _, h1, h2, ?_, ⟨[101], .null, ?_⟩, rfl⟩
  · exact clock_of_one (fun _ => by decide) (by simp [Normal, second]) (by decide +kernel)
  · simp [tried, triedSeen]

/-! ## Attempts -/

/-- C34 (partial: as long as nothing undefined happens, see below). Each answer to an attempt completes the request
or puts it off. It completes it if a provider was found, with success or the provider's own code, and if the timeout
has passed, with the code for that. Otherwise the next attempt is due after a second, doubled with each earlier
retry, at most a minute, and never later than the timeout. -/
theorem C34_attempts_partial {sc : Bool} {timeout : Nat → Nat} {h : Spec.Async.History} {s s' : State}
    {a : Async.Answer} {t : Time.Time} {o : Out} (hl : Leads sc timeout h s)
    (hs : Async.step sc timeout s (.answer a t) = .ok (s', o))
    (hc : Clock timeout (h ++ [(.answer a t, o)])) :
    ∃ id n t0, Accepted h id n t0 ∧
      match a with
      | .accepted _ => o = .done id 0
      | .refused e => e ≠ 0 → o = .done id e
      | .lost _ => ∃ c, c ≠ 0 ∧ o = .done id c
      | .notFound =>
        if nanos t0 + timeout n * 1000000 ≤ nanos t then o = .done id 20
        else ∃ d, o = .retry id d ∧
          nanos d = min (nanos t + delay (retries h id) * 1000000) (nanos t0 + timeout n * 1000000) := by
  have hi := leads_inv hl
  simp only [Async.step] at hs
  split at hs
  · split at hs
    · cases hs
    · rename_i x hfx
      obtain ⟨hx, rfl⟩ := find_id hfx
      obtain ⟨n1, n2, n3, n4⟩ := hc.answered (hi.known x hx)
      have hel := elapsed_eq n1 n2 n3 n4
      refine ⟨x.id, x.handle, x.start, hi.known x hx, ?_⟩
      split at hs
      · cases hs
      split at hs
      · rename_i hcond
        obtain ⟨rfl, hcond⟩ := hcond
        cases hs
        simp only []
        rw [if_neg (by omega)]
        exact ⟨_, rfl, (retry_due (hi.waits x hx) (hc.timeouts x.handle) n1 n2 n3 n4 hcond).2⟩
      · rename_i hcond
        cases hs
        cases a with
        | accepted i => rfl
        | refused e => intro he; simp [code, he]
        | lost e =>
          refine ⟨_, ?_, rfl⟩
          simp only [code]
          split
          · assumption
          · decide
        | notFound =>
          simp only []
          rw [if_pos]
          · rfl
          · simp only [true_and, Nat.not_lt] at hcond
            omega
  · cases hs

example : ∃ h s s', Leads false (fun _ => 10000) h s ∧
    Async.step false (fun _ => 10000) s (.answer .notFound (second 8)) = .ok (s', .retry 0 (second 11)) ∧
    Clock (fun _ => 10000) (h ++ [(.answer .notFound (second 8), .retry 0 (second 11))]) ∧ retries h 0 = 3 := by
  obtain ⟨s, s', h1, h2⟩ := asyncSeen_last (es := tried ++ [.check (second 8) (second 8), .look])
    (e := .answer .notFound (second 8)) (os := triedSeen ++ [.sending, .attempt 0])
    (o := .retry 0 (second 11)) (by decide +kernel)
  exact ⟨_, s, s', h1, h2, clock_of_one (fun _ => by decide) (by simp [Normal, second]) (by decide +kernel),
    by decide +kernel⟩

example :
    asyncSeen (tried ++ noProvider 8 ++ [.check (second 11) (second 11), .look, .answer .notFound (second 11)]) =
    some (triedSeen ++ [.sending, .attempt 0, .retry 0 (second 11), .silent, .sending, .attempt 0, .done 0 20]) := by
  decide +kernel

/-- C34 (partial: as long as nothing undefined happens, see below). No attempt is made before it is due. -/
theorem C34_not_early_partial {sc : Bool} {timeout : Nat → Nat} {h : Spec.Async.History} {s s' : State} {id : Nat}
    (hl : Leads sc timeout h s) (hs : Async.step sc timeout s .look = .ok (s', .attempt id))
    (hc : Clock timeout h) :
    ∃ d now, dueTime h id = some d ∧ workerTime h = some now ∧ nanos d ≤ nanos now := by
  have hi := leads_inv hl
  simp only [Async.step] at hs
  split at hs
  · rename_i now i hw
    split at hs
    · cases hs
    · rename_i x hfx
      obtain ⟨hx, rfl⟩ := find_id hfx
      split at hs
      · rename_i hle
        cases hs
        refine ⟨x.due, now, hi.due x hx, hi.clock now (Or.inl ⟨_, hw⟩), ?_⟩
        exact (compare_le ((leads_tinv hl hc x hx).2.1) (hc.worker (hi.clock now (Or.inl ⟨_, hw⟩)))).1 hle
      · cases hs
  · cases hs
  · cases hs

example : ∃ h s s', Leads false (fun _ => 10000) h s ∧
    Async.step false (fun _ => 10000) s .look = .ok (s', .attempt 0) ∧ Clock (fun _ => 10000) h ∧
    dueTime h 0 = some (second 8) ∧ workerTime h = some (second 9) := by
  obtain ⟨s, s', h1, h2⟩ := asyncSeen_last (es := tried ++ [.check (second 9) (second 9)])
    (e := .look) (os := triedSeen ++ [.sending]) (o := .attempt 0) (by decide +kernel)
  exact ⟨_, s, s', h1, h2, clock_of_one (fun _ => by decide) (by simp [Normal, second]) (by decide +kernel),
    by decide +kernel, by decide +kernel⟩

/-! ## Failures -/

/-- C34 fails when a handle with two pending requests is closed. Only the first is taken back: the callback of the
second is called after its handle was closed, or the worker touches the closed handle. -/
theorem C34_close_fails :
    (∀ a, a ≠ .notFound → asyncSeen [.request 1 [97] .null (second 1), .request 1 [98] .null (second 1),
      .close 1, .check (second 1) (second 1), .look, .answer a (second 1)] =
        some [.accepted 0, .accepted 1, .closed (some 0), .sending, .attempt 1, .done 1 (code a)]) ∧
    Async.run false (fun _ => 10000) State.init [.request 1 [97] .null (second 1), .request 1 [98] .null (second 1),
      .close 1, .check (second 1) (second 1), .look, .answer .notFound (second 1)] = .ub ∧
    ∀ i, Async.run false (fun _ => 10000) State.init [.request 1 [97] .null (second 1),
      .request 1 [98] .null (second 1), .close 1, .check (second 1) (second 1), .look, .answer (.accepted i) (second 1),
      .back] = .ub := by
  refine ⟨?_, rfl, fun _ => rfl⟩
  intro a h2
  cases a with
  | notFound => exact absurd rfl h2
  | accepted i => rfl
  | refused e => rfl
  | lost e => rfl

/-- C34 fails when a request is taken back during an attempt: whatever the answer, the worker then uses what was
freed. -/
theorem C34_cancel_fails (a : Async.Answer) (t : Time.Time) :
    asyncSeen [.request 1 [97] .null (second 1), .check (second 1) (second 1), .look, .cancel 1 [97] .null] =
      some [.accepted 0, .sending, .attempt 0, .cancelled 0] ∧
    Async.run false (fun _ => 10000) State.init [.request 1 [97] .null (second 1), .check (second 1) (second 1), .look,
      .cancel 1 [97] .null, .answer a t] = .ub :=
  ⟨rfl, rfl⟩

/-- C34 fails for a request that is made in the callback of a failed one for the same event: it is refused. -/
theorem C34_again_fails (a : Async.Answer) (ha : a ≠ .notFound) :
    asyncSeen [.request 1 [97] .null (second 1), .check (second 1) (second 1), .look, .answer a (second 1),
      .request 1 [97] .null (second 1)] =
        some [.accepted 0, .sending, .attempt 0, .done 0 (code a), .refused] := by
  cases a with
  | notFound => exact absurd rfl ha
  | accepted i => rfl
  | refused e => rfl
  | lost e => rfl

/-- C34 fails for attempts that a provider does not answer in a usable way: the callback may be given any error
code at all, for instance the one for a timeout, in the first attempt. -/
theorem C34_lost_fails (c : Int) (hc : c ≠ 0) :
    ∃ a, a ≠ Async.Answer.notFound ∧ (∀ e, a ≠ .refused e) ∧ (∀ i, a ≠ .accepted i) ∧
      asyncSeen [.request 1 [97] .null (second 1), .check (second 1) (second 1), .look, .answer a (second 1)] =
        some [.accepted 0, .sending, .attempt 0, .done 0 c] := by
  refine ⟨.lost c, by simp, by simp, by simp, ?_⟩
  have : asyncSeen [.request 1 [97] .null (second 1), .check (second 1) (second 1), .look,
      .answer (.lost c) (second 1)] = some [.accepted 0, .sending, .attempt 0, .done 0 (code (.lost c))] := rfl
  rw [this]
  simp [code, hc]

end Verif.Props
