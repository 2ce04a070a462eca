import Verif.Proof.Pending

/-!
# C21, C22: requests and their responses
-/

namespace Verif.Props

open Verif Verif.Pending

/-- A story for the examples: two requests wait; the second is answered first, and twice; a response to
neither arrives; the first is told that its object is gone; a third gives up when nobody holds the
mutex, and its response comes late. -/
def pendingTale : List Event :=
  [.lock, .push 0, .sendOk 0, .other, .lock, .push 1, .sendOk 1,
    .readerLock 3 false, .readerScan, .wake 1, .readerUnlock, .readerLock 3 false, .readerScan,
    .readerUnlock, .relock 1, .take 1, .finish 1, .readerLock 99 false, .readerScan, .readerUnlock,
    .readerLock 1 true, .readerScan, .readerUnlock, .wake 0, .relock 0, .take 0, .finish 0,
    .lock, .push 2, .sendOk 2, .timeout 2, .giveUp 2, .readerLock 4 false, .readerScan, .readerUnlock]

/-- **C21, what is proved.** In every execution in which no request that timed out leaves the list while
another thread is in its section, whatever responses arrive, late, twice, or with unknown numbers: a
request that succeeds returns a response that arrived after it was sent and before it returned, that
carries the number it was sent with, and that is not marked undeliverable; and no response is returned
twice. Missing: executions in which a timeout strikes while another thread uses the list, see
`C21_timeout_overlap_fails`; requests sent by the reader thread. -/
theorem C21_response_belongs_partial {es s os} (h : Pending.run init es = .ok (s, os)) :
    ∀ a e r m b, es.zip os = a ++ (e, .returned r (.ok m)) :: b →
      m.undeliverable = false ∧ (∃ q, m.seq = q ∧ AnsweredBy a r q m) ∧
      (∀ e' r' m', (e', Obs.returned r' (.ok m')) ∈ a ++ b → m'.num ≠ m.num) := by
  have hx := (exec_of_run h).2
  have key : ∀ a e r m b, es.zip os = a ++ (e, .returned r (.ok m)) :: b →
      m.undeliverable = false ∧ (∃ q, m.seq = q ∧ AnsweredBy a r q m) ∧
      (∀ e' r' m', (e', Obs.returned r' (.ok m')) ∈ a → m'.num ≠ m.num) := by
    intro a e r m b hab
    obtain ⟨s1, s2, hx1, hs⟩ := hx.at a _ _ b hab
    have hi := inv hx1
    have : ∃ y, s1.entries r = some y ∧ y.place = .taken (.ok m) := by
      cases e with
      | readerScan =>
        simp only [Pending.step] at hs
        split at hs
        · obtain ⟨x, hx, hs⟩ := res_bind_ok hs
          cases x <;> cases hs
        · cases hs
      | _ =>
        simp only [Pending.step] at hs
        (repeat' split at hs) <;> cases hs <;> exact ⟨_, by assumption, rfl⟩
    obtain ⟨y, hy, hpl⟩ := this
    have hg := hi.got r y _ hy hpl
    cases hr : y.response with
    | none => rw [hr] at hg; cases hg
    | some m' =>
      rw [hr] at hg
      simp only [outcome] at hg
      split at hg
      · cases hg
      · rename_i hu
        cases hg
        obtain ⟨_, h2, h3⟩ := hi.resp r y m hy hr
        exact ⟨by simpa using hu, ⟨y.seq, h2, h3⟩, fun e' r' m' hm => (hi.numR r y m hy hr).2.2 e' r' m' hm⟩
  intro a e r m b hab
  obtain ⟨h1, h2, h3⟩ := key a e r m b hab
  refine ⟨h1, h2, ?_⟩
  intro e' r' m' hm
  rcases List.mem_append.mp hm with hm | hm
  · exact h3 e' r' m' hm
  · obtain ⟨b1, b2, rfl⟩ := List.append_of_mem hm
    have := (key (a ++ (e, .returned r (.ok m)) :: b1) e' r' m' b2 (by simp [hab])).2.2 e r m (by simp)
    exact fun h => this h.symm

example : (match Pending.run init pendingTale with
    | .ok (_, os) => decide (os.filter (fun o => match o with
        | .returned _ _ => true
        | _ => false)
      = [.returned 1 (.ok ⟨1, 3, false⟩), .returned 0 .noObject, .returned 2 .timeout])
    | _ => false) = true := by
  decide +kernel

/-- **C21, what is proved.** A request returns at most once, and its failures have their causes: it is
told that the object is no longer available only if a response with its number said so, and it reports
a timeout only if its wait timed out, no data only if its wait ended without a response, and an error of
sending only if sending failed. -/
theorem C21_failures_explained_partial {es s os} (h : Pending.run init es = .ok (s, os)) :
    ∀ a e r res b, es.zip os = a ++ (e, .returned r res) :: b →
      (∀ e' res', (e', Obs.returned r res') ∉ a ++ b) ∧
      match res with
      | .noObject => ∃ m q, m.undeliverable = true ∧ m.seq = q ∧ AnsweredBy a r q m
      | .timeout => ∃ o, (Event.timeout r, o) ∈ a
      | .noData => ∃ o, (Event.spurious r, o) ∈ a
      | .sendError => e = .sendFail r
      | .ok _ => True := by
  have hx := (exec_of_run h).2
  have shape : ∀ s1 e r res s2, Pending.step s1 e = .ok (s2, .returned r res) →
      ∃ y, s1.entries r = some y ∧ (y.place = .taken res ∨ e = .sendFail r ∧ res = .sendError ∨
        y.place = .timedOut ∧ res = .timeout) := by
    intro s1 e r res s2 hs
    cases e with
    | readerScan =>
      simp only [Pending.step] at hs
      split at hs
      · obtain ⟨x, hx, hs⟩ := res_bind_ok hs
        cases x <;> cases hs
      · cases hs
    | _ =>
      simp only [Pending.step] at hs
      (repeat' split at hs) <;> cases hs <;> exact ⟨_, by assumption, by simp⟩
  have once : ∀ a e r res b, es.zip os = a ++ (e, .returned r res) :: b →
      ∀ e' res', (e', Obs.returned r res') ∉ a := by
    intro a e r res b hab e' res'
    obtain ⟨s1, s2, hx1, hs⟩ := hx.at a _ _ b hab
    obtain ⟨y, hy, _⟩ := shape s1 e r res s2 hs
    exact not_mem_of_entry (inv hx1) hy e' res'
  intro a e r res b hab
  refine ⟨?_, ?_⟩
  · intro e' res' hm
    rcases List.mem_append.mp hm with hm | hm
    · exact once a e r res b hab e' res' hm
    · obtain ⟨b1, b2, rfl⟩ := List.append_of_mem hm
      exact once (a ++ (e, .returned r res) :: b1) e' r res' b2 (by simp [hab]) e res (by simp)
  · obtain ⟨s1, s2, hx1, hs⟩ := hx.at a _ _ b hab
    have hi := inv hx1
    obtain ⟨y, hy, hpl⟩ := shape s1 e r res s2 hs
    rcases hpl with hpl | ⟨he, rfl⟩ | ⟨hpl, rfl⟩
    · have hg := hi.got r y _ hy hpl
      cases hr : y.response with
      | none =>
        rw [hr] at hg
        subst hg
        exact hi.woken r y hy (by rw [hpl]; rfl) hr
      | some m =>
        rw [hr] at hg
        simp only [outcome] at hg
        obtain ⟨_, h2, h3⟩ := hi.resp r y m hy hr
        split at hg <;> subst hg
        · exact ⟨m, y.seq, by assumption, h2, h3⟩
        · trivial
    · exact he
    · exact hi.late r y hy hpl

/-- **C21, what is proved.** As long as no more than 2^32 numbers were taken, all requests were sent with
different numbers; so a response with the number of a request is a response to that request. -/
theorem C21_numbers_distinct_partial {es s os} (h : Pending.run init es = .ok (s, os))
    (hn : numbers es ≤ 4294967296) :
    ∀ a e r q b, es.zip os = a ++ (e, .sent r q) :: b → ∀ e' r', (e', Obs.sent r' q) ∉ a ++ b := by
  intro a e r q b hab e' r' hm
  have hx := exec_of_run h
  have hd := sent_nodup hx.2 (by rw [List.map_fst_zip (by omega)]; exact hn)
  rw [hab] at hd
  simp only [sentNumbers, List.filterMap_append, List.filterMap_cons] at hd
  have hperm := List.perm_middle.nodup_iff.mp hd
  rw [List.nodup_cons] at hperm
  apply hperm.1
  rw [← List.filterMap_append]
  exact List.mem_filterMap.mpr ⟨(e', .sent r' q), hm, rfl⟩

example : (match Pending.run init pendingTale with
    | .ok (_, os) => decide (numbers pendingTale ≤ 4294967296 ∧ os.filter (fun o => match o with
        | .sent _ _ => true
        | _ => false) = [.sent 0 1, .sent 1 3, .sent 2 4])
    | _ => false) = true := by
  decide +kernel

/-- **C22, what is proved.** In every execution, a thread that reads or changes the list of pending
requests or an entry in it, or unlocks the mutex, owns the mutex, unless it is a request leaving after
a timeout; and without such a request there is no undefined behaviour. Missing: requests that time out,
see `C22_timeout_without_mutex_fails`. -/
theorem C22_list_used_under_mutex_partial :
    (∀ es s os, Pending.run init es = .ok (s, os) → ∀ e s' o t, Pending.step s e = .ok (s', o) →
      uses e = some t → (∀ r, e ≠ .giveUp r) → s.owner = some t) ∧
    (∀ es, (∀ r, Event.giveUp r ∉ es) → Pending.run init es ≠ .ub) := by
  refine ⟨?_, ?_⟩
  · intro es s os h e s' o t hs hu hg
    exact uses_owner (inv (exec_of_run h).2) hs hu hg
  · intro es hg hr
    obtain ⟨h', s', e, he, hx, hs⟩ := Exec.undefined (step := Pending.step) (s₀ := init) .nil
      (run := Pending.run) (fun _ => rfl) (fun _ _ _ => rfl) es hr
    have hi := inv hx
    cases e with
    | giveUp r => exact hg r he
    | readerScan =>
      simp only [Pending.step] at hs
      split at hs
      · rename_i m hm
        have hd : scan s'.entries m s'.pending ≠ .ub := by
          refine scan_defined ?_
          intro r hr
          obtain ⟨y, hy, _⟩ := (hi.pend r).mp hr
          rw [hy]; simp
        cases hsc : scan s'.entries m s'.pending with
        | ok x => rw [hsc] at hs; cases x <;> cases hs
        | fail => rw [hsc] at hs; cases hs
        | ub => exact hd hsc
      · cases hs
    | _ =>
      simp only [Pending.step] at hs
      (repeat' split at hs) <;> cases hs

example : Pending.run init (pendingTale.take 27) ≠ .ub ∧ uses (.finish 1) = some (.request 1) ∧
    ∀ r, Event.giveUp r ∉ pendingTale.take 27 := by
  have : ∀ r, Event.giveUp r ∉ pendingTale.take 27 := by
    intro r hr
    simp [pendingTale] at hr
  exact ⟨C22_list_used_under_mutex_partial.2 _ this, rfl, this⟩

/-- **C22 fails.** Whenever a request that timed out leaves, it removes its entry and unlocks the mutex
without owning it. -/
theorem C22_timeout_without_mutex_fails {es s os} (h : Pending.run init es = .ok (s, os)) :
    ∀ r s' o, Pending.step s (.giveUp r) = .ok (s', o) →
      uses (.giveUp r) = some (.request r) ∧ s.owner ≠ some (.request r) := by
  intro r s' o hs
  refine ⟨rfl, ?_⟩
  simp only [Pending.step] at hs
  split at hs
  · split at hs
    · rename_i ho; rw [ho]; simp
    · cases hs
  · cases hs

example : ∃ s os, Pending.run init (pendingTale.take 31) = .ok (s, os) ∧
    ∃ s' o, Pending.step s (.giveUp 2) = .ok (s', o) := by
  refine ⟨_, _, rfl, _, _, rfl⟩

/-- **C21 fails, C22 fails.** If the wait of a request times out while the reader thread looks through
the list, the entry is removed and its memory given up under the reader's hands. -/
theorem C21_timeout_overlap_fails (q : Nat) (u : Bool) :
    Pending.run init [.lock, .push 0, .sendOk 0, .timeout 0, .readerLock q u, .giveUp 0] = .ub := by
  rfl

end Verif.Props
