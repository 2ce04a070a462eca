import Verif.Proof.Answer

/-!
# C49: a provider answers every call at most once, in the order of arrival
-/

namespace Verif.Props

open Verif Verif.Answer Verif.Spec.Answer

/-- C49: callbacks are called for the calls in the order in which they arrived and once for each; when no callback is
running, all have been served.

Missing: executions that come to undefined behaviour, see `C49_undefined`; what comes before the callback thread
hands a message over is in C23 and C24. -/
theorem C49_order_partial {h s} (hx : Exec Answer.step Answer.State.init h s) :
    served h <+: arrived h ∧ (returns h = (served h).length → served h = arrived h) := by
  have i := exec_inv hx
  refine ⟨⟨s.queue, i.order.symm⟩, fun hr => ?_⟩
  have hb := i.backs
  have : s.running = none := by
    cases hs : s.running with
    | none => rfl
    | some x => rw [hs] at hb; simp at hb; omega
  rw [i.order, i.idle this, List.append_nil]

/-- C49: at most one response is sent for each call, only for calls whose sender waits for one, and not before the
callback is called.

Missing: as in `C49_order_partial`. -/
theorem C49_once_partial {h s} (hx : Exec Answer.step Answer.State.init h s) (hd : Distinct h) :
    (served h).Nodup ∧ (answered h).Nodup ∧ ∀ c ∈ answered h, c ∈ served h ∧ c.request = true := by
  have i := exec_inv hx
  have ha : (arrived h).Nodup := by
    unfold Distinct at hd
    rw [List.nodup_iff_pairwise_ne, List.pairwise_map] at hd
    exact hd.imp fun h e => h (by rw [e])
  have hs : (served h).Nodup := by
    rw [i.order] at ha
    exact (List.nodup_append.1 ha).1
  have key : ∀ c, (answered h).count c ≤ (served h).count c := fun c => by have := i.once c; omega
  refine ⟨hs, ?_, ?_⟩
  · rw [List.nodup_iff_count]
    intro c
    have := key c
    have := (List.nodup_iff_count.1 hs) c
    omega
  · intro c hc
    refine ⟨?_, i.waits c hc⟩
    have := List.count_pos_iff.2 hc
    have := key c
    exact List.count_pos_iff.1 (by omega)

/-- C49: every call whose sender waits is answered, unless its callback is still running or was given a handle that has
not been used yet.

Missing: as in `C49_order_partial`. -/
theorem C49_answered_partial {h s} (hx : Exec Answer.step Answer.State.init h s) (hk : Kept h) {c} (hc : c ∈ served h)
    (hr : c.request = true) :
    c ∈ answered h ∨ ((served h).getLast? = some c ∧ returns h < (served h).length) ∨
      ∃ k, .invoked c (some k) ∈ effects h ∧ ¬ Used h k := by
  have i := exec_inv hx
  rcases i.all hk c hc hr with h1 | h1
  · exact .inl h1
  · right
    unfold pending at h1
    rcases List.mem_append.1 h1 with h1 | h1
    · right
      obtain ⟨x, hx1, rfl⟩ := List.mem_map.1 h1
      exact ⟨x.1, i.given x hx1, fun hu => ((exec_handles hx).used _ hu).2 x hx1 rfl⟩
    · left
      split at h1
      · rename_i c' hrun
        simp at h1
        subst h1
        refine ⟨(i.last c _ hrun).1, ?_⟩
        have := i.backs
        rw [hrun] at this
        simp at this
        omega
      · cases h1

/-- C49: the response is the one that the callback gave, or a refusal if it gave none, and goes to the call that was
served; a later response goes to the call whose callback got the handle.

Missing: as in `C49_order_partial`. -/
theorem C49_reply_partial {a b : History} {e o s} (hx : Exec Answer.step Answer.State.init (a ++ (e, o) :: b) s) :
    (∀ r, e = .back r → ∃ c k, (served a).getLast? = some c ∧ .invoked c k ∈ effects a ∧
      o = if c.request then (given c r).toList.map (Answer.Effect.sent c) else []) ∧
    (∀ k v, e = .respond k v → ∃ c, .invoked c (some k) ∈ effects a ∧
      o = if c.request then [.sent c v] else []) := by
  obtain ⟨s1, s2, h1, h2⟩ := Exec.at hx a e o b rfl
  have i := exec_inv h1
  have hsend : ∀ c v, send c (some v) = if c.request then [.sent c v] else [] := fun c v => rfl
  refine ⟨?_, ?_⟩
  · rintro r rfl
    unfold Answer.step at h2
    simp only at h2
    split at h2
    · cases h2
    · rename_i c k hr
      refine ⟨c, k, (i.last c k hr).1, (i.last c k hr).2, ?_⟩
      obtain ⟨⟨s3, out⟩, hf, h2⟩ := res_bind_ok h2
      simp only [] at h2
      split at h2
      · cases h2
        rcases finish_ok hf with ⟨k, rfl, hl, _, _, rfl⟩ | ⟨k, rfl, rfl, _, rfl⟩ | ⟨rfl, _, rfl⟩
        · cases r with
          | answer v => rfl
          | silent => rfl
          | later => exact absurd rfl hl
        · have := (i.made c k (i.last c _ hr).2).2.2
          simp [given, this]
        · cases given c r with
          | none => simp
          | some v => rfl
      · cases h2
  · rintro k v rfl
    unfold Answer.step at h2
    simp only at h2
    split at h2
    · rename_i x hf
      cases h2
      obtain ⟨q1, q2⟩ := find_key hf
      exact ⟨x.2, q2 ▸ i.given x q1, rfl⟩
    · cases h2

/-- C49: behaviour is undefined only if an object was unregistered whose call is still to be served, if a call came in
within a callback, or if the handle for a later response is used again or without its callback's promise. -/
theorem C49_undefined {h s e} (hx : Exec Answer.step Answer.State.init h s) (hu : Answer.step s e = .ub) :
    (∃ c o, e = .enter c ∧ (Op.unregister c.obj, o) ∈ h) ∨
    (∃ r, e = .back r ∧ (served h).length < (arrived h).length) ∨
    (∃ r c k, e = .back r ∧ r ≠ .later ∧ .invoked c (some k) ∈ effects h ∧ Used h k) ∨
    (∃ k v, e = .respond k v ∧ ((∀ c, .invoked c (some k) ∉ effects h) ∨ Used h k ∨ Ended h k)) := by
  have i := exec_inv hx
  have q := exec_handles hx
  cases e with
  | enter c =>
    left
    unfold Answer.step at hu
    simp only at hu
    split at hu
    · unfold start at hu
      split at hu
      · rename_i hg
        obtain ⟨o, ho⟩ := q.gone _ hg
        exact ⟨c, o, rfl, ho⟩
      · split at hu <;> cases hu
    · cases hu
  | back r =>
    right
    unfold Answer.step at hu
    simp only at hu
    split at hu
    · cases hu
    · rename_i c k hr
      cases hf : finish s c k r with
      | fail => cases k <;> cases r <;> simp [finish] at hf <;> split at hf <;> cases hf
      | ok x =>
        left
        rw [hf, Res.ok_bind] at hu
        have hq : x.1.queue = s.queue := by
          rcases finish_ok (s' := x.1) (o := x.2) hf with ⟨k, _, _, _, h, _⟩ | ⟨k, _, _, h, _⟩ | ⟨_, h, _⟩ <;> rw [h]
        simp only [hq] at hu
        split at hu
        · cases hu
        · rename_i y ys hy
          refine ⟨r, rfl, ?_⟩
          rw [i.order, hy]
          simp
      | ub =>
        right
        left
        have hk : ∃ j, k = some j ∧ r ≠ .later ∧ ¬ ∃ x ∈ s.handles, x.1 = j := by
          cases k with
          | none => cases r <;> simp [finish] at hf
          | some j =>
            have : ∀ {x : Res (Answer.State × List Answer.Effect)}, x ≠ .ub →
                (if (s.handles.find? fun x => decide (x.1 = j)).isSome then x else .ub) = .ub →
                ¬ ∃ x ∈ s.handles, x.1 = j := by
              rintro x hx h ⟨y, hy, rfl⟩
              rw [if_pos] at h
              · exact hx h
              · rw [List.find?_isSome]; exact ⟨y, hy, by simp⟩
            cases r with
            | answer v => exact ⟨j, rfl, by simp, this (by simp) hf⟩
            | silent => exact ⟨j, rfl, by simp, this (by simp) hf⟩
            | later => cases hf
        obtain ⟨j, rfl, hl, hj⟩ := hk
        have him := (i.last c _ hr).2
        rcases q.mine c j hr with h1 | h1
        · exact absurd h1 hj
        · exact ⟨r, c, j, rfl, hl, him, h1⟩
  | respond k v =>
    right
    right
    right
    refine ⟨k, v, rfl, ?_⟩
    unfold Answer.step at hu
    simp only at hu
    split at hu
    · cases hu
    · rename_i hn
      by_cases hk : k < s.made
      · right
        rcases q.lost k hk with ⟨x, hx, h1⟩ | h1 | h1
        · have := List.find?_eq_none.1 hn x hx
          simp [h1] at this
        · exact .inl h1
        · exact .inr h1
      · left
        intro c hc
        exact hk (i.made c k hc).1
  | unregister o => cases hu

/-- A call that is answered at once, one that is answered later and one nobody waits for. -/
def threeCalls : List Answer.Op :=
  [.enter ⟨1, true, 7, false, false⟩, .back (.answer 5), .enter ⟨2, true, 7, false, true⟩, .back .later,
    .enter ⟨3, false, 7, true, false⟩, .respond 0 6, .back .silent]

example : ∃ h s, Exec Answer.step Answer.State.init h s ∧ Distinct h ∧ Kept h ∧ h.map (·.1) = threeCalls ∧
    (served h).map (·.id) = [1, 2, 3] ∧ (answered h).map (·.id) = [1, 2] ∧ returns h = 3 := by
  refine ⟨_, _, ((((((Exec.nil.snoc (e := threeCalls[0]) rfl).snoc (e := threeCalls[1]) rfl).snoc (e := threeCalls[2]) rfl).snoc
    (e := threeCalls[3]) rfl).snoc (e := threeCalls[4]) rfl).snoc (e := threeCalls[5]) rfl).snoc (e := threeCalls[6]) rfl,
    by unfold Distinct; decide, ?_, rfl, by decide, by decide, by decide⟩
  intro a out b c h
  have hl : a.length ≤ 6 := by
    have := congrArg List.length h
    simp at this
    omega
  intro h1 h2
  match a, h with
  | [_, _, _], h =>
    simp at h
    obtain ⟨rfl, rfl, rfl, _⟩ := h
    have h1 : (some ⟨2, true, 7, false, true⟩ : Option Answer.Call) = some c := h1
    cases h1
    rfl
  | [], h => simp [threeCalls] at h
  | [_], h => simp [threeCalls] at h
  | [_, _], h => simp [threeCalls] at h
  | [_, _, _, _], h => simp [threeCalls] at h
  | [_, _, _, _, _], h => simp [threeCalls] at h
  | [_, _, _, _, _, _], h => simp [threeCalls] at h

/-- C49 fails: a call that comes in while a callback runs is never served in a defined way: whatever happened before
and whatever the callback returns, its message is read after it was freed. -/
theorem C49_nested_fails {h s} (hx : Exec Answer.step Answer.State.init h s) (hq : (served h).length < (arrived h).length)
    (r : Answer.Ret) : Answer.step s (.back r) = .ub := by
  have i := exec_inv hx
  rw [i.order, List.length_append] at hq
  unfold Answer.step
  simp only
  split
  · rename_i hr
    rw [i.idle hr] at hq
    simp at hq
  · rename_i c k hr
    cases hf : finish s c k r with
    | fail => cases k <;> cases r <;> simp [finish] at hf <;> split at hf <;> cases hf
    | ub => rfl
    | ok x =>
      rw [Res.ok_bind]
      have hq' : x.1.queue = s.queue := by
        rcases finish_ok (s' := x.1) (o := x.2) hf with ⟨k, _, _, _, h, _⟩ | ⟨k, _, _, h, _⟩ | ⟨_, h, _⟩ <;> rw [h]
      simp only [hq']
      split
      · rename_i hy; rw [hy] at hq; simp at hq
      · rfl

example : ∃ h s, Exec Answer.step Answer.State.init h s ∧ (served h).length < (arrived h).length :=
  ⟨_, _, (Exec.nil.snoc (e := .enter ⟨1, true, 7, false, false⟩) rfl).snoc (e := .enter ⟨2, true, 7, false, false⟩) rfl,
    by decide⟩

/-- C49 fails: the callback thread may have looked up the object of a call when another thread unregisters the object;
the object is read after it was freed. -/
theorem C49_unregistered_fails (c : Answer.Call) :
    Answer.run Answer.State.init [.unregister c.obj, .enter c] = .ub := by
  simp [Answer.run, Answer.step, start, Answer.State.init]

/-- C49 fails: over a direct connection, a callback that gives no response or promises one for later makes the provider
use an uninitialised pointer; these are exactly the cases in which it does. -/
theorem C49_direct_fails (found : Bool) (r : Answer.Ret) :
    direct found r = .ub ↔ found = true ∧ ∀ v, r ≠ .answer v := by
  cases found <;> cases r <;> simp [direct]

end Verif.Props
