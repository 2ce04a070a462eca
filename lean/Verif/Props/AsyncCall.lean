import Verif.Proof.AsyncCall

/-!
# C105: calling a method without waiting for the answer

A program that calls methods with rbusMethod_InvokeAsync has its callback called once for each call, with the answer to
the request it made; it may let go of the parameters as soon as the call returned, and nothing it shared with a call
stays behind.
-/

namespace Verif.Props

open Verif Verif.AsyncCall Verif.Spec.AsyncCall Verif.Proof.AsyncCall

private def reset : Bytes := "Device.Reset()".toUTF8.data.toList
private def soft : Bytes := "soft".toUTF8.data.toList
private def hard : Bytes := "hard".toUTF8.data.toList
private def fine : Bytes := "fine".toUTF8.data.toList

/-- A handle, parameters for two calls that overlap, one waiting five seconds; the program lets go of the parameters
while both are on their way, and keeps the first answer, with which it closes the handle in the second callback. -/
private def twoCalls : List (Event × Out) :=
  [(.openHandle, .handle 0), (.make soft, .object 0), (.invoke 0 reset (some 0) 5 15000 true, .started 0),
   (.invoke 0 reset (some 0) 0 15000 true, .started 1), (.ask 1, .sent reset (some soft) 15000),
   (.release 0, .gone []), (.ask 0, .sent reset (some soft) 5000), (.enter 0 ⟨0, fine⟩, .called 0 reset 0 1),
   (.retain 1, .gone []), (.leave 0, .gone []), (.enter 1 ⟨9, hard⟩, .called 0 reset 9 2), (.close 0, .gone []),
   (.leave 1, .gone [0, 2]), (.release 1, .gone [1])]

private theorem twoCalls_exec : ∃ s, Exec step init twoCalls s := by
  obtain ⟨s, hs⟩ : ∃ s, AsyncCall.run init (twoCalls.map (·.1)) = .ok (s, twoCalls.map (·.2)) := ⟨_, rfl⟩
  refine ⟨s, ?_⟩
  have := (Exec.extend (.nil (step := step) (s₀ := init)) (run := AsyncCall.run) (fun _ => rfl) (fun _ _ _ => rfl)
    _ _ _ hs).2
  rwa [List.nil_append, List.zip_map', List.map_id'' (fun _ => rfl)] at this

/-- An object made by the program or given to it in a callback is destroyed when neither the program has a reference to
it nor a call that has not ended needs it, not before, and not twice. For objects with which no call failed for want of
a thread. -/
theorem C105_kept_partial (h : List (Event × Out)) (s : State) (hx : Exec step init h s) (hc : Careful h) (o : Nat)
    (hf : ∀ x ∈ h, failed o x = false) :
    (o ∈ h.flatMap gone ↔ Made o h ∧ held o h = 0) ∧ (h.flatMap gone).Nodup := by
  have hb := base_exec hx
  have hi := inv_exec hx hc
  refine ⟨?_, hi.once⟩
  have h0 : h.countP (failed o) = 0 := by
    rw [List.countP_eq_zero]
    intro x hm
    simp [hf x hm]
  rw [hi.gone, hi.made, held_eq hb, hi.refs, h0]
  simp

private instance (h : List (Event × Out)) (o : Nat) : Decidable (Has h o) := inferInstanceAs (Decidable (_ ∨ _))

private theorem twoCalls_careful : Careful twoCalls := by
  have key : ∀ n, n < twoCalls.length → ∀ x, twoCalls[n]? = some x → Allowed (twoCalls.take n) x.1 := by
    intro n hn x hx
    simp only [twoCalls, List.length_cons, List.length_nil] at hn
    rcases n with _|_|_|_|_|_|_|_|_|_|_|_|_|_|n <;> (try omega) <;> (cases hx; simp only [Allowed]; try decide +kernel) <;>
      exact ⟨by intro o e; injection e with e; subst e; decide +kernel, by decide⟩
  intro a x b e
  have h1 : twoCalls[a.length]? = some x := by simp [e]
  have h2 : twoCalls.take a.length = a := by simp [e]
  have h3 : a.length < twoCalls.length := by simp [e]
  have := key a.length h3 x h1
  rwa [h2] at this

example : ∃ s, Exec step init twoCalls s := twoCalls_exec
example : ∀ x ∈ twoCalls, failed 0 x = false := by decide +kernel
example : 0 ∈ twoCalls.flatMap gone ∧ held 0 twoCalls = 0 := by decide +kernel
example : held 0 (twoCalls.take 10) = 1 ∧ held 1 (twoCalls.take 10) = 1 := by decide +kernel

/-- A callback is called only for a call that was started, after its request was sent, with the handle and the method of
the call and the error of the answer, and once; its output parameters are new. -/
theorem C105_called (h : List (Event × Out)) (s : State) (hx : Exec step init h s) (a b : List (Event × Out)) (j : Nat)
    (r : Reply) (out : Out) (e : h = a ++ (.enter j r, out) :: b) :
    (∃ hd n p sec dflt c o, (.invoke hd n p sec dflt true, .started j) ∈ a ∧
      (.ask j, .sent n c (wait sec dflt)) ∈ a ∧ out = .called hd n r.error o ∧ ¬ Made o a) ∧
    ∀ r' out', (.enter j r', out') ∉ a := by
  obtain ⟨s1, s2, h1, h2⟩ := hx.at a _ _ b e
  have hb := base_exec h1
  generalize hev : Event.enter j r = ev at h2
  cases kind_of_step h2 <;> try cases hev
  rename_i x hm hst
  obtain ⟨sec, dflt, hi, ht⟩ := hb.from' x hm
  obtain ⟨c, hs⟩ := hb.sent x hm (by rw [hst]; simp)
  exact ⟨⟨_, _, _, sec, dflt, c, s1.made, hi, ht ▸ hs, rfl,
    fun hm => absurd ((made_exec h1 _).mp hm) (Nat.lt_irrefl _)⟩, hb.quiet x hm (by rw [hst]; rfl)⟩

example : twoCalls = twoCalls.take 10 ++ (.enter 1 ⟨9, hard⟩, .called 0 reset 9 2) :: twoCalls.drop 11 := by decide +kernel

/-- A request is sent only for a call that was started, once, with its method, its timeout, and the content of its
parameters at the time. -/
theorem C105_sent (h : List (Event × Out)) (s : State) (hx : Exec step init h s) (a b : List (Event × Out)) (j : Nat)
    (out : Out) (e : h = a ++ (.ask j, out) :: b) :
    (∃ hd n p sec dflt, (.invoke hd n p sec dflt true, .started j) ∈ a ∧
      out = .sent n (p.map (content a)) (wait sec dflt)) ∧
    ∀ out', (.ask j, out') ∉ a := by
  obtain ⟨s1, s2, h1, h2⟩ := hx.at a _ _ b e
  have hb := base_exec h1
  generalize hev : Event.ask j = ev at h2
  cases kind_of_step h2 <;> try cases hev
  rename_i x hm hst hh hl
  obtain ⟨sec, dflt, hi, ht⟩ := hb.from' x hm
  have hcont : s1.content = content a := funext fun o => (hb.content o).symm
  exact ⟨⟨_, _, _, sec, dflt, hi, by rw [hcont, ht]⟩, hb.fresh x hm hst⟩

example : twoCalls = twoCalls.take 6 ++ (.ask 0, .sent reset (some soft) 5000) :: twoCalls.drop 7 := by decide +kernel
example : content (twoCalls.take 6) 0 = soft ∧ wait 5 15000 = 5000 := by decide +kernel

/-- A call ends only after its callback was called, and once. -/
theorem C105_ended (h : List (Event × Out)) (s : State) (hx : Exec step init h s) (a b : List (Event × Out)) (j : Nat)
    (out : Out) (e : h = a ++ (.leave j, out) :: b) :
    (∃ r out', (.enter j r, out') ∈ a) ∧ ∀ out', (.leave j, out') ∉ a := by
  obtain ⟨s1, s2, h1, h2⟩ := hx.at a _ _ b e
  have hb := base_exec h1
  generalize hev : Event.leave j = ev at h2
  cases kind_of_step h2 <;> try cases hev
  rename_i x k os refs hm hst _ _ _ _
  obtain ⟨r, hr⟩ := hb.inside x hm k hst
  exact ⟨⟨r, _, hr⟩, hb.stay x hm⟩

example : twoCalls = twoCalls.take 12 ++ (.leave 1, .gone [0, 2]) :: twoCalls.drop 13 := by decide +kernel

/-- Nothing a careful program does next, and nothing a thread of its calls does, is undefined. -/
theorem C105_defined_partial (h : List (Event × Out)) (s : State) (hx : Exec step init h s) (hc : Careful h) (e : Event)
    (ha : Allowed h e) : step s e ≠ .ub :=
  defined (base_exec hx) (inv_exec hx hc) ha

example : Careful twoCalls := twoCalls_careful
example : Allowed (twoCalls.take 5) (.release 0) := by show 0 < mine 0 _; decide +kernel

/-- The call of a careful program goes on: whatever the answer, its callback can be called, at once or after the request
was sent, and after the callback it ends. -/
theorem C105_goes_on_partial (h : List (Event × Out)) (s : State) (hx : Exec step init h s) (hc : Careful h) (c : Call)
    (hm : c ∈ calls h) (r : Reply) :
    (c.out = none → ∃ s' os o, (AsyncCall.run s [.enter c.id r] = .ok (s', os) ∨
        AsyncCall.run s [.ask c.id, .enter c.id r] = .ok (s', os)) ∧
      os.getLast? = some (.called c.handle c.name r.error o)) ∧
    (c.out.isSome → ∃ s' os, step s (.leave c.id) = .ok (s', .gone os)) := by
  have hb := base_exec hx
  have hi := inv_exec hx hc
  rw [hb.calls] at hm
  obtain ⟨x, hxm, rfl⟩ := List.mem_map.mp hm
  constructor
  · intro ho
    cases hst : x.stage with
    | inside k => simp [toCall, hst, Stage.out] at ho
    | stranded => exact absurd hst (hi.safe x hxm ho).2
    | waiting =>
      refine ⟨(s.enter x r).1, [(s.enter x r).2], s.made, .inl ?_, rfl⟩
      simp only [toCall, AsyncCall.run, enter_ok hb hxm hst r, Res.ok_bind, Res.pure_eq]
    | fresh =>
      have h1 := ask_ok hb hi hxm hst
      have hb1 := base_step hb h1
      have hxm1 : { x with stage := Stage.waiting } ∈ (s.move x.id .waiting).jobs :=
        List.mem_map.mpr ⟨x, hxm, by simp⟩
      have h2 := enter_ok hb1 hxm1 rfl r
      refine ⟨((s.move x.id .waiting).enter { x with stage := Stage.waiting } r).1,
        [.sent x.name (x.params.map s.content) x.timeout,
          ((s.move x.id .waiting).enter { x with stage := Stage.waiting } r).2], s.made, .inr ?_, rfl⟩
      dsimp only at h2
      simp only [toCall, AsyncCall.run, h1, h2, Res.ok_bind, Res.pure_eq]
  · intro ho
    obtain ⟨k, hk⟩ := Option.isSome_iff_exists.mp ho
    exact leave_ok hb hi hxm (stage_out_inside hk)

example : calls (twoCalls.take 9) = [⟨0, 0, reset, some 0, some 1⟩, ⟨1, 0, reset, some 0, none⟩] := by decide +kernel

/-- When there is no thread to be had, the call returns an error and the parameters are never destroyed, although nobody
needs them any more; the note of the call is not freed either. -/
theorem C105_leak_fails : ∃ h s, Exec step init h s ∧ Careful h ∧ Made 0 h ∧ held 0 h = 0 ∧ 0 ∉ h.flatMap gone :=
  ⟨[(.openHandle, .handle 0), (.make soft, .object 0), (.invoke 0 reset (some 0) 0 1000 false, .busError),
    (.release 0, .gone [])], _, .snoc (h := [_, _, _]) (.snoc (h := [_, _]) (.snoc (h := [_]) (.snoc (h := []) .nil rfl) rfl) rfl) rfl, by
    intro a x b e
    have hl : a.length < 4 := by have := congrArg List.length e; simp at this; omega
    rcases a with _ | ⟨a0, _ | ⟨a1, _ | ⟨a2, _ | ⟨a3, a⟩⟩⟩⟩ <;> simp at e hl <;> (try omega) <;>
      (obtain ⟨rfl, e⟩ := e; first | exact trivial | (obtain ⟨rfl, e⟩ := e))
    · exact trivial
    · obtain ⟨rfl, e⟩ := e
      exact ⟨by intro o e; injection e with e; subst e; decide +kernel, by decide⟩
    · obtain ⟨rfl, rfl, e⟩ := e
      show 0 < mine 0 _
      decide +kernel, ⟨(.make soft, .object 0), by simp, rfl⟩, by decide +kernel, by decide +kernel⟩

/-- Closing a handle with a call on its way, which the header does not forbid, is undefined behaviour of the call's
thread: before the request was sent it reads the handle that was freed, and after it, if the handle was the last, it
waits on a connection that was destroyed. -/
theorem C105_close_fails :
    AsyncCall.run init [.openHandle, .invoke 0 reset none 0 1000 true, .close 0, .ask 0] = .ub ∧
    (∀ r, AsyncCall.run init [.openHandle, .openHandle, .invoke 0 reset none 0 1000 true, .ask 0, .close 1, .close 0,
      .enter 0 r] = .ub) ∧
    ∃ s os, AsyncCall.run init [.openHandle, .openHandle, .invoke 0 reset none 0 1000 true, .ask 0, .close 0,
      .enter 0 ⟨0, fine⟩] = .ok (s, os) ∧ os.getLast? = some (.called 0 reset 0 0) :=
  ⟨rfl, fun _ => rfl, _, _, rfl, rfl⟩

/-- What is sent is not what the parameters were when the call was made: changed by the program after the call returned,
they are sent as changed, if the thread had not begun. -/
theorem C105_later_fails : ∃ s os, AsyncCall.run init [.openHandle, .make soft, .invoke 0 reset (some 0) 0 1000 true,
    .write 0 hard, .ask 0] = .ok (s, os) ∧ os.getLast? = some (.sent reset (some hard) 1000) :=
  ⟨_, _, rfl, rfl⟩

end Verif.Props
