import Verif.Proof.SessionWire

/-!
# C96: Everybody learns whether a session is open
-/

namespace Verif.Props

open Verif Verif.Value Verif.Method Verif.SessionWire Verif.Spec.SessionWire Verif.Proof.SessionWire
open Verif.Wire hiding Event

/-- After every history of calls by any clients, whatever became of their messages, and new starts of the manager, every
call is defined and gives what it should: a session is handed out if none is open, the number asked for is that of the
open session, closing succeeds for this number only, and a call that cannot be made or is not answered gives an error. -/
theorem C96_told (fc : FloatConv) (junk : WVal → BitVec 32) {h : List (SessionWire.Event × Out)} {c : BitVec 32}
    (hx : Exec (step fc junk) 0 h c) (hp : ∀ x ∈ h, Event.Proper x.1) {e : SessionWire.Event} (he : Event.Proper e) :
    ∃ c' o, step fc junk c e = .ok (c', o) ∧ (o.code, o.id) = told (h.map Prod.fst).reverse e := by
  have h1 := exec_state fc junk hx hp
  subst h1
  obtain ⟨o, h2, h3, -⟩ := step_spec fc junk (past h) he
  exact ⟨_, o, h2, h3⟩

/-- Every request for a session and every closing that reaches the manager is announced, with the number of the session open
then, or 0. -/
theorem C96_announced (fc : FloatConv) (junk : WVal → BitVec 32) {h : List (SessionWire.Event × Out)} {c : BitVec 32}
    (hx : Exec (step fc junk) 0 h c) (hp : ∀ x ∈ h, Event.Proper x.1) {e : SessionWire.Event} (he : Event.Proper e)
    {c' : BitVec 32} {o : Out} (hs : step fc junk c e = .ok (c', o)) :
    o.event.bind number = if tells e then some (openId (e :: (h.map Prod.fst).reverse)) else none := by
  have h1 := exec_state fc junk hx hp
  subst h1
  obtain ⟨o', h2, -, h3, -⟩ := step_spec fc junk (past h) he
  rw [hs] at h2
  cases h2
  rw [h3]
  have hn : ∀ v w, number (two v w) = some w := by
    intro v w
    rw [two_props]
    have : valueOf (.mk [] false (.cons (str "return_value") (.scalar (.int32 v))
        (.cons (str "sessionid") (.scalar (.int32 w)) .nil)) .nil) "sessionid" = some (.scalar (.int32 w)) := by
      simp only [valueOf, propsOf, listed]
      rw [List.lookup_cons, List.lookup_cons]
      have h1 : ("sessionid".toUTF8.data.toList == str "return_value") = false := by decide
      have h2 : ("sessionid".toUTF8.data.toList == str "sessionid") = true := by decide
      rw [h1, h2]
    simp only [number, this]
  split
  · exact hn 0 _
  · rfl

/-- Who knows only the announcements knows as much as the manager: what was announced last is what `rbus_getCurrentSession`
would tell now; before the first announcement no session is open. Missing: a new start of the manager
(`C96_restart_fails`). -/
theorem C96_last_partial (fc : FloatConv) (junk : WVal → BitVec 32) {h : List (SessionWire.Event × Out)} {c : BitVec 32}
    (hx : Exec (step fc junk) 0 h c) (hp : ∀ x ∈ h, Event.Proper x.1 ∧ x.1 ≠ .restart) (p s : Bytes) :
    ∃ c' o, step fc junk c (.getCurrent .delivered p s) = .ok (c', o) ∧ o.code = 0 ∧
      o.id = ((h.filterMap fun x => x.2.event.bind number).getLast?).getD 0 := by
  have key : openId (past h) = ((h.filterMap fun x => x.2.event.bind number).getLast?).getD 0 := by
    clear p s
    induction hx with
    | nil => rfl
    | @snoc h s e o s' hx hs ih =>
      have ih := ih (fun x hx => hp x (by simp [hx]))
      obtain ⟨he, hr⟩ := hp (e, o) (by simp)
      have ha := C96_announced fc junk hx (fun x hx => (hp x (by simp [hx])).1) he hs
      have hpast : past (h ++ [(e, o)]) = e :: past h := by simp [past]
      rw [hpast, List.filterMap_append]
      cases ht : tells e with
      | true =>
        rw [ht] at ha
        simp only [List.filterMap_cons, List.filterMap_nil, ha, if_true, List.getLast?_append, List.getLast?_singleton, Option.some_or,
          Option.getD_some]
        rfl
      | false =>
        rw [ht] at ha
        simp only [List.filterMap_cons, List.filterMap_nil, ha, Bool.false_eq_true, if_false, List.append_nil]
        rw [← ih]
        cases e with
        | restart => exact absurd rfl hr
        | getCurrent => rfl
        | create f p s =>
          simp only [tells] at ht
          simp only [openId, isOpen, ht, Bool.false_or]
        | close f p s id =>
          have : (Arrives f && id == 1) = false := by
            cases hf : Arrives f with
            | false => rfl
            | true =>
              have h0 : id = 0 := by simpa [tells, hf] using ht
              subst h0
              rfl
          simp only [openId, isOpen, this]
          rfl
  obtain ⟨c', o, h1, h2⟩ := C96_told fc junk hx (fun x hx => (hp x hx).1) (e := .getCurrent .delivered p s)
    (by simp [Event.Proper, mishap])
  have hb : told (h.map Prod.fst).reverse (.getCurrent .delivered p s) = (0, openId (past h)) := rfl
  rw [hb, Prod.mk.injEq] at h2
  exact ⟨c', o, h1, h2.1, by rw [h2.2, key]⟩

/-- A history: a session is created, its creation tried again, and the number asked for. -/
example (fc : FloatConv) (junk : WVal → BitVec 32) : ∃ h c, Exec (step fc junk) 0 h c ∧ h.length = 3 ∧
    (∀ x ∈ h, Event.Proper x.1 ∧ x.1 ≠ .restart) ∧ isOpen (h.map Prod.fst).reverse = true := by
  have pr : ∀ e ∈ [SessionWire.Event.create .delivered [] [], .create .delivered [] [], .getCurrent .delivered [] []],
      Event.Proper e := by
    intro e he
    simp only [List.mem_cons, List.not_mem_nil, or_false] at he
    rcases he with rfl | rfl | rfl <;> simp [Event.Proper, mishap]
  obtain ⟨o1, h1, -⟩ := step_spec fc junk [] (pr (.create .delivered [] []) (by simp))
  obtain ⟨o2, h2, -⟩ := step_spec fc junk [.create .delivered [] []] (pr (.create .delivered [] []) (by simp))
  obtain ⟨o3, h3, -⟩ := step_spec fc junk [.create .delivered [] [], .create .delivered [] []]
    (pr (.getCurrent .delivered [] []) (by simp))
  refine ⟨_, _, .snoc (.snoc (.snoc .nil h1) h2) h3, rfl, ?_, rfl⟩
  intro x hx
  simp only [List.nil_append, List.cons_append, List.mem_cons, List.not_mem_nil, or_false] at hx
  rcases hx with rfl | rfl | rfl <;> simp [Event.Proper, mishap]

/-- Nothing is left behind in the caller's memory. Missing: `rbus_getCurrentSession` when it fails (`C96_leak_fails`). -/
theorem C96_released_partial (fc : FloatConv) (junk : WVal → BitVec 32) {h : List (SessionWire.Event × Out)} {c : BitVec 32}
    (hx : Exec (step fc junk) 0 h c)
    (hp : ∀ x ∈ h, Event.Proper x.1 ∧ ∀ f p s, x.1 = .getCurrent f p s → f = .delivered) :
    ∀ x ∈ h, x.2.leaked = 0 := by
  induction hx with
  | nil => simp
  | @snoc h s e o s' hx hs ih =>
    intro x hm
    rcases List.mem_append.mp hm with hm | hm
    · exact ih (fun x hx => hp x (by simp [hx])) x hm
    · obtain rfl : x = (e, o) := by simpa using hm
      obtain ⟨he, hg⟩ := hp (e, o) (by simp)
      have h1 := exec_state fc junk hx (fun x hx => (hp x (by simp [hx])).1)
      subst h1
      obtain ⟨o', h2, -, -, h3⟩ := step_spec fc junk (past h) he
      rw [hs] at h2
      cases h2
      rw [h3]
      cases e with
      | getCurrent f p s =>
        obtain rfl := hg f p s rfl
        rfl
      | _ => rfl

example : ∀ x ∈ [(SessionWire.Event.create (.lost 5) [] [], (⟨7, 0, none, 0⟩ : Out)),
    (.getCurrent .delivered [] [], ⟨0, 0, none, 0⟩)],
    Event.Proper x.1 ∧ ∀ f p s, x.1 = .getCurrent f p s → f = .delivered := by
  intro x hx
  simp only [List.mem_cons, List.not_mem_nil, or_false] at hx
  rcases hx with rfl | rfl
  · exact ⟨by simp [Event.Proper, mishap], fun _ _ _ h => by cases h⟩
  · exact ⟨by simp [Event.Proper, mishap], fun _ _ _ h => by cases h; rfl⟩

/-- `rbus_getCurrentSession` leaves an object behind each time its call fails. -/
theorem C96_leak_fails (fc : FloatConv) (junk : WVal → BitVec 32) {h : List (SessionWire.Event × Out)} {c : BitVec 32}
    (hx : Exec (step fc junk) 0 h c) (hp : ∀ x ∈ h, Event.Proper x.1) (e : Nat) (he : e ≠ 0) (p s : Bytes) :
    ∃ c' o, step fc junk c (.getCurrent (.lost e) p s) = .ok (c', o) ∧ o.leaked = 1 := by
  have h1 := exec_state fc junk hx hp
  subst h1
  obtain ⟨o, h2, -, -, h3⟩ := step_spec fc junk (past h) (e := .getCurrent (.lost e) p s)
    (by simpa [Event.Proper, mishap] using he)
  exact ⟨_, o, h2, h3⟩

example : (5 : Nat) ≠ 0 := by decide

/-- If the answer to the request for a session is lost, the caller is told of a failure and has no number, yet the session is
open: whoever asks for one, however often, is refused. -/
theorem C96_unanswered_fails (fc : FloatConv) (junk : WVal → BitVec 32) (e : Nat) (he : e ≠ 0) (p s : Bytes) :
    ∃ c o, step fc junk 0 (.create (.unanswered e) p s) = .ok (c, o) ∧ o.code ≠ 0 ∧ o.id = 0 ∧
      ∀ h c', Exec (step fc junk) c h c' →
        (∀ x ∈ h, ∃ p s, x.1 = .create .delivered p s ∨ x.1 = .getCurrent .delivered p s) →
        ∀ p s, ∃ c'' o', step fc junk c' (.create .delivered p s) = .ok (c'', o') ∧ o'.code = 12 := by
  obtain ⟨o, h1, h2, -⟩ := step_spec fc junk [] (e := .create (.unanswered e) p s)
    (by simpa [Event.Proper, mishap] using he)
  have ht : told [] (.create (.unanswered e) p s) = (coreToRbus e, 0) := rfl
  rw [ht, Prod.mk.injEq] at h2
  refine ⟨_, o, h1, by rw [h2.1]; exact core_ne he, h2.2, ?_⟩
  intro h c' hx hp p' s'
  have key : ∃ l, c' = openId l ∧ isOpen l = true := by
    induction hx with
    | nil => exact ⟨_, rfl, rfl⟩
    | @snoc h s e' o s' hx hs ih =>
      obtain ⟨l, h3, h4⟩ := ih (fun x hx => hp x (by simp [hx]))
      subst h3
      obtain ⟨p, s, hc⟩ := hp (e', o) (by simp)
      have hpr : Event.Proper e' := by
        rcases hc with hc | hc <;> (simp only at hc; subst hc; simp [Event.Proper, mishap])
      obtain ⟨o', h5, -⟩ := step_spec fc junk l hpr
      rw [hs] at h5
      cases h5
      refine ⟨_, rfl, ?_⟩
      rcases hc with hc | hc <;> (simp only at hc; subst hc; simp [isOpen, h4])
  obtain ⟨l, h3, h4⟩ := key
  subst h3
  obtain ⟨o', h5, h6, -⟩ := step_spec fc junk l (e := .create .delivered p' s') (by simp [Event.Proper, mishap])
  have ht : told l (.create .delivered p' s') = (12, 0) := by simp only [told, mishap, h4, if_true]
  rw [ht, Prod.mk.injEq] at h6
  exact ⟨_, o', h5, h6.1⟩

/-- After a new start of the manager the last announcement is wrong: it names an open session, and there is none; closing it is
refused. -/
theorem C96_restart_fails (fc : FloatConv) (junk : WVal → BitVec 32) (p s : Bytes) :
    ∃ o1 o2 o3, step fc junk 0 (.create .delivered p s) = .ok (1, o1) ∧ o1.event.bind number = some 1 ∧
      step fc junk 1 .restart = .ok (0, o2) ∧ o2.event = none ∧
      step fc junk 0 (.close .delivered p s 1) = .ok (0, o3) ∧ o3.code = 12 := by
  have p1 : Event.Proper (.create .delivered p s) := by simp [Event.Proper, mishap]
  have p3 : Event.Proper (.close .delivered p s 1) := by simp [Event.Proper, mishap]
  obtain ⟨o1, h1, -⟩ := step_spec fc junk [] p1
  obtain ⟨o3, h3, h4, -⟩ := step_spec fc junk [.restart, .create .delivered p s] p3
  have ha := C96_announced fc junk .nil (fun x hx => by cases hx) p1 h1
  refine ⟨o1, _, o3, h1, ha, rfl, rfl, h3, ?_⟩
  have : told [.restart, .create .delivered p s] (.close .delivered p s 1) = (12, 0) := rfl
  rw [this, Prod.mk.injEq] at h4
  exact h4.1

end Verif.Props
