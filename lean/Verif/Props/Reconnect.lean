import Verif.Proof.Reconnect

/-!
# Properties of remaking the connection (C74)
-/

namespace Verif.Props

open Verif.Reconnect

private def topicA : Bytes := [65]

/-- A listener is added and the router told. -/
private def adding : List Reconnect.Event := [.add 1 topicA 5, .send 1]

/-- The link goes down; the reader makes it again. -/
private def remaking : List Reconnect.Event := [.lost, .claim 0, .connect 0 .made]

/-- The reader tells the router about the one listener and comes to the end of the table. -/
private def finishing : List Reconnect.Event := [.look 0, .tell 0] ++ List.replicate 128 (.look 0)

private theorem adding_allowed : AllowedFrom Reconnect.init adding := by
  refine ⟨⟨?_, ?_⟩, fun _ _ _ => ⟨trivial, fun _ _ _ => trivial⟩⟩
  · rintro ⟨n, t, i, _, h⟩
    simp only [Reconnect.init] at h
    split at h <;> simp [jobOf] at h
  · rintro t i ⟨cb, h⟩
    simp [Reconnect.init, List.mem_replicate] at h

/-- A careful execution of adding, losing the link and a list of steps that are always allowed. -/
private theorem careful_demo {es s' os} (hf : es.all free = true)
    (hr : Reconnect.run Reconnect.init (adding ++ [.drop] ++ es) = .ok (s', os)) :
    ∃ h, Careful h s' := by
  refine ⟨_, Careful.extend .nil ?_ hr⟩
  refine ⟨adding_allowed.1, ?_⟩
  intro s1 o1 h1
  refine ⟨trivial, ?_⟩
  intro s2 o2 h2
  refine ⟨?_, fun _ _ _ => allowedFrom_free hf⟩
  have h3 : Reconnect.run Reconnect.init adding = .ok (s2, [o1, o2]) := by
    cases h1; cases h2; rfl
  intro n
  refine untouched_two (P := fun p => ¬ Telling p) h3 rfl ?_ ?_ nofun n <;> (cases h1; cases h2; exact nofun)

/-- Once the link is up and no thread has anything left to do, the router sends this client exactly the
topics it listens for, each to the right listener - however often the link was lost and made again, by
whichever thread, and whatever other threads added and removed meanwhile. Missing: executions that are
not `Careful`, see the failures below. -/
theorem C74_reconnect_restores_partial {h s} (hx : Careful h s) (hrest : ∀ n, AtRest (s.place n))
    (hup : s.link = true) (x : Bytes × Nat) : x ∈ s.routes ↔ x ∈ held h := by
  obtain ⟨t, i⟩ := x
  have hi := Reconnect.inv hx
  have hjob : ∀ n, jobOf (s.place n) = none := by
    intro n
    have := hrest n
    cases hp : s.place n <;> rw [hp] at this <;> first | rfl | exact this.elim
  have htold : ∀ n, toldTo (s.place n) = none := by
    intro n
    have := hrest n
    cases hp : s.place n <;> rw [hp] at this <;> first | rfl | exact this.elim
  rw [held_eq hx, listens_iff]
  constructor
  · intro hm
    rcases hi.sound t i hm with h1 | ⟨n, h1⟩
    · exact h1
    · rw [hjob] at h1; cases h1
  · rintro ⟨k, hk⟩
    refine hi.full hup k t i hk ?_ ?_
    · intro n m h1; rw [htold] at h1; cases h1
    · intro n h1; rw [hjob] at h1; cases h1

set_option maxRecDepth 16384 in
example : ∃ h s, Careful h s ∧ (∀ n, AtRest (s.place n)) ∧ s.link = true ∧ (topicA, 5) ∈ held h ∧
    s.routes = [(topicA, 5)] := by
  obtain ⟨s, os, hr⟩ : ∃ s os, Reconnect.run Reconnect.init (adding ++ [.drop] ++ (remaking ++ finishing)) =
    .ok (s, os) := ⟨_, _, rfl⟩
  obtain ⟨h, hx⟩ := careful_demo (es := remaking ++ finishing) rfl hr
  refine ⟨h, s, hx, ?_, ?_⟩
  · intro n
    refine untouched_two hr rfl ?_ ?_ trivial n <;> (cases hr; trivial)
  · rw [held_eq hx]
    cases hr
    exact ⟨rfl, ⟨0, by decide⟩, rfl⟩

/-- One thread at a time makes the link again. Missing: executions that are not `Careful`: without a
socket several do. -/
theorem C74_one_remakes_partial {h s} (hx : Careful h s) {n m : Nat} (hn : Remaking (s.place n))
    (hm : Remaking (s.place m)) : n = m :=
  (Reconnect.inv hx).one n m hn hm

example : ∃ h s, Careful h s ∧ Remaking (s.place 0) ∧ s.place 1 = .waiting (some .other) 5 := by
  obtain ⟨s, os, hr⟩ : ∃ s os, Reconnect.run Reconnect.init
    (adding ++ [.drop] ++ [.lost, .other 1, .claim 0, .send 1, .claim 1]) = .ok (s, os) := ⟨_, _, rfl⟩
  obtain ⟨h, hx⟩ := careful_demo rfl hr
  refine ⟨h, s, hx, ?_, ?_⟩ <;> cases hr
  · trivial
  · rfl

/-- A lost link can always be made again, without the application doing anything, and whoever is making it
can finish, so that threads that wait go on. The listeners stay the same. Missing: as above. -/
theorem C74_link_comes_back_partial {h s} (hx : Careful h s) :
    ∃ h' s', Careful (h ++ h') s' ∧ s'.inProgress = false ∧ s'.link = true ∧
      ∀ x, x ∈ held (h ++ h') ↔ x ∈ held h := by
  obtain ⟨h', s', h1, h2, h3, h4⟩ := Reconnect.comes_back hx
  refine ⟨h', s', h1, h2, h3, ?_⟩
  rintro ⟨t, i⟩
  rw [held_eq h1, held_eq hx]
  unfold Listens
  rw [h4]

example : ∃ h s, Careful h s ∧ s.inProgress = false ∧ s.link = false := by
  obtain ⟨s, os, hr⟩ : ∃ s os, Reconnect.run Reconnect.init
    (adding ++ [.drop] ++ [.lost, .claim 0, .connect 0 .refused]) = .ok (s, os) := ⟨_, _, rfl⟩
  obtain ⟨h, hx⟩ := careful_demo rfl hr
  refine ⟨h, s, hx, ?_⟩
  cases hr
  exact ⟨rfl, rfl⟩

example : ∃ h s, Careful h s ∧ s.inProgress = true ∧ (topicA, 5) ∈ held h := by
  obtain ⟨s, os, hr⟩ : ∃ s os, Reconnect.run Reconnect.init
    (adding ++ [.drop] ++ [.lost, .claim 0, .connect 0 .made, .look 0]) = .ok (s, os) := ⟨_, _, rfl⟩
  obtain ⟨h, hx⟩ := careful_demo rfl hr
  refine ⟨h, s, hx, ?_⟩
  rw [held_eq hx]
  cases hr
  exact ⟨rfl, 0, by decide⟩

/-- No step reads an entry that is not there. Missing: as above. -/
theorem C74_reconnect_defined_partial {h s} (hx : Careful h s) (e : Reconnect.Event) : Reconnect.step s e ≠ .ub :=
  Reconnect.careful_step (Reconnect.inv hx)

example : ∃ h s, Careful h s ∧ ∃ s' o, Reconnect.step s (.tell 0) = .ok (s', o) := by
  obtain ⟨s, os, hr⟩ : ∃ s os, Reconnect.run Reconnect.init
    (adding ++ [.drop] ++ [.lost, .claim 0, .connect 0 .made, .look 0]) = .ok (s, os) := ⟨_, _, rfl⟩
  obtain ⟨h, hx⟩ := careful_demo rfl hr
  refine ⟨h, s, hx, ?_⟩
  cases hr
  exact ⟨_, _, rfl⟩

/-- What `Careful` leaves out can break it: when the link goes down while the router is being told about
the listeners, the thread that does so waits for itself to finish. From then on, whatever happens and
whatever the application does, the link is never made again and nothing is ever sent: every thread that
sends hangs. -/
theorem C74_drop_while_telling_fails {h s n j t i} (hx : Careful h s) (hp : s.place n = .reading j t i)
    {s1 o1 s2 o2} (h1 : Reconnect.step s .drop = .ok (s1, o1)) (h2 : Reconnect.step s1 (.tell n) = .ok (s2, o2))
    {h' s3} (hx' : Exec Reconnect.step s2 h' s3) : s3.link = false ∧ ∀ x ∈ h', x.2 ≠ .sent := by
  have hi := Reconnect.inv hx
  have hd : Reconnect.Dead s2 := by
    simp only [Reconnect.step] at h1
    cases h1
    have hp1 : (Reconnect.cut s).place n = .reading j t i := hp
    obtain ⟨t', i', l, hl, _⟩ := hi.entry _ _ _ _ hp
    have hl1 : (Reconnect.cut s).slots[i]? = some (some l) := hl
    have hk1 : (Reconnect.cut s).link = false := rfl
    simp only [Reconnect.step, hp1, hl1, hk1] at h2
    cases h2
    refine ⟨hi.prog.mpr ⟨n, by rw [hp]; trivial⟩, rfl, hi.closed, ?_⟩
    intro m
    rw [move_place]; split
    · exact nofun
    · next hm =>
      intro hr
      exact hm (hi.one m n hr (by rw [hp]; trivial))
  have := Reconnect.dead hd hx'
  exact ⟨this.1.link, this.2⟩

example : ∃ h s, Careful h s ∧ s.place 0 = .reading none 1 0 ∧
    ∃ s2 os, Reconnect.run s [.drop, .tell 0, .other 1, .send 1, .claim 1] = .ok (s2, os) ∧
      s2.place 0 = .nested none 1 0 ∧ s2.place 1 = .waiting (some .other) 10 := by
  obtain ⟨s, os, hr⟩ : ∃ s os, Reconnect.run Reconnect.init
    (adding ++ [.drop] ++ [.lost, .claim 0, .connect 0 .made, .look 0]) = .ok (s, os) := ⟨_, _, rfl⟩
  obtain ⟨h, hx⟩ := careful_demo rfl hr
  refine ⟨h, s, hx, ?_⟩
  cases hr
  exact ⟨rfl, _, _, rfl, rfl, rfl⟩

/-- The same happens when the flags of the new socket cannot be set: it is not noted that the attempt is
over, and every thread waits for its end. -/
theorem C74_no_flags_fails {h s n j t f} (hx : Careful h s) (hp : s.place n = .opening j t f)
    {s1 o1} (h1 : Reconnect.step s (.connect n .noFlags) = .ok (s1, o1))
    {h' s2} (hx' : Exec Reconnect.step s1 h' s2) : s2.link = false ∧ ∀ x ∈ h', x.2 ≠ .sent := by
  have hi := Reconnect.inv hx
  have hd : Reconnect.Dead s1 := by
    simp only [Reconnect.step, hp] at h1
    cases h1
    refine ⟨hi.prog.mpr ⟨n, by rw [hp]; trivial⟩, rfl, rfl, ?_⟩
    intro m
    rw [move_place]; split
    · exact Fits.giveUp (s := s) (s' := s).2
    · next hm =>
      intro hr
      exact hm (hi.one m n hr (by rw [hp]; trivial))
  have := Reconnect.dead hd hx'
  exact ⟨this.1.link, this.2⟩

example : ∃ h s, Careful h s ∧ s.place 0 = .opening none 1 false ∧
    ∃ s2 os, Reconnect.run s [.connect 0 .noFlags, .claim 0, .other 1, .send 1, .claim 1] = .ok (s2, os) ∧
      s2.place 0 = .waiting none 6 ∧ s2.place 1 = .waiting (some .other) 8 := by
  obtain ⟨s, os, hr⟩ : ∃ s os, Reconnect.run Reconnect.init
    (adding ++ [.drop] ++ [.lost, .claim 0]) = .ok (s, os) := ⟨_, _, rfl⟩
  obtain ⟨h, hx⟩ := careful_demo rfl hr
  refine ⟨h, s, hx, ?_⟩
  cases hr
  exact ⟨rfl, _, _, rfl, rfl, rfl⟩

/-- When no socket is to be had for a moment, the next attempt takes the connection for the first one ever
and does not tell the router about the listeners: the link is up, every thread is at rest, and the
listener gets no messages. -/
theorem C74_no_socket_fails : ∃ h s, Exec Reconnect.step Reconnect.init h s ∧ (∀ n, AtRest (s.place n)) ∧
    s.link = true ∧ (topicA, 5) ∈ held h ∧ s.routes = [] := by
  obtain ⟨s, os, hr, hos⟩ : ∃ s os, Reconnect.run Reconnect.init (adding ++ [.drop] ++
    [.lost, .claim 0, .connect 0 .noSocket, .claim 0, .connect 0 .made]) = .ok (s, os) ∧
    os = [.silent, .sent, .silent, .silent, .silent, .error, .silent, .silent] := ⟨_, _, rfl, rfl⟩
  refine ⟨_, s, (Exec.extend .nil (run := Reconnect.run) (fun _ => rfl) (fun _ _ _ => rfl) _ s os hr).2, ?_, ?_⟩
  · intro n
    refine untouched_two hr rfl ?_ ?_ trivial n <;> (cases hr; trivial)
  · refine ⟨by cases hr; rfl, ?_, by cases hr; rfl⟩
    rw [hos]
    decide

set_option maxRecDepth 16384 in
/-- Further names of a listener are not told again: an element that a provider registered as another name
of its object (`.alias`) is unknown to the router after the link was made again, though the object itself
is known. -/
theorem C74_names_lost_fails : ∃ h s, Exec Reconnect.step Reconnect.init h s ∧ (∀ n, AtRest (s.place n)) ∧
    s.link = true ∧ (Reconnect.Event.alias 1 [66] 5, Reconnect.Out.silent) ∈ h ∧ s.routes = [(topicA, 5)] ∧
    s.aliases = [] := by
  obtain ⟨s, os, hr, hos⟩ : ∃ s os, Reconnect.run Reconnect.init (adding ++ [.alias 1 [66] 5, .send 1, .drop] ++
    (remaking ++ finishing)) = .ok (s, os) ∧ os[2]? = some .silent := ⟨_, _, rfl, rfl⟩
  refine ⟨_, s, (Exec.extend .nil (run := Reconnect.run) (fun _ => rfl) (fun _ _ _ => rfl) _ s os hr).2, ?_, ?_⟩
  · intro n
    refine untouched_two hr rfl ?_ ?_ trivial n <;> (cases hr; trivial)
  · refine ⟨by cases hr; rfl, ?_, by cases hr; rfl, by cases hr; rfl⟩
    refine List.mem_append_right _ (List.mem_iff_getElem?.mpr ⟨2, ?_⟩)
    rw [List.getElem?_zip_eq_some]
    exact ⟨rfl, hos⟩

/-- An entry can be taken away while it is read to tell the router about it. -/
theorem C74_remove_while_telling_fails : ∃ h s, Exec Reconnect.step Reconnect.init h s ∧
    Reconnect.step s (.tell 0) = .ub := by
  obtain ⟨s, os, hr⟩ : ∃ s os, Reconnect.run Reconnect.init (adding ++ [.drop] ++
    [.lost, .claim 0, .connect 0 .made, .look 0, .remove 1 topicA 5]) = .ok (s, os) := ⟨_, _, rfl⟩
  refine ⟨_, s, (Exec.extend .nil (run := Reconnect.run) (fun _ => rfl) (fun _ _ _ => rfl) _ s os hr).2, ?_⟩
  cases hr
  rfl

set_option maxRecDepth 16384 in
/-- Even in a careful execution a link in good order is thrown away: a thread whose message failed while
another was connecting, and that is slow to say so, makes the link once more. -/
theorem C74_good_link_dropped_fails : ∃ h s, Careful h s ∧ s.link = true ∧ s.inProgress = false ∧
    s.routes = [(topicA, 5)] ∧ ∃ s', Reconnect.step s (.claim 1) = .ok (s', .silent) ∧ s'.link = false ∧
      s'.routes = [] := by
  obtain ⟨s, os, hr⟩ : ∃ s os, Reconnect.run Reconnect.init (adding ++ [.drop] ++
    ([.lost, .claim 0, .other 1, .send 1, .connect 0 .made] ++ finishing)) = .ok (s, os) := ⟨_, _, rfl⟩
  obtain ⟨h, hx⟩ := careful_demo rfl hr
  refine ⟨h, s, hx, ?_⟩
  cases hr
  exact ⟨rfl, rfl, rfl, _, rfl, rfl, rfl⟩

end Verif.Props
