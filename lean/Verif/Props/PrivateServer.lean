import Verif.Proof.PrivateServer

/-!
# Properties of private connections, provider's side (C76)
-/

namespace Verif.Props

open Verif.PrivateServer

private theorem server_exec {es s os} (hr : PrivateServer.run PrivateServer.init es = .ok (s, os)) :
    Exec PrivateServer.step PrivateServer.init (es.zip os) s := by
  simpa using (Exec.extend .nil (run := PrivateServer.run) (fun _ => rfl) (fun _ _ _ => rfl) es s os hr).2

/-- Consumer 5 opens two parameters, connects and registers. -/
private def opening5 : List PrivateServer.Event :=
  [.open 5 10 5, .bind 0, .connect 0, .register 0 5, .open 5 11 5]

/-- An event for a consumer goes over a private connection exactly when that consumer has the parameter
open: it asked for it, did not close it, and the connection has not ended. -/
theorem C76_private_iff_open {h s t c p s' o} (hx : Exec PrivateServer.step PrivateServer.init h s)
    (hs : PrivateServer.step s (.publish t c p) = .ok (s', o)) (ho : o ≠ .idle) :
    (o = .privately ↔ IsOpen h c p) ∧ (o = .routed ↔ ¬ IsOpen h c p) := by
  have hi := PrivateServer.inv hx
  have hiff : IsOpen h c p ↔ ∃ e ∈ s.entries, e.consumer = c ∧ e.param = p := by
    unfold IsOpen
    rw [hi.opened]
    constructor
    · rintro ⟨a, ha⟩
      obtain ⟨e, he, hsh⟩ := List.mem_map.1 ha
      simp only [shown, Prod.mk.injEq] at hsh
      exact ⟨e, he, hsh.1, hsh.2.1⟩
    · rintro ⟨e, he, rfl, rfl⟩
      exact ⟨e.addr, List.mem_map.2 ⟨e, he, rfl⟩⟩
  rw [hiff]
  simp only [PrivateServer.step] at hs
  split at hs
  · split at hs
    · rename_i e he
      obtain ⟨h1, h2, h3⟩ := find_some he
      cases hs
      exact ⟨⟨fun _ => ⟨e, h1, h3, h2⟩, fun _ => rfl⟩, nofun, fun hn => (hn ⟨e, h1, h3, h2⟩).elim⟩
    · rename_i he
      have hno := find_none he
      cases hs
      exact ⟨⟨nofun, fun ⟨e, h1, h2, h3⟩ => (hno e h1 h2 h3).elim⟩,
        fun _ ⟨e, h1, h2, h3⟩ => hno e h1 h2 h3, fun _ => rfl⟩
  · cases hs; exact (ho rfl).elim

example : ∃ h s s1 s2, Exec PrivateServer.step PrivateServer.init h s ∧ opened h = [(5, 11, 5)] ∧
    PrivateServer.step s (.publish 1 5 11) = .ok (s1, .privately) ∧
    PrivateServer.step s (.publish 1 5 10) = .ok (s2, .routed) :=
  ⟨_, _, _, _, server_exec (es := opening5 ++ [.close 5 10]) rfl, by decide, rfl, rfl⟩

/-- An event that goes over a private connection goes over the one its consumer last registered on, if
nothing is closed and no connection ends while it is being sent. Missing: consumers that have not yet
registered; addresses chosen at random; closing meanwhile. See below. -/
theorem C76_event_reaches_consumer_partial {h s t c p s1 h' s2 fd}
    (hx : Exec PrivateServer.step PrivateServer.init h s)
    (hs : PrivateServer.step s (.publish t c p) = .ok (s1, .privately))
    (hx' : Exec PrivateServer.step s1 h' s2) (hq : Quiet h') (hn : ∀ x ∈ h', x.1 ≠ .send t)
    (hl : Local (h ++ [(.publish t c p, .privately)] ++ h'))
    (hch : channel (h ++ [(.publish t c p, .privately)] ++ h') c = some fd) :
    ∃ s3, PrivateServer.step s2 (.send t) = .ok (s3, .sent (some fd)) := by
  have hx2 : Exec PrivateServer.step PrivateServer.init (h ++ [(.publish t c p, .privately)] ++ h') s2 := by
    clear hl hch hq hn
    induction hx' with
    | nil => simpa using Exec.snoc hx hs
    | snoc _ h2 ih =>
      rw [← List.append_assoc]
      exact .snoc ih h2
  have hi2 := PrivateServer.inv hx2
  have hc2 := chan hx2 hl
  simp only [PrivateServer.step] at hs
  split at hs
  · split at hs
    · rename_i e he
      obtain ⟨he1, _, he3⟩ := find_some he
      cases hs
      obtain ⟨h1, h2⟩ := quiet_exec hx' hq (u := 2 * t) (by simp [move])
        (fun t' ht => by rw [Nat.eq_of_mul_eq_mul_left (by decide) ht]; exact hn)
        (fun i hi => by omega)
      obtain ⟨e2, he2, hlab⟩ := List.mem_map.1 (h1 _ (List.mem_map.2 ⟨e, he1, rfl⟩))
      simp only [labelled, shown, Prod.mk.injEq] at hlab
      have hf := find_id hi2.nodup he2
      rw [hlab.1] at hf
      have hfd := hc2.fd e2 he2
      rw [hlab.2.1, he3, hch] at hfd
      simp only [PrivateServer.step, h2, move, if_true, hf, hfd]
      exact ⟨_, rfl⟩
    · cases hs
  · cases hs

example : ∃ h s s1 s2, Exec PrivateServer.step PrivateServer.init h s ∧
    PrivateServer.step s (.publish 1 5 11) = .ok (s1, .privately) ∧
    Exec PrivateServer.step s1 [(.open 6 10 6, .opened)] s2 ∧
    channel (h ++ [(.publish 1 5 11, .privately)] ++ [(.open 6 10 6, .opened)]) 5 = some 3 :=
  ⟨_, _, _, _, server_exec (es := opening5) rfl, rfl, .snoc .nil rfl, by decide⟩

/-- A request that comes over a private connection is answered when its parameter is open, for whichever
consumer, if nothing is closed and no connection ends while it is being handled. Missing: as above. -/
theorem C76_request_answered_partial {h s i fd p s1 h' s2}
    (hx : Exec PrivateServer.step PrivateServer.init h s)
    (hs : PrivateServer.step s (.ask i fd p) = .ok (s1, .asked))
    (hx' : Exec PrivateServer.step s1 h' s2) (hq : Quiet h') (hn : ∀ x ∈ h', x.1 ≠ .answer i) :
    (∃ c, IsOpen h c p) ∧ ∃ s3, PrivateServer.step s2 (.answer i) = .ok (s3, .answered) := by
  have hi := PrivateServer.inv hx
  simp only [PrivateServer.step] at hs
  split at hs
  · split at hs
    · split at hs
      · rename_i e he
        have he1 := List.mem_of_find?_eq_some he
        have he2 := List.find?_some he
        cases hs
        refine ⟨⟨e.consumer, e.addr, ?_⟩, ?_⟩
        · rw [hi.opened]
          refine List.mem_map.2 ⟨e, he1, ?_⟩
          simp only [shown, Prod.mk.injEq, true_and, and_true]
          simpa using he2
        · obtain ⟨h1, h2⟩ := quiet_exec hx' hq (u := 2 * i + 1) (by simp [move])
            (fun t' ht => by omega)
            (fun i' hi' => by
              have : i' = i := by omega
              rw [this]; exact hn)
          obtain ⟨e2, he2, hlab⟩ := List.mem_map.1 (h1 _ (List.mem_map.2 ⟨e, he1, rfl⟩))
          simp only [labelled, shown, Prod.mk.injEq] at hlab
          have hany : s2.entries.any (·.id == e.id) = true :=
            List.any_eq_true.2 ⟨e2, he2, by simpa using hlab.1⟩
          simp only [PrivateServer.step, h2, move, if_true, hany]
          exact ⟨_, rfl⟩
      · cases hs
    · cases hs
  · cases hs

example : ∃ h s s1, Exec PrivateServer.step PrivateServer.init h s ∧
    PrivateServer.step s (.ask 0 3 11) = .ok (s1, .asked) :=
  ⟨_, _, _, server_exec (es := opening5) rfl, rfl⟩

/-- A request about a parameter that nobody has open is refused, not dropped: the consumer gets an
answer. -/
theorem C76_request_refused {h s i fd p s1 o} (hx : Exec PrivateServer.step PrivateServer.init h s)
    (hs : PrivateServer.step s (.ask i fd p) = .ok (s1, o)) (hr : o ≠ .unread)
    (hno : ∀ c, ¬ IsOpen h c p) : o = .unsupported := by
  have hi := PrivateServer.inv hx
  simp only [PrivateServer.step] at hs
  split at hs
  · split at hs
    · split at hs
      · rename_i e he
        have he1 := List.mem_of_find?_eq_some he
        have he2 := List.find?_some he
        refine (hno e.consumer ⟨e.addr, ?_⟩).elim
        rw [hi.opened]
        refine List.mem_map.2 ⟨e, he1, ?_⟩
        simp only [shown, Prod.mk.injEq, true_and, and_true]
        simpa using he2
      · cases hs; rfl
    · cases hs; exact (hr rfl).elim
  · cases hs; exact (hr rfl).elim

example : ∃ h s s1, Exec PrivateServer.step PrivateServer.init h s ∧
    PrivateServer.step s (.ask 0 3 12) = .ok (s1, .unsupported) :=
  ⟨_, _, _, server_exec (es := opening5) rfl, rfl⟩

/-- From the moment a provider has agreed to a consumer's first private parameter until that consumer has
connected and registered, which takes at least the two seconds the listening thread sleeps, every event
about it is written to the provider's standard input: the consumer never gets it, neither privately nor
through the router. -/
theorem C76_events_lost_before_registering_fails {h s c p}
    (hx : Exec PrivateServer.step PrivateServer.init h s) (hl : Local h) (hno : ∀ q, ¬ IsOpen h c q)
    {h' s'} (hx' : Exec PrivateServer.step (startListener s c p c) h' s')
    (hreg : ∀ x ∈ h', ∀ i, x.1 ≠ .register i c) (hl' : Local h')
    {t s1 s2 o} (hpub : PrivateServer.step s' (.publish t c p) = .ok (s1, .privately))
    (hsend : PrivateServer.step s1 (.send t) = .ok (s2, o)) : o = .sent none := by
  have hopen : Exec PrivateServer.step PrivateServer.init (h ++ [(.open c p c, .opened)])
    (startListener s c p c) := .snoc hx rfl
  have hx2 : Exec PrivateServer.step PrivateServer.init (h ++ [(.open c p c, .opened)] ++ h') s' := by
    clear hl' hreg hpub hsend
    induction hx' with
    | nil => simpa using hopen
    | snoc _ h2 ih =>
      rw [← List.append_assoc]
      exact .snoc ih h2
  have hloc : Local (h ++ [(.open c p c, .opened)] ++ h') := by
    intro c1 p1 a1 o1 hm
    simp only [List.mem_append, List.mem_singleton] at hm
    rcases hm with (hm | hm) | hm
    · exact hl _ _ _ _ hm
    · simp only [Prod.mk.injEq, PrivateServer.Event.open.injEq] at hm
      rw [hm.1.2.2, hm.1.1]
    · exact hl' _ _ _ _ hm
  have hall : (opened h).all (·.1 != c) = true := by
    rw [List.all_eq_true]
    rintro ⟨c1, p1, a1⟩ hm
    simp only [bne_iff_ne, ne_eq]
    rintro rfl
    exact hno p1 ⟨a1, hm⟩
  have hgo : ∀ (k l : PrivateServer.History), channel l c = none → (∀ x ∈ k, ∀ i, x.1 ≠ .register i c) →
      channel (l ++ k) c = none := by
    intro k
    induction k with
    | nil => intro l h1 _; simpa using h1
    | cons x k ih =>
      intro l h1 hk
      have := ih (l ++ [x]) ?_ (fun y hy => hk y (by simp [hy]))
      · simpa using this
      · rw [channel_snoc]
        split
        · rfl
        · split
          · rename_i i c' fd _
            have : c' ≠ c := fun hcc => hk _ List.mem_cons_self i (by rw [hcc])
            rw [if_neg this, h1]
          · exact h1
  have hnone : channel (h ++ [(.open c p c, .opened)] ++ h') c = none := by
    refine hgo h' _ ?_ hreg
    rw [channel_snoc]
    split
    · rfl
    · exact channel_none hall
  have hi2 := PrivateServer.inv hx2
  have hc2 := chan hx2 hloc
  simp only [PrivateServer.step] at hpub
  split at hpub
  · split at hpub
    · rename_i e he
      obtain ⟨he1, _, he3⟩ := find_some he
      cases hpub
      have hf := find_id hi2.nodup he1
      have hfd := hc2.fd e he1
      rw [he3, hnone] at hfd
      simp only [PrivateServer.step, move, if_true, hf] at hsend
      cases hsend
      rw [hfd]
    · cases hpub
  · cases hpub

example : ∃ s1 s2, PrivateServer.step (startListener PrivateServer.init 5 10 5) (.publish 1 5 10) =
    .ok (s1, .privately) ∧ PrivateServer.step s1 (.send 1) = .ok (s2, .sent none) := ⟨_, _, rfl, rfl⟩

/-- On a bus over the network an address is chosen at random for every parameter, while the consumer keeps
to its first connection: events about the second parameter are written to the provider's standard input
though the consumer has registered. -/
theorem C76_second_parameter_lost_fails : ∃ h s, Exec PrivateServer.step PrivateServer.init h s ∧
    IsOpen h 5 11 ∧ channel h 5 = some 3 ∧ (.open 5 11 8090, .opened) ∈ h ∧
    ∃ s1 s2, PrivateServer.step s (.publish 1 5 11) = .ok (s1, .privately) ∧
      PrivateServer.step s1 (.send 1) = .ok (s2, .sent none) :=
  ⟨_, _, server_exec (es := [.open 5 10 8080, .bind 0, .connect 0, .register 0 5, .open 5 11 8090]) rfl,
    ⟨8090, by decide⟩, by decide, by decide, _, _, rfl, rfl⟩

/-- A consumer that closes its last private parameter and at once opens one again loses it: when the
provider notices that the old connection has ended, it forgets everything with that address. Both calls
succeeded, and yet events go through the router and requests are refused. -/
theorem C76_reopen_lost_fails : ∃ h s, Exec PrivateServer.step PrivateServer.init h s ∧
    h.getLast? = some (.hangup 0, .ended 5) ∧ h[5]? = some (.open 5 10 5, .opened) ∧
    (∀ x ∈ h.drop 6, x.1 ≠ .close 5 10) ∧
    (∃ s1, PrivateServer.step s (.publish 1 5 10) = .ok (s1, .routed)) :=
  ⟨_, _, server_exec (es := [.open 5 10 5, .bind 0, .connect 0, .register 0 5, .close 5 10, .open 5 10 5,
    .hangup 0]) rfl, by decide, by decide, by decide, _, rfl⟩

/-- Nor does it help when the new thread comes first: it cannot bind the address still in use, takes that
for its own end, and removes the socket file and everything opened. -/
theorem C76_reopen_bind_fails : ∃ h s, Exec PrivateServer.step PrivateServer.init h s ∧
    h.getLast? = some (.bind 1, .ended 5) ∧ h[5]? = some (.open 5 10 5, .opened) ∧ opened h = [] ∧
    s.bound = [] ∧ s.instances = [⟨0, 5, .listening (some 3)⟩] :=
  ⟨_, _, server_exec (es := [.open 5 10 5, .bind 0, .connect 0, .register 0 5, .close 5 10, .open 5 10 5,
    .bind 1]) rfl, by decide, by decide, by decide, by decide, by decide⟩

/-- Anybody on the machine may connect to the address of a private connection, and whoever does puts an
end to it: requests on the consumer's own connection are never read again. -/
theorem C76_intruder_fails {h s i x fd} (hx : Exec PrivateServer.step PrivateServer.init h s)
    (hinst : PrivateServer.inst s i = some x) (hph : x.phase = .listening (some fd))
    {s1 fd'} (hcon : PrivateServer.step s (.connect i) = .ok (s1, .connected fd'))
    {h' s2} (hx' : Exec PrivateServer.step s1 h' s2) {p s3 o}
    (hask : PrivateServer.step s2 (.ask i fd p) = .ok (s3, o)) : o = .unread := by
  have hi := PrivateServer.inv hx
  have hxm := List.mem_of_find?_eq_some hinst
  have hlt := hi.fds x hxm fd hph
  have hip : i < s.nextInstance := by
    have h1 := List.find?_some hinst
    have h2 := hi.instBelow x hxm
    have h3 : x.id = i := by simpa using h1
    omega
  -- from now on the instance has another client, and no new one gets the old number
  have key : (∀ y ∈ s2.instances, y.id = i → y.phase ≠ .listening (some fd)) ∧ fd < s2.nextFd ∧
      i < s2.nextInstance := by
    have hstart : (∀ y ∈ s1.instances, y.id = i → y.phase ≠ .listening (some fd)) ∧ fd < s1.nextFd ∧
        i < s1.nextInstance := by
      simp only [PrivateServer.step, hinst, hph] at hcon
      split at hcon
      · cases hcon
        refine ⟨?_, Nat.lt_succ_of_lt hlt, hip⟩
        intro y hy hyi
        simp only [setPhase] at hy
        obtain ⟨z, hz, rfl⟩ := List.mem_map.1 hy
        split
        · simp only [ne_eq, PrivateServer.Phase.listening.injEq, Option.some.injEq]
          omega
        · rename_i hzi
          split at hyi
          · exact (hzi hyi).elim
          · exact (hzi hyi).elim
      · cases hcon
    clear hask hcon
    induction hx' with
    | nil => exact hstart
    | @snoc h' sa e oa sb hxa hs ih =>
      obtain ⟨h1, h2, h3⟩ := ih
      have hset : ∀ j ph, ph ≠ .listening (some fd) → ∀ y ∈ (setPhase sa j ph).instances, y.id = i →
          y.phase ≠ .listening (some fd) := by
        intro j ph hph y hy hyi
        simp only [setPhase] at hy
        obtain ⟨z, hz, rfl⟩ := List.mem_map.1 hy
        split at hyi
        · rename_i hzj; rw [if_pos hzj]; exact hph
        · rename_i hzj; rw [if_neg hzj]; exact h1 z hz hyi
      cases e with
      | «open» c p a =>
        simp only [PrivateServer.step] at hs
        cases hs
        unfold startListener
        split
        · refine ⟨?_, h2, Nat.lt_succ_of_lt h3⟩
          intro y hy hyi
          simp only [List.mem_append, List.mem_singleton] at hy
          rcases hy with hy | rfl
          · exact h1 y hy hyi
          · nofun
        · exact ⟨h1, h2, h3⟩
      | close c p =>
        simp only [PrivateServer.step, closeParam] at hs
        split at hs <;> cases hs <;> exact ⟨h1, h2, h3⟩
      | bind j =>
        simp only [PrivateServer.step] at hs
        split at hs
        · split at hs
          · split at hs <;> cases hs
            · exact ⟨fun y hy => h1 y (List.mem_filter.1 hy).1, h2, h3⟩
            · exact ⟨hset j _ nofun, h2, h3⟩
          · cases hs; exact ⟨h1, h2, h3⟩
        · cases hs; exact ⟨h1, h2, h3⟩
      | connect j =>
        simp only [PrivateServer.step] at hs
        split at hs
        · split at hs
          · cases hs; exact ⟨h1, h2, h3⟩
          · split at hs <;> cases hs
            · refine ⟨hset j _ ?_, Nat.lt_succ_of_lt h2, h3⟩
              simp only [ne_eq, PrivateServer.Phase.listening.injEq, Option.some.injEq]
              omega
            · exact ⟨h1, h2, h3⟩
        · cases hs; exact ⟨h1, h2, h3⟩
      | register j c =>
        simp only [PrivateServer.step] at hs
        split at hs
        · split at hs <;> cases hs <;> exact ⟨h1, h2, h3⟩
        · cases hs; exact ⟨h1, h2, h3⟩
      | hangup j =>
        simp only [PrivateServer.step] at hs
        split at hs
        · split at hs <;> cases hs
          · exact ⟨fun y hy => h1 y (List.mem_filter.1 hy).1, h2, h3⟩
          · exact ⟨h1, h2, h3⟩
        · cases hs; exact ⟨h1, h2, h3⟩
      | ask j f p =>
        simp only [PrivateServer.step] at hs
        split at hs
        · split at hs
          · split at hs <;> cases hs <;> exact ⟨h1, h2, h3⟩
          · cases hs; exact ⟨h1, h2, h3⟩
        · cases hs; exact ⟨h1, h2, h3⟩
      | answer j =>
        simp only [PrivateServer.step] at hs
        split at hs
        · split at hs <;> cases hs; exact ⟨h1, h2, h3⟩
        · cases hs; exact ⟨h1, h2, h3⟩
      | publish t c p =>
        simp only [PrivateServer.step] at hs
        split at hs
        · split at hs <;> cases hs <;> exact ⟨h1, h2, h3⟩
        · cases hs; exact ⟨h1, h2, h3⟩
      | send t =>
        simp only [PrivateServer.step] at hs
        split at hs
        · split at hs <;> cases hs; exact ⟨h1, h2, h3⟩
        · cases hs; exact ⟨h1, h2, h3⟩
  simp only [PrivateServer.step] at hask
  split at hask
  · rename_i y hy
    have hym := List.mem_of_find?_eq_some hy
    have hyi := List.find?_some hy
    rw [if_neg (fun hc => key.1 y hym (by simpa using hyi) hc.1)] at hask
    cases hask
    rfl
  · cases hask; rfl

example : ∃ h s, Exec PrivateServer.step PrivateServer.init h s ∧
    PrivateServer.inst s 0 = some ⟨0, 5, .listening (some 3)⟩ ∧
    ∃ s1, PrivateServer.step s (.connect 0) = .ok (s1, .connected 4) :=
  ⟨_, _, server_exec (es := opening5) rfl, by decide, _, rfl⟩

/-- What `Quiet` leaves out: when a parameter is closed while an event about it is being sent, or while a
request about it is being handled, the entry is read after it was freed. -/
theorem C76_close_while_used_fails :
    (∃ h s, Exec PrivateServer.step PrivateServer.init h s ∧ h.getLast? = some (.close 5 11, .closed) ∧
      PrivateServer.step s (.send 1) = .ub) ∧
    (∃ h s, Exec PrivateServer.step PrivateServer.init h s ∧ h.getLast? = some (.close 5 11, .closed) ∧
      PrivateServer.step s (.answer 0) = .ub) :=
  ⟨⟨_, _, server_exec (es := opening5 ++ [.publish 1 5 11, .close 5 11]) rfl, by decide, rfl⟩,
    ⟨_, _, server_exec (es := opening5 ++ [.ask 0 3 11, .close 5 11]) rfl, by decide, rfl⟩⟩

end Verif.Props
