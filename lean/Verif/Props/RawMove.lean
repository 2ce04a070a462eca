import Verif.Proof.RawMove

/-!
# C97: data sent as is, while private connections come and go

The full statement: whoever has subscribed to an event's data as is gets every publication of it exactly once,
with the handler, the user data and the handle of the subscription and the name of the event, whether and
whenever a private connection to the provider is opened or closed; and nobody else does.
-/

namespace Verif.Props

open Verif.RawMove (Call Topic)
open Verif.Spec.RawMove (sheet due note upd Way History)
open Verif.Proof.RawMove

/-- What a publication leads to, after any history: who subscribed is called once, by the way the event comes
at the time (`Verif.Spec.RawMove.due`), nobody else is, and it is undefined exactly when the event comes for a
handle that was closed. -/
theorem C97_due {h : History} {s : RawMove.State} (hx : Exec RawMove.step RawMove.init h s) (e : Nat) :
    RawMove.step s (.publish e) = (due (sheet h) e >>= fun cs => .ok (s, .calls cs)) := by
  rw [← publish_due (rel_exec hx) e]
  rfl

/-- An event whose subscription was never moved back from a private connection, between two calls of the
consumer: a publication of it leads to one call, with the handler and the user data of the subscription and the
handle it was made with. Missing: events that were moved back (`C97_closed_fails`), and publications during
the move (`C97_lost_fails`). -/
theorem C97_once_partial {h : History} {s : RawMove.State} (hx : Exec RawMove.step RawMove.init h s) {e hd u : Nat}
    (hs : (sheet h).sub e = some (hd, u)) (hb : (sheet h).busy = false)
    (hn : ∀ x ∈ h, ∀ k, x.2 ≠ .returned e k) :
    ∃ name, RawMove.step s (.publish e) = .ok (s, .calls [⟨hd, u, 0, name⟩]) := by
  have r := rel_exec hx
  rw [C97_due hx e, due, hs]
  simp only
  cases hw : (sheet h).way e with
  | nowhere => exact absurd hw (way_settled r hb hs)
  | router => exact ⟨_, rfl⟩
  | direct => exact ⟨_, rfl⟩
  | lent k => exact absurd hw (way_not_lent hn k)

/-- Likewise for histories in words: a subscription, not followed by its end. -/
theorem C97_subscribed {a b : History} {e hd u : Nat}
    (hb : ∀ x ∈ b, x ≠ (.unsubscribe e, .unsubscribed) ∧ ∀ hd' u', x ≠ (.subscribe e hd' u', .subscribed)) :
    (sheet (a ++ (.subscribe e hd u, .subscribed) :: b)).sub e = some (hd, u) :=
  sub_stays hb

/-- No subscription, no call. -/
theorem C97_nobody_else {h : History} {s : RawMove.State} (hx : Exec RawMove.step RawMove.init h s) {e : Nat}
    (hs : (sheet h).sub e = none) : RawMove.step s (.publish e) = .ok (s, .calls []) := by
  rw [C97_due hx e, due, hs]
  rfl

/-- A publication never leads to more than one call, whenever it comes, and the call is that of the
subscription to the event. -/
theorem C97_at_most_once {h : History} {s s' : RawMove.State} (hx : Exec RawMove.step RawMove.init h s) {e : Nat}
    {cs : List Call} (hp : RawMove.step s (.publish e) = .ok (s', .calls cs)) :
    s' = s ∧ cs.length ≤ 1 ∧ ∀ c ∈ cs, (sheet h).sub e = some (c.handler, c.user) := by
  rw [C97_due hx e] at hp
  obtain ⟨cs', h1, h2⟩ := res_bind_ok hp
  cases h2
  refine ⟨rfl, ?_⟩
  rw [due] at h1
  cases hs : (sheet h).sub e with
  | none => rw [hs] at h1; cases h1; simp
  | some p =>
    obtain ⟨hd, u⟩ := p
    rw [hs] at h1
    simp only at h1
    cases hw : (sheet h).way e with
    | nowhere => rw [hw] at h1; cases h1; simp
    | router => rw [hw] at h1; cases h1; simp
    | direct => rw [hw] at h1; cases h1; simp
    | lent k =>
      rw [hw] at h1
      simp only at h1
      split at h1
      · cases h1
      · cases h1; simp

/-- After a private connection was closed whose event is subscribed to, the event is listened for on behalf of
the handle just freed: the next publication is handled with freed memory. -/
theorem C97_closed_fails {h : History} {s s1 : RawMove.State} (hx : Exec RawMove.step RawMove.init h s) {e k : Nat}
    (hc : RawMove.step s (.closeDirect k) = .ok (s1, .leftPrivate e)) :
    ∃ s2, RawMove.run s1 [.go, .go] = .ok (s2, [.returned e k, .closed e k]) ∧
      RawMove.step s2 (.publish e) = .ub := by
  obtain ⟨hp, b, hf⟩ := close_phase hc
  obtain ⟨t1, g1, p1, f1⟩ := go_parted hp hf
  obtain ⟨t2, g2, -, f2⟩ := go_back p1
  refine ⟨t2, by simp [RawMove.run, g1, g2], ?_⟩
  have hx2 := ((hx.snoc hc).snoc g1).snoc g2
  have r := rel_exec hx2
  rw [C97_due hx2 e, due, r.subs, RawMove.findSub, f2]
  rw [RawMove.findSub] at f1
  rw [f1, sheet_snoc, sheet_snoc]
  simp [note, upd]

/-- While a subscription moves from one connection to the other, to or fro, it is nowhere for a time: what is
published then reaches no handler, though the event is subscribed to all the time. -/
theorem C97_lost_fails {h : History} {s s1 : RawMove.State} (hx : Exec RawMove.step RawMove.init h s) {e : Nat}
    {ev : RawMove.Event} {o : RawMove.Out} (ho : o = .leftRouter e ∨ o = .leftPrivate e)
    (hc : RawMove.step s ev = .ok (s1, o)) :
    (sheet (h ++ [(ev, o)])).sub e ≠ none ∧ RawMove.step s1 (.publish e) = .ok (s1, .calls []) := by
  have hx2 := hx.snoc hc
  have r := rel_exec hx2
  have hm : (sheet (h ++ [(ev, o)])).sub e ≠ none := r.movingIn e (moving_of ho hc)
  refine ⟨hm, ?_⟩
  rw [C97_due hx2 e, due]
  cases hs : (sheet (h ++ [(ev, o)])).sub e with
  | none => exact absurd hs hm
  | some p =>
    have hw : (sheet (h ++ [(ev, o)])).way e = .nowhere := by
      rw [sheet_snoc]
      rcases ho with rfl | rfl <;> cases ev <;> simp [note, upd]
    simp only [hw]
    rfl

/-- The name a handler is told is never that of the event: it is that of the topic the message came on, which
is `rawdata.` and the name through the router, and the consumer's own inbox over a private connection
(rbus.c:5224, include/rbus.h:236). -/
theorem C97_name_fails {h : History} {s s' : RawMove.State} (hx : Exec RawMove.step RawMove.init h s) {e : Nat}
    {cs : List Call} (hp : RawMove.step s (.publish e) = .ok (s', .calls cs)) :
    ∀ c ∈ cs, c.name ≠ .event e := by
  rw [C97_due hx e] at hp
  obtain ⟨cs', h1, h2⟩ := res_bind_ok hp
  cases h2
  rw [due] at h1
  cases hs : (sheet h).sub e with
  | none => rw [hs] at h1; cases h1; simp
  | some p =>
    obtain ⟨hd, u⟩ := p
    rw [hs] at h1
    simp only at h1
    cases hw : (sheet h).way e with
    | nowhere => rw [hw] at h1; cases h1; simp
    | router => rw [hw] at h1; cases h1; simp
    | direct => rw [hw] at h1; cases h1; simp
    | lent k =>
      rw [hw] at h1
      simp only at h1
      split at h1
      · cases h1
      · cases h1; simp

/-- What helps: opening a private connection again, or subscribing anew. -/
theorem C97_mended {h : History} {s : RawMove.State} (hx : Exec RawMove.step RawMove.init h s) {e hd u k : Nat}
    (hs : (sheet h).sub e = some (hd, u)) (hb : (sheet h).busy = false) (hw : (sheet h).way e = .lent k)
    (hd' u' : Nat) :
    (∃ s1 os, RawMove.run s [.openDirect e, .go, .go] = .ok (s1, os) ∧
      RawMove.step s1 (.publish e) = .ok (s1, .calls [⟨hd, u, 0, .inbox⟩])) ∧
    (∃ s1 os, RawMove.run s [.unsubscribe e, .subscribe e hd' u'] = .ok (s1, os) ∧
      RawMove.step s1 (.publish e) = .ok (s1, .calls [⟨hd', u', 0, .raw e⟩])) := by
  have r := rel_exec hx
  obtain ⟨hi, b, hf, hbu, hop⟩ := idle_facts r hb hs
  have hopen : (sheet h).isOpen e = false := by
    rw [hw] at hop
    cases ho : (sheet h).isOpen e with
    | false => rfl
    | true => rw [ho] at hop; cases hop
  constructor
  · obtain ⟨t0, g0, p0, f0⟩ := open_ok hi (by rw [r.opn]; exact hopen) hf
    obtain ⟨t1, g1, p1, f1⟩ := go_connected p0 f0
    obtain ⟨t2, g2, p2, f2⟩ := go_left p1 f1
    refine ⟨t2, [.connected e s.nextHandle, .leftRouter e, .opened e], by
      simp only [RawMove.run, g0, g1, g2, Res.ok_bind, Res.pure_eq], ?_⟩
    have hx2 := ((hx.snoc g0).snoc g1).snoc g2
    rw [C97_due hx2 e]
    simp only [due, sheet_snoc, note, upd, hs, if_true, Option.isSome_some]
    rfl
  · obtain ⟨t0, g0, p0, f0⟩ := unsubscribe_ok hi hf
    have hx0 := hx.snoc g0
    have r0 := rel_exec hx0
    obtain ⟨t1, g1⟩ := subscribe_ok (e := e) (h := hd') (u := u') p0 (by
      have := r0.subs e
      rw [sheet_snoc] at this
      simpa [note, upd] using this.symm)
    refine ⟨t1, [.unsubscribed, .subscribed], by simp only [RawMove.run, g0, g1, Res.ok_bind, Res.pure_eq], ?_⟩
    have hx2 := hx0.snoc g1
    rw [C97_due hx2 e]
    simp only [due, sheet_snoc, note, upd, hopen, if_true]
    rfl

/-- Each time a private connection is opened and closed while its event is subscribed to, one more context is
left behind in memory: the number of listeners is the same. -/
theorem C97_leak_fails {h : History} {s : RawMove.State} (hx : Exec RawMove.step RawMove.init h s) {e : Nat}
    {p : Nat × Nat} (hs : (sheet h).sub e = some p) (hb : (sheet h).busy = false) (ho : (sheet h).isOpen e = false) :
    ∃ s1 os, RawMove.run s [.openDirect e, .go, .go, .closeDirect s.nextHandle, .go, .go] = .ok (s1, os) ∧
      s1.ctxs.length = s.ctxs.length + 1 ∧ s1.main.length = s.main.length ∧ s1.priv.length = s.priv.length := by
  obtain ⟨s1, os, h1, h2⟩ := cycle (rel_exec hx) hb hs ho
  exact ⟨s1, os, h1, h2⟩

/-! Concrete cases. -/

private def movedRaw : List RawMove.Event :=
  [.subscribe 5 7 70, .subscribe 6 8 80, .publish 5, .openDirect 5, .publish 5, .go, .publish 5, .go, .publish 5,
    .publish 6, .openDirect 6, .go, .go]

private def movedRawOut : List RawMove.Out :=
  [.subscribed, .subscribed, .calls [⟨7, 70, 0, .raw 5⟩], .connected 5 1, .calls [⟨7, 70, 0, .raw 5⟩],
    .leftRouter 5, .calls [], .opened 5, .calls [⟨7, 70, 0, .inbox⟩], .calls [⟨8, 80, 0, .raw 6⟩],
    .connected 6 2, .leftRouter 6, .opened 6]

private def movedRawEnd : RawMove.State :=
  match RawMove.run RawMove.init movedRaw with
  | .ok r => r.1
  | _ => RawMove.init

private theorem movedRaw_exec : Exec RawMove.step RawMove.init (movedRaw.zip movedRawOut) movedRawEnd := by
  simpa using (Exec.extend (step := RawMove.step) (s₀ := RawMove.init) .nil (run := RawMove.run)
    (fun _ => rfl) (fun _ _ _ => rfl) movedRaw movedRawEnd movedRawOut rfl).2

example : ∃ name, RawMove.step movedRawEnd (.publish 5) = .ok (movedRawEnd, .calls [⟨7, 70, 0, name⟩]) :=
  C97_once_partial movedRaw_exec rfl rfl (by simp [movedRaw, movedRawOut])

example : RawMove.step movedRawEnd (.publish 4) = .ok (movedRawEnd, .calls []) := C97_nobody_else movedRaw_exec rfl

example : ∃ s1, RawMove.step movedRawEnd (.closeDirect 1) = .ok (s1, .leftPrivate 5) := ⟨_, rfl⟩

example : ∃ s1 os s2, RawMove.run movedRawEnd [.closeDirect 1, .go, .go] = .ok (s1, os) ∧
    RawMove.step s1 (.publish 5) = .ub ∧ RawMove.step s1 (.publish 6) = .ok (s2, .calls [⟨8, 80, 0, .inbox⟩]) :=
  ⟨_, _, _, rfl, rfl, rfl⟩

end Verif.Props
