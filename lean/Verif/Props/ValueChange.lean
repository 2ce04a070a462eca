import Verif.Proof.ValueChange
import Verif.Props.Compare

/-!
# C36: value-change detection reports every change once
-/

namespace Verif.Props

open Verif Verif.Value Verif.ValueChange Verif.Spec.ValueChange

/-- C36: at every poll, a watched property has exactly one event if its value is readable and differs from the one
at the latest successful reading, and the event carries these two values; otherwise it has none. Holds for every
history of watching, unwatching and polling any number of properties, as long as comparing the values of this
property tells exactly which are the same.

Missing: values that compare equal though they differ (`C36_type_fails`, `C36_datetime_fails`), that differ from
themselves (`C36_nan_fails`), or that cannot be compared (`C36_bytes_fails`); properties that could not be read when
they were subscribed (`C36_unwatched_fails`); the mutexes (`C36_deadlock_fails`, `C36_close_fails`). -/
theorem C36_change_partial {sc : Bool} {h a b : Spec.ValueChange.History} {s : ValueChange.State} (hx : Leads sc h s)
    {now : Nat → Option Scalar} {es : List ValueChange.Event} (hab : h = a ++ (.poll now, .polled es) :: b) (n : Nat)
    (hF : Faithful sc (readings n (a ++ [(.poll now, .polled es)]))) :
    es.filter (fun e => e.node = n) =
      match known n a, now n with
      | some old, some new => if old = new then [] else [⟨n, old, new⟩]
      | _, _ => [] := by
  obtain ⟨s1, s2, hx1, hs⟩ := hx.at a _ _ b hab
  have hi := leads_inv hx1
  rw [readings_snoc] at hF
  rw [hi.known n (faithful_left hF)]
  simp only [ValueChange.step] at hs
  obtain ⟨⟨rs, es'⟩, h1, hs⟩ := res_bind_ok hs
  simp only [Res.pure_eq, Res.ok.injEq, Prod.mk.injEq, Out.polled.injEq] at hs
  obtain ⟨_, rfl⟩ := hs
  have hp := (pollAll_node sc now n _ _ _ hi.nodup h1).2
  cases hf : ValueChange.find n s1.records with
  | none => rw [hf] at hp; exact hp.2
  | some r =>
    cases hv : now n with
    | none => rw [hf, hv] at hp; exact hp.2
    | some v =>
      rw [hf, hv] at hp
      obtain ⟨c, h3, c1, c2⟩ := hp
      obtain ⟨c', h4, h5⟩ := hF v (List.mem_append_right _ (by simp [hv])) r.value
        (List.mem_append_left _ (hi.read n r hf))
      rw [h3] at h4
      cases h4
      simp only [Option.map_some]
      by_cases hc : c = .eq
      · rw [(c1 hc).2, if_pos (h5.1 hc).symm]
      · rw [(c2 hc).2, if_neg (fun h => hc (h5.2 h.symm))]

/-- C36: comparing booleans, characters, integers of at most 32 bits of one type, or texts, tells exactly which are
the same; so `C36_change_partial` holds for properties that keep to one of these types. -/
theorem C36_kinds (sc : Bool) (k : Spec.ValueChange.Kind) (vs : List Scalar) (hk : ∀ v ∈ vs, OfKind k v) :
    Faithful sc vs := by
  intro v hv w hw
  have small : ∀ v w n m, intNum sc v = some n → intNum sc w = some m →
      n.natAbs < 2 ^ 53 → m.natAbs < 2 ^ 53 → (n = m ↔ v = w) →
      ∃ c, Value.compare sc v w = .ok c ∧ (c = .eq ↔ v = w) := by
    intro v w n m h1 h2 h3 h4 h5
    refine ⟨_, C08_small_integers_exact sc v w n m h1 h2 h3 h4, ?_⟩
    rw [← h5]
    split
    · simp; omega
    · split <;> simp_all
  have h1 := hk v hv
  have h2 := hk w hw
  cases k <;> cases v <;> simp only [OfKind] at h1 <;> cases w <;> simp only [OfKind] at h2
  case boolean a b => refine small _ _ _ _ rfl rfl ?_ ?_ ?_ <;> cases a <;> cases b <;> simp
  case char a b =>
    have ea : ∀ x : BitVec 8, (if sc then x.toInt else (x.toNat : Int)).natAbs < 2 ^ 53 := by
      intro x
      have := x.isLt
      have := BitVec.toInt_lt (x := x)
      have := BitVec.le_toInt x
      split <;> omega
    refine small _ _ _ _ rfl rfl (ea a) (ea b) ?_
    cases sc
    · simp [← BitVec.toNat_inj]; omega
    · simp [BitVec.toInt_inj]
  case byte a b =>
    have := a.isLt; have := b.isLt
    refine small _ _ _ _ rfl rfl (by omega) (by omega) ?_
    simp [← BitVec.toNat_inj]; omega
  case int8 a b =>
    have := BitVec.toInt_lt (x := a); have := BitVec.le_toInt a
    have := BitVec.toInt_lt (x := b); have := BitVec.le_toInt b
    refine small _ _ _ _ rfl rfl (by omega) (by omega) ?_
    simp [BitVec.toInt_inj]
  case uint8 a b =>
    have := a.isLt; have := b.isLt
    refine small _ _ _ _ rfl rfl (by omega) (by omega) ?_
    simp [← BitVec.toNat_inj]; omega
  case int16 a b =>
    have := BitVec.toInt_lt (x := a); have := BitVec.le_toInt a
    have := BitVec.toInt_lt (x := b); have := BitVec.le_toInt b
    refine small _ _ _ _ rfl rfl (by omega) (by omega) ?_
    simp [BitVec.toInt_inj]
  case uint16 a b =>
    have := a.isLt; have := b.isLt
    refine small _ _ _ _ rfl rfl (by omega) (by omega) ?_
    simp [← BitVec.toNat_inj]; omega
  case int32 a b =>
    have := BitVec.toInt_lt (x := a); have := BitVec.le_toInt a
    have := BitVec.toInt_lt (x := b); have := BitVec.le_toInt b
    refine small _ _ _ _ rfl rfl (by omega) (by omega) ?_
    simp [BitVec.toInt_inj]
  case uint32 a b =>
    have := a.isLt; have := b.isLt
    refine small _ _ _ _ rfl rfl (by omega) (by omega) ?_
    simp [← BitVec.toNat_inj]; omega
  case string a b =>
    cases a with
    | none => simp at h1
    | some a =>
      cases b with
      | none => simp at h2
      | some b =>
        have ht := (C08_text_equal_iff sc a b).1
        rw [compare_cls] at ht ⊢
        simp only [cls, toDbl, cmpCls] at ht ⊢
        exact ⟨_, rfl, by simpa using ht⟩

example : Faithful true [.string (some "up".toUTF8.toList), .string (some "down".toUTF8.toList)] :=
  C36_kinds true .string _ (by simp [OfKind])

/-- Polling a text and a counter. -/
def pollOps : List ValueChange.Op :=
  [.watch 1 7 (some (.string (some [65]))), .watch 1 8 (some (.uint32 5)),
    .poll (fun n => if n = 7 then some (.string (some [66])) else none),
    .poll (fun n => if n = 7 then some (.string (some [66])) else some (.uint32 6)),
    .unwatch 7,
    .poll (fun n => if n = 7 then some (.string (some [67])) else some (.uint32 5))]

def pollSeen : List ValueChange.Out :=
  [.started, .started, .polled [⟨7, .string (some [65]), .string (some [66])⟩],
    .polled [⟨8, .uint32 5, .uint32 6⟩], .stopped [7], .polled [⟨8, .uint32 6, .uint32 5⟩]]

theorem poll_leads : Leads true (pollOps.zip pollSeen) ⟨[⟨1, 8, .uint32 5⟩]⟩ := by
  have := ValueChange.leads_run (sc := true) (h := []) (s := ValueChange.State.init) (es := pollOps) (os := pollSeen)
    (s' := ⟨[⟨1, 8, .uint32 5⟩]⟩) .nil (by decide +kernel)
  simpa using this

example : known 8 ((pollOps.zip pollSeen).take 5) = some (.uint32 6) := by decide

example : ([⟨8, .uint32 6, .uint32 5⟩] : List ValueChange.Event).filter (fun e => e.node = 8) =
    [⟨8, .uint32 6, .uint32 5⟩] :=
  C36_change_partial (a := (pollOps.zip pollSeen).take 5) (b := []) poll_leads rfl 8
    (C36_kinds true .uint32 _ (by simp [OfKind, readings, pollOps, pollSeen]))

/-- C36: polling is defined if the values of every property can be compared. -/
theorem C36_defined_partial {sc : Bool} {h : Spec.ValueChange.History} {s : ValueChange.State} (hx : Leads sc h s)
    (now : Nat → Option Scalar)
    (hF : ∀ n, Faithful sc (readings n h ++ (now n).toList)) :
    ∃ s' es, ValueChange.step sc s (.poll now) = .ok (s', .polled es) := by
  have hi := leads_inv hx
  obtain ⟨⟨rs, es⟩, hp⟩ := pollAll_defined (sc := sc) (now := now) s.records (by
    intro r hr v hv
    have hf := (find_iff hi.nodup).2 ⟨hr, rfl⟩
    obtain ⟨c, hc, _⟩ := hF r.node v (List.mem_append_right _ (by simp [hv])) r.value
      (List.mem_append_left _ (hi.read _ r hf))
    exact ⟨c, hc⟩)
  exact ⟨⟨rs⟩, es, by simp only [ValueChange.step, hp, Res.ok_bind, Res.pure_eq]⟩

example : ∃ s' es, ValueChange.step true ⟨[⟨1, 8, .uint32 5⟩]⟩ (.poll fun n => if n = 8 then some (.uint32 9) else none) =
    .ok (s', .polled es) := by
  refine C36_defined_partial poll_leads _ ?_
  intro n
  by_cases h7 : n = 7
  · subst h7
    exact C36_kinds true .string _ (by simp [OfKind, readings, pollOps, pollSeen])
  · refine C36_kinds true .uint32 _ ?_
    by_cases h8 : n = 8
    · subst h8
      simp [OfKind, readings, pollOps, pollSeen]
    · simp [OfKind, readings, pollOps, pollSeen, h7, h8, Ne.symm h7, Ne.symm h8]

/-- C36 fails: a value that changes its type, or two large numbers, may compare equal; the change is not
reported. -/
theorem C36_type_fails : ∃ h s v w, Leads true h s ∧ h = [(.watch 1 7 (some v), .started),
    (.poll (fun _ => some w), .polled [])] ∧ v ≠ w := by
  have := ValueChange.leads_run (sc := true) (h := []) (s := ValueChange.State.init)
    (es := [.watch 1 7 (some (.uint64 (2 ^ 53))), .poll (fun _ => some (.uint64 (2 ^ 53 + 1)))])
    (os := [.started, .polled []])
    (s' := ⟨[⟨1, 7, .uint64 (2 ^ 53)⟩]⟩) .nil (by decide +kernel)
  exact ⟨_, _, _, _, this, rfl, by decide⟩

/-- C36 fails: no change of a time is ever reported (rbus_value.c:953 returns 0 for different times). -/
theorem C36_datetime_fails (sc : Bool) (d e : DateTime) :
    ∃ s, Leads sc [(.watch 1 7 (some (.datetime d)), .started), (.poll (fun _ => some (.datetime e)), .polled [])] s := by
  have := ValueChange.leads_run (sc := sc) (h := []) (s := ValueChange.State.init)
    (es := [.watch 1 7 (some (.datetime d)), .poll (fun _ => some (.datetime e))])
    (os := [.started, .polled []])
    (s' := ⟨[⟨1, 7, .datetime d⟩]⟩) .nil (by
      simp [ValueChange.run, ValueChange.step, ValueChange.State.init, ValueChange.find, pollAll,
        C08_datetime_fails])
  exact ⟨_, this⟩

/-- C36 fails: a value that is not a number is reported as changed at every poll. -/
theorem C36_nan_fails : ∃ v s, Leads true [(.watch 1 7 (some v), .started),
    (.poll (fun _ => some v), .polled [⟨7, v, v⟩])] s := by
  have := ValueChange.leads_run (sc := true) (h := []) (s := ValueChange.State.init)
    (es := [.watch 1 7 (some (.double 0x7ff8000000000000)), .poll (fun _ => some (.double 0x7ff8000000000000))])
    (os := [.started, .polled [⟨7, .double 0x7ff8000000000000, .double 0x7ff8000000000000⟩]])
    (s' := ⟨[⟨1, 7, .double 0x7ff8000000000000⟩]⟩) .nil (by decide +kernel)
  exact ⟨_, _, this⟩

/-- C36 fails: when bytes are appended to a byte value, the comparison reads bytes the old value does not have. -/
theorem C36_bytes_fails (sc : Bool) (s t : Bytes) (ht : t ≠ []) :
    ∃ st, Leads sc [(.watch 1 7 (some (.bytes (some s))), .started)] st ∧
      ValueChange.step sc st (.poll fun _ => some (.bytes (some (s ++ t)))) = .ub := by
  have := ValueChange.leads_run (sc := sc) (h := []) (s := ValueChange.State.init)
    (es := [.watch 1 7 (some (.bytes (some s)))]) (os := [.started])
    (s' := ⟨[⟨1, 7, .bytes (some s)⟩]⟩) .nil rfl
  refine ⟨_, this, ?_⟩
  have hc : Value.compare sc (.bytes (some (s ++ t))) (.bytes (some s)) = .ub := by
    have := bytescmp_ub (s := s ++ t) (t := s) ⟨List.prefix_append _ _, by simpa using ht⟩
    rw [compare_cls]
    simp only [cls, toDbl, cmpCls]
    exact this
  simp only [ValueChange.step, pollAll, hc, Res.ub_bind]

example : ∃ st, Leads true [(.watch 1 7 (some (.bytes (some [1, 2]))), .started)] st ∧
      ValueChange.step true st (.poll fun _ => some (.bytes (some ([1, 2] ++ [3])))) = .ub :=
  C36_bytes_fails true [1, 2] [3] (by decide)

/-- C36 fails: a property whose value could not be read when it was subscribed is never polled, although the
subscription was accepted (line 309 returns nothing; rbus.c:1217). -/
theorem C36_unwatched_fails (sc : Bool) (nows : List (Nat → Option Scalar)) :
    ∃ s, Leads sc ((.watch 1 7 none, .failed) :: nows.map fun now => (.poll now, .polled [])) s := by
  have base : Leads sc [(.watch 1 7 none, .failed)] ValueChange.State.init := by
    have := ValueChange.leads_run (sc := sc) (h := []) (s := ValueChange.State.init)
      (es := [.watch 1 7 none]) (os := [.failed]) (s' := ValueChange.State.init) .nil rfl
    simpa using this
  have H : ∀ nows : List (Nat → Option Scalar), ∀ h, Leads sc h ValueChange.State.init →
      Leads sc (h ++ nows.map fun now => (.poll now, .polled [])) ValueChange.State.init := by
    intro nows
    induction nows with
    | nil => intro h hx; simpa using hx
    | cons now nows ih =>
      intro h hx
      have := ih (h ++ [(.poll now, .polled [])]) (.snoc hx rfl)
      simpa using this
  exact ⟨_, H nows _ base⟩

example : ∃ s, Leads true [(.watch 1 7 none, .failed), (.poll (fun _ => some (.uint32 1)), .polled []),
    (.poll (fun _ => some (.uint32 2)), .polled [])] s :=
  C36_unwatched_fails true [fun _ => some (.uint32 1), fun _ => some (.uint32 2)]

/-- C36 fails: a request to subscribe or unsubscribe during a poll that has found a change blocks both threads for
ever. The polling thread holds the detector's mutex and wants the handle's (rbus_valuechange.c:215, rbus.c:5956);
the other holds the handle's and wants the detector's (rbus.c:1144, 1217-1221; rbus_valuechange.c:281, 344). -/
theorem C36_deadlock_fails : ∃ es s, Locks.run Locks.State.init es = .ok s ∧ Stuck s :=
  ⟨[.request, .wake, .change, .serve], ⟨.wantSubs, .wantDetector, some .poller, some .server, false⟩, by decide,
    fun e => by cases e <;> decide⟩

/-- C36 fails: a change found while the provider's handle is being closed uses subscriptions that are freed already
(rbus.c:3217 before 3222). -/
theorem C36_close_fails : ∃ es s, Locks.run Locks.State.init es = .ok s ∧ Locks.step s .publish = .ub :=
  ⟨[.wake, .close, .change, .enter], ⟨.publishing, .away, some .poller, some .poller, true⟩, by decide, by decide⟩

end Verif.Props
