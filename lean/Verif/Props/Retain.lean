import Verif.Proof.ObjectMap

/-!
# C41, C43: reference counts; the properties of an object
-/

namespace Verif.Props

open Verif Verif.Retain Verif.Spec.Retain

/-- C41: whatever a careful program does, nothing that is used has been destroyed: all its calls are carried out,
and afterwards everything it holds, or that is owned by what it holds, is in memory.

Missing: calls that are not careful in the sense of `Allowed`, of which replacing a pointer's target by something
that only the old target keeps alive fails (`C41_replace_fails`), as does going to the parent
(`C41_parent_fails`); two threads (`C41_race_fails`). -/
theorem C41_safe_partial (ops : List Op) (h : Careful Graph.empty ops) :
    ∃ s, Retain.run Retain.State.init ops = .ok s ∧ ∀ x, Reach (after ops) x → Alive s x := by
  obtain ⟨s, h1, h2, _⟩ := after_inv h
  exact ⟨s, h1, fun x hx => reach_alive h2 hx⟩

/-- C41: as long as there is no circle of pointers, what is in memory is exactly what the program holds or what is
owned by that; so everything is destroyed when its last owner releases it, and nothing is left when the program
holds nothing.

Missing: circles, which stay (`C41_circle_fails`). -/
theorem C41_destroyed_partial (ops : List Op) (h : Careful Graph.empty ops) (hn : NoCircle (after ops)) :
    ∃ s, Retain.run Retain.State.init ops = .ok s ∧ (∀ x, Alive s x ↔ Reach (after ops) x) ∧
      ((∀ x, (after ops).holds x = 0) → ∀ x, ¬ Alive s x) := by
  obtain ⟨s, h1, h2, _⟩ := after_inv h
  refine ⟨s, h1, fun x => ⟨fun hx => alive_reach h2 hn hx, fun hx => reach_alive h2 hx⟩, ?_⟩
  intro h0 x hx
  have := alive_reach h2 hn hx
  have key : ∀ x, ¬ Reach (after ops) x := by
    intro x hx
    induction hx with
    | held h => rw [h0] at h; omega
    | link _ _ ih => exact ih
  exact key x this

/-- C41: a chain through every pointer of the three structures: 0 has the child 1, followed by 2, which has the property 3,
followed by 4, whose value 5 holds 6. The program keeps only the first. All of them stay with it and go with it. -/
theorem C41_every_pointer : (∃ s, Retain.run Retain.State.init
      ([.newObject none, .newObject none, .newObject none, .newProperty (some [97]) none, .newProperty (some [98]) none,
        .newValue, .newObject none, .set 0 .children (some 1), .set 1 .next (some 2), .set 2 .properties (some 3),
        .set 3 .next (some 4), .set 4 .value (some 5), .set 5 .content (some 6)] ++
       [.release 1, .release 2, .release 3, .release 4, .release 5, .release 6]) = .ok s ∧
      (List.range 7).all fun x => (s.node x).isSome) ∧
    (∃ s, Retain.run Retain.State.init
      ([.newObject none, .newObject none, .newObject none, .newProperty (some [97]) none, .newProperty (some [98]) none,
        .newValue, .newObject none, .set 0 .children (some 1), .set 1 .next (some 2), .set 2 .properties (some 3),
        .set 3 .next (some 4), .set 4 .value (some 5), .set 5 .content (some 6)] ++
       [.release 1, .release 2, .release 3, .release 4, .release 5, .release 6, .release 0]) = .ok s ∧
      (List.range 7).all fun x => (s.node x).isNone) := ⟨⟨_, rfl, rfl⟩, ⟨_, rfl, rfl⟩⟩

/-- An object with a property `a` that has a value; the program keeps only the object. -/
def keepObject : List Op :=
  [.newValue, .newProperty (some [97]) (some 0), .release 0, .newObject none, .set 2 .properties (some 1), .release 1]

theorem keepObject_careful : Careful Graph.empty keepObject := by
  refine ⟨trivial, ?_, ?_, trivial, ⟨?_, ?_, ?_⟩, ?_, trivial⟩
  · intro v hv; cases hv; exact ⟨.held (by decide), by decide⟩
  · show 0 < _; decide
  · exact .held (by decide)
  · decide
  · intro x hx; cases hx; exact ⟨.held (by decide), by show _ = _; decide⟩
  · show 0 < _; decide

example : Careful Graph.empty keepObject ∧ NoCircle (after keepObject) ∧ Reach (after keepObject) 0 := by
  refine ⟨keepObject_careful, ⟨fun x => if x = 2 then 0 else if x = 1 then 1 else 2, ?_⟩, ?_⟩
  · intro y k x h
    have e : (after keepObject).link y k = if y = 2 ∧ k = .properties then some 1 else if y = 1 ∧ k = .value then some 0 else none := by
      simp only [after, keepObject, List.foldl_cons, List.foldl_nil, effect, make, Graph.empty, change]
      cases k <;> (repeat' split) <;> simp_all [change]
    rw [e] at h
    split at h
    · rename_i hy; cases h; simp [hy.1]
    · split at h
      · rename_i hy; cases h; simp [hy.1]
      · cases h
  · exact .link (y := 1) (k := .value) (.link (y := 2) (k := .properties) (.held (by decide)) (by decide)) (by decide)

/-- C41 fails: a property is set to the value it has, which nothing else owns; the value is destroyed and then
retained. Without the last call the program is careful, and that call passes only what the program may use. -/
theorem C41_replace_fails :
    ∃ ops op, Careful Graph.empty ops ∧ op = .set 1 .value (some 0) ∧ Reach (after ops) 1 ∧ Reach (after ops) 0 ∧
      (after ops).link 1 .value = some 0 ∧ Retain.run Retain.State.init (ops ++ [op]) = .ub := by
  refine ⟨[.newValue, .newProperty none (some 0), .release 0], _, ?_, rfl, .held (by decide), ?_, by decide, rfl⟩
  · refine ⟨trivial, ?_, ?_, trivial⟩
    · intro v hv; cases hv; exact ⟨.held (by decide), by decide⟩
    · show 0 < _; decide
  · exact .link (y := 1) (k := .value) (.held (by decide)) (by decide)

/-- C41 fails: the parent of an object does not count as an owner and is not forgotten when it is destroyed, so that
going from a child that the program holds to its parent reads freed memory. -/
theorem C41_parent_fails :
    ∃ ops, Careful Graph.empty ops ∧ Reach (after ops) 1 ∧ (after ops).parent 1 = some 0 ∧
      Retain.run Retain.State.init (ops ++ [.useParent 1]) = .ub := by
  refine ⟨[.newObject none, .newObject none, .set 0 .children (some 1), .setParent 1 (some 0), .release 0], ?_,
    .held (by decide), by decide, rfl⟩
  refine ⟨trivial, trivial, ⟨.held (by decide), by decide, ?_⟩, .held (by decide), ?_, trivial⟩
  · intro x hx; cases hx; exact ⟨.held (by decide), by show _ = _; decide⟩
  · show 0 < _; decide

/-- C41 fails: a property whose value holds the property is never destroyed, though the program has released
everything. -/
theorem C41_circle_fails :
    ∃ ops s, Careful Graph.empty ops ∧ Retain.run Retain.State.init ops = .ok s ∧ (∀ x, (after ops).holds x = 0) ∧
      Alive s 0 ∧ Alive s 1 := by
  refine ⟨[.newValue, .newProperty none (some 0), .set 0 .content (some 1), .release 0, .release 1], _, ?_, rfl, ?_,
    ⟨_, rfl⟩, ⟨_, rfl⟩⟩
  · refine ⟨trivial, ?_, ⟨.held (by decide), by decide, ?_⟩, ?_, ?_, trivial⟩
    · intro v hv; cases hv; exact ⟨.held (by decide), by decide⟩
    · intro x hx; cases hx; exact ⟨.held (by decide), by show _ ≠ _; decide⟩
    · show 0 < _; decide
    · show 0 < _; decide
  · intro x
    simp only [after, List.foldl_cons, List.foldl_nil, effect, make, Graph.empty, change]
    repeat' split
    all_goals first | rfl | simp_all

/-- C41 fails: two threads each release a hold of their own, and the node is destroyed twice, because each subtracts
first and looks at the count later. -/
theorem C41_race_fails : ∃ turns, Race.run ⟨2, 0, .sub, .sub⟩ turns = .ub ∧
    ∃ s, Race.run ⟨2, 0, .sub, .sub⟩ (turns.take 5) = .ok s ∧ s.freed = 1 ∧ (s.first = .destroy ∨ s.second = .destroy) :=
  ⟨[true, false, true, false, true, false], by decide, _, rfl, by decide, by decide⟩

/-- C41: one after the other, the second of two threads destroys the node. -/
example : Race.run ⟨2, 0, .sub, .sub⟩ [true, true, false, false, false] = .ok ⟨0, 1, .done, .done⟩ := by decide

/-- What the theorems about setting share. -/
theorem isSet_of_sets {ops : List Op} {s s' : Retain.State} {o new : Nat} {es : List Entry} {nm : Bytes} {v : Option Nat}
    (hc : Careful Graph.empty ops) (hr : Retain.run Retain.State.init ops = .ok s) (ho : 0 < (after ops).holds o)
    (hl : Lists s o es) (h : Sets (after ops) s o es new nm v s') :
    (∃ es', IsSet s o es nm v s' es') ∧ Continues ops s' ∧
    ∀ q fs, q ≠ o → q ≠ new → 0 < (after ops).holds q → Lists s q fs → (∀ f ∈ fs, f.prop ≠ o ∧ f.prop ≠ new ∧ ∀ e ∈ es, f.prop ≠ e.prop) →
      (∀ e ∈ es, e.prop ≠ q) → Lists s' q fs := by
  obtain ⟨s0, h0, hi, hb⟩ := after_inv hc
  rw [hr] at h0
  cases h0
  obtain ⟨⟨more, m1, m2, m3, m4, m5⟩, es', e1, e2, _⟩ := h
  obtain ⟨s1, r1, i1, b1⟩ := run_inv more hi hb m1
  rw [m2] at r1
  cases r1
  have hlen : es.length ≤ s.next := by
    rw [hi.made]
    exact seg_length hb hi.fits ((lists_iff hi (.held ho) _).1 hl) (fun p hp => .link (.held ho) hp)
  have ho' : 0 < (more.foldl effect (after ops)).holds o := by rw [m3]; exact ho
  have hlen' : es'.length ≤ s'.next := by
    rw [i1.made]
    exact seg_length b1 i1.fits ((lists_iff i1 (.held ho') _).1 e1) (fun p hp => .link (.held ho') hp)
  have haf : after (ops ++ more) = more.foldl effect (after ops) := by unfold after; rw [List.foldl_append]
  refine ⟨⟨es', e1, e2, ?_, ?_, ?_⟩, ⟨more, careful_append _ _ hc m1, run_append _ _ hr m2, ?_, ?_⟩, ?_⟩
  · rw [value_chain nm e1 hlen', find_asMap, e2, find_upsert, if_pos rfl]
    rfl
  · intro m hm
    rw [value_chain m e1 hlen', value_chain m hl hlen, find_asMap, find_asMap, e2, find_upsert, if_neg hm]
  · intro hn
    have key : ∀ l : List Entry, l.map (·.name) = (asMap l).map (·.1) := by
      intro l; simp [asMap]
    rw [key, e2]
    rw [key] at hn
    exact upsert_keys nm v _ hn
  · intro x; rw [haf]; exact m3 x
  · intro x hx; rw [haf]; exact (m4 x hx).1
  · intro q fs hqo hqn hq hfs hdis hqe
    have hsq := (lists_iff hi (.held hq) _).1 hfs
    have hre := seg_reach hsq (fun p hp => .link (.held hq) hp)
    have hqlt := reach_lt hb hi.fits (.held hq)
    have hqe' : q ∉ es.map (·.prop) := by
      intro hm
      obtain ⟨e, he, h1⟩ := List.mem_map.1 hm
      exact hqe e he h1
    refine (lists_iff i1 (.held (by rw [m3]; exact hq)) _).2 ?_
    rw [m5 q _ hqlt hqn hqe' hqo]
    refine seg_same hsq fun f hf => ?_
    have hflt := reach_lt hb hi.fits (hre.1 f hf)
    obtain ⟨d1, d2, d3⟩ := hdis f hf
    have hfe : f.prop ∉ es.map (·.prop) := by
      intro hm
      obtain ⟨e, he, h1⟩ := List.mem_map.1 hm
      exact d3 e he h1.symm
    exact ⟨(m4 _ hflt).2, m5 _ _ hflt d2 hfe d1, m5 _ _ hflt d2 hfe d1⟩

/-- C43: setting the value of a name in an object. The program holds the object and the value. `es` are the
properties the object had. Objects that share no property with this one keep theirs, and the program can go on. -/
theorem C43_set_value {ops : List Op} {s : Retain.State} {o v : Nat} {es : List Entry} (nm : Bytes)
    (hc : Careful Graph.empty ops) (hr : Retain.run Retain.State.init ops = .ok s)
    (ho : 0 < (after ops).holds o) (hok : (after ops).kind o = .object)
    (hv : 0 < (after ops).holds v) (hvk : (after ops).kind v = .value) (hl : Lists s o es) :
    ∃ s', setPropertyValue s o nm v = .ok s' ∧ (∃ es', IsSet s o es nm (some v) s' es') ∧ Continues ops s' ∧
      ∀ q fs, q ≠ o → 0 < (after ops).holds q → (after ops).kind q = .object → Lists s q fs →
        (∀ f ∈ fs, ∀ e ∈ es, f.prop ≠ e.prop) → Lists s' q fs := by
  obtain ⟨s0, h0, hi, hb⟩ := after_inv hc
  rw [hr] at h0
  cases h0
  obtain ⟨s', h1, h2⟩ := set_map nm hi hb ho hok hv hvk hl
  obtain ⟨h3, h4, h5⟩ := isSet_of_sets hc hr ho hl h2
  refine ⟨s', h1, h3, h4, ?_⟩
  intro q fs hqo hq hqk hfs hdis
  have hsq := (lists_iff hi (.held hq) _).1 hfs
  have hso := (lists_iff hi (.held ho) _).1 hl
  have hkf := seg_kind hi.fits hsq (fun p hp => (hi.fits _ _ _ hp).1)
  have hke := seg_kind hi.fits hso (fun p hp => (hi.fits _ _ _ hp).1)
  have hrf := seg_reach hsq (fun p hp => .link (.held hq) hp)
  refine h5 q fs hqo (by have := reach_lt hb hi.fits (.held hq); omega) hq hfs ?_ ?_
  · intro f hf
    refine ⟨?_, by have := reach_lt hb hi.fits (hrf.1 f hf); omega, hdis f hf⟩
    intro e
    have := hkf f hf
    rw [e, hok] at this
    cases this
  · intro e he h
    have := hke e he
    rw [h, hqk] at this
    cases this

/-- Setting several values in turn. -/
def setAll (s : Retain.State) (o : Nat) : List (Bytes × Nat) → Res Retain.State
  | [] => .ok s
  | (nm, v) :: l => do
    let s ← setPropertyValue s o nm v
    setAll s o l

/-- C43: every sequence of sets makes the object the map with these entries, in the order in which the names first
came; getting a name gives its latest value. -/
theorem C43_sequence : ∀ (l : List (Bytes × Nat)) {ops : List Op} {s : Retain.State} {o : Nat} {es : List Entry},
    Careful Graph.empty ops → Retain.run Retain.State.init ops = .ok s →
    0 < (after ops).holds o → (after ops).kind o = .object →
    (∀ x ∈ l, 0 < (after ops).holds x.2 ∧ (after ops).kind x.2 = .value) → Lists s o es → (es.map (·.name)).Nodup →
    ∃ s' es', setAll s o l = .ok s' ∧ Lists s' o es' ∧
      asMap es' = l.foldl (fun m x => upsert m x.1 (some x.2)) (asMap es) ∧ (es'.map (·.name)).Nodup ∧
      (∀ nm, getPropertyValue s' o nm = .ok (match l.reverse.find? fun x => x.1 = nm with
        | some x => some x.2
        | none => ((asMap es).find? fun x => x.1 = nm).bind (·.2))) ∧ Continues ops s' := by
  intro l
  induction l with
  | nil =>
    intro ops s o es hc hr ho hok _ hl hn
    obtain ⟨s0, h0, hi, hb⟩ := after_inv hc
    rw [hr] at h0
    cases h0
    refine ⟨s, es, rfl, hl, rfl, hn, ?_, [], by simpa using hc, by simpa using hr, by simp, by simp⟩
    intro nm
    rw [value_chain nm hl, find_asMap]
    · rfl
    · rw [hi.made]
      exact seg_length hb hi.fits ((lists_iff hi (.held ho) _).1 hl) (fun p hp => .link (.held ho) hp)
  | cons x l ih =>
    intro ops s o es hc hr ho hok hv hl hn
    obtain ⟨s0, h0, hi, hb⟩ := after_inv hc
    rw [hr] at h0
    cases h0
    obtain ⟨hx1, hx2⟩ := hv x (List.mem_cons_self ..)
    obtain ⟨s1, h1, ⟨es1, i1, i2, i3, i4, i5⟩, ⟨more, c1, c2, c3, c4⟩, _⟩ := C43_set_value x.1 hc hr ho hok hx1 hx2 hl
    have lt : ∀ y, 0 < (after ops).holds y → y < (after ops).made := fun y hy => reach_lt hb hi.fits (.held hy)
    obtain ⟨s2, es2, j1, j2, j3, j4, j5, more2, d1, d2, d3, d4⟩ := ih c1 c2 (by rw [c3]; exact ho)
      (by rw [c4 o (lt o ho)]; exact hok)
      (fun y hy => by
        obtain ⟨q1, q2⟩ := hv y (List.mem_cons_of_mem _ hy)
        rw [c3, c4 _ (lt _ q1)]
        exact ⟨q1, q2⟩) i1 (i5 hn)
    refine ⟨s2, es2, ?_, j2, ?_, j4, ?_, more ++ more2, ?_, ?_, ?_, ?_⟩
    · simp only [setAll, h1, Res.ok_bind, j1]
    · rw [j3, i2]; rfl
    · intro nm
      rw [j5 nm, i2, find_upsert, List.reverse_cons, List.find?_append]
      cases hf : l.reverse.find? fun x => decide (x.1 = nm) with
      | some y => rfl
      | none =>
        by_cases hnm : nm = x.1
        · subst hnm; simp
        · have : ¬ x.1 = nm := fun e => hnm e.symm
          simp [hnm, this]
    · rw [← List.append_assoc]; exact d1
    · rw [← List.append_assoc]; exact d2
    · intro y; rw [← List.append_assoc, d3, c3]
    · intro y hy
      rw [← List.append_assoc, d4 y ?_, c4 y hy]
      have : ∀ (m : List Op) g, g.made ≤ (m.foldl effect g).made := by
        intro m
        induction m with
        | nil => intro g; exact Nat.le_refl _
        | cons op m ih =>
          intro g
          refine Nat.le_trans ?_ (ih _)
          cases op <;> first | exact Nat.le_refl _ | exact Nat.le_succ _
      have h := this more (after ops)
      unfold after at *
      rw [List.foldl_append]
      omega

/-- An object without properties and two values. -/
def objectAndValues : List Op := [.newObject none, .newValue, .newValue]

example : ∃ s, Careful Graph.empty objectAndValues ∧ Retain.run Retain.State.init objectAndValues = .ok s ∧ Lists s 0 [] ∧
    0 < (after objectAndValues).holds 0 ∧ (after objectAndValues).kind 0 = .object ∧
    0 < (after objectAndValues).holds 2 ∧ (after objectAndValues).kind 2 = .value ∧
    (do let s ← setAll s 0 [([97], 1), ([98], 1), ([97], 2)]; getPropertyValue s 0 [97]) = .ok (some 2) :=
  ⟨_, ⟨trivial, trivial, trivial, trivial⟩, rfl, ⟨_, rfl, .nil⟩, by decide, by decide, by decide, by decide, rfl⟩

/-- C43: setting a property. The program holds the object and the property, which has a name, is not followed by
others and is not yet one of the object's.

Missing: properties with followers (`C43_list_fails`), which include those that were replaced before
(`C43_again_fails`), properties the object has already (`C43_same_fails`), and properties shared by objects
(`C43_shared_fails`). -/
theorem C43_set_property_partial {ops : List Op} {s : Retain.State} {o p : Nat} {nm : Bytes} {es : List Entry}
    (hc : Careful Graph.empty ops) (hr : Retain.run Retain.State.init ops = .ok s)
    (ho : 0 < (after ops).holds o) (hok : (after ops).kind o = .object)
    (hp : 0 < (after ops).holds p) (hpk : (after ops).kind p = .property) (hpn : (after ops).name p = some nm)
    (hpx : (after ops).link p .next = none) (hl : Lists s o es) (hpe : ∀ e ∈ es, e.prop ≠ p) :
    ∃ s', setProperty s o p = .ok s' ∧ (∃ es', IsSet s o es nm ((after ops).link p .value) s' es') ∧ Continues ops s' ∧
      ∀ q fs, q ≠ o → 0 < (after ops).holds q → (after ops).kind q = .object → Lists s q fs →
        (∀ f ∈ fs, f.prop ≠ p ∧ ∀ e ∈ es, f.prop ≠ e.prop) → Lists s' q fs := by
  obtain ⟨s0, h0, hi, hb⟩ := after_inv hc
  rw [hr] at h0
  cases h0
  obtain ⟨s', h1, h2⟩ := put_map hi hb ho hok hp hpk hpn hpx (es := es) (by
    intro hm
    obtain ⟨e, he, h⟩ := List.mem_map.1 hm
    exact hpe e he h) hl
  obtain ⟨h3, h4, h5⟩ := isSet_of_sets hc hr ho hl h2
  refine ⟨s', h1, h3, h4, ?_⟩
  intro q fs hqo hq hqk hfs hdis
  have hsq := (lists_iff hi (.held hq) _).1 hfs
  have hso := (lists_iff hi (.held ho) _).1 hl
  have hkf := seg_kind hi.fits hsq (fun p hp => (hi.fits _ _ _ hp).1)
  have hke := seg_kind hi.fits hso (fun p hp => (hi.fits _ _ _ hp).1)
  refine h5 q fs hqo (by rintro rfl; rw [hqk] at hpk; cases hpk) hq hfs ?_ ?_
  · intro f hf
    refine ⟨?_, (hdis f hf).1, (hdis f hf).2⟩
    intro e
    have := hkf f hf
    rw [e, hok] at this
    cases this
  · intro e he h
    have := hke e he
    rw [h, hqk] at this
    cases this

theorem chain_cons {s : Retain.State} {p : Nat} {n : Retain.Node} {nm : Bytes} {l : List Entry} {v : Option Nat}
    (h1 : s.node p = some n) (h2 : n.name = some nm) (h3 : n.link .value = v) (h4 : Chain s (n.link .next) l) :
    Chain s (some p) (⟨p, nm, v⟩ :: l) := by
  subst h3
  exact .cons h1 h2 h4

/-- An object with properties `a` and `b`, and another property `a`, all held. -/
def twoNames : List Op :=
  [.newObject none, .newProperty (some [97]) none, .newProperty (some [98]) none, .newProperty (some [97]) none,
    .set 0 .properties (some 1), .set 1 .next (some 2)]

theorem twoNames_careful : Careful Graph.empty twoNames := by
  refine ⟨trivial, by simp [Allowed], by simp [Allowed], by simp [Allowed], ⟨.held (by decide), by decide, ?_⟩,
    ⟨.held (by decide), by decide, ?_⟩, trivial⟩ <;>
  · intro x hx; cases hx; exact ⟨.held (by decide), by show _ = _; decide⟩

example : ∃ s, Retain.run Retain.State.init twoNames = .ok s ∧ Lists s 0 [⟨1, [97], none⟩, ⟨2, [98], none⟩] ∧
    0 < (after twoNames).holds 3 ∧ (after twoNames).name 3 = some [97] ∧ (after twoNames).link 3 .next = none ∧
    (do let s ← setProperty s 0 3; getProperty s 0 [97]) = .ok (some 3) :=
  ⟨_, rfl, ⟨_, rfl, chain_cons rfl rfl rfl (chain_cons rfl rfl rfl .nil)⟩, by decide, by decide, by decide, rfl⟩

/-- C43 fails: a property that was replaced by another of the same name and is then set again makes the list a
circle; looking for a name that is not there never ends. -/
theorem C43_again_fails :
    ∃ ops s s', Careful Graph.empty ops ∧ Retain.run Retain.State.init ops = .ok s ∧
      (do let s ← setProperty s 0 3; setProperty s 0 1) = .ok s' ∧
      (do let s ← setProperty s 0 3; getProperty s 0 [99]) = .ok none ∧ getProperty s' 0 [99] = .fail :=
  ⟨twoNames, _, _, twoNames_careful, rfl, rfl, rfl, rfl⟩

/-- C43 fails: setting a property the object already has makes the list a circle. -/
theorem C43_same_fails :
    ∃ ops s s', Careful Graph.empty ops ∧ Retain.run Retain.State.init ops = .ok s ∧ getProperty s 0 [97] = .ok (some 1) ∧
      setProperty s 0 1 = .ok s' ∧ getProperty s 0 [99] = .ok none ∧ getProperty s' 0 [99] = .fail :=
  ⟨twoNames, _, _, twoNames_careful, rfl, rfl, rfl, rfl, rfl⟩

/-- C43 fails: the followers of a property that is set come with it, so that a name may appear twice. -/
theorem C43_list_fails :
    ∃ ops s s', Careful Graph.empty ops ∧ Retain.run Retain.State.init ops = .ok s ∧
      Lists s 0 [⟨1, [98], none⟩] ∧ setProperty s 0 2 = .ok s' ∧
      Lists s' 0 [⟨1, [98], none⟩, ⟨2, [97], none⟩, ⟨3, [98], none⟩] := by
  refine ⟨[.newObject none, .newProperty (some [98]) none, .newProperty (some [97]) none, .newProperty (some [98]) none,
    .set 0 .properties (some 1), .set 2 .next (some 3)], _, _, ?_, rfl, ⟨_, rfl, chain_cons rfl rfl rfl .nil⟩, rfl,
    ⟨_, rfl, chain_cons rfl rfl rfl (chain_cons rfl rfl rfl (chain_cons rfl rfl rfl .nil))⟩⟩
  refine ⟨trivial, by simp [Allowed], by simp [Allowed], by simp [Allowed], ⟨.held (by decide), by decide, ?_⟩,
    ⟨.held (by decide), by decide, ?_⟩, trivial⟩ <;>
  · intro x hx; cases hx; exact ⟨.held (by decide), by show _ = _; decide⟩

/-- C43 fails: two objects were given the same property; setting another name in one object sets it in both. -/
theorem C43_shared_fails :
    ∃ ops s s', Careful Graph.empty ops ∧ Retain.run Retain.State.init ops = .ok s ∧
      getPropertyValue s 1 [98] = .ok none ∧ setPropertyValue s 0 [98] 3 = .ok s' ∧
      getPropertyValue s' 1 [98] = .ok (some 3) := by
  refine ⟨[.newObject none, .newObject none, .newProperty (some [97]) none, .newValue,
    .set 0 .properties (some 2), .set 1 .properties (some 2)], _, _, ?_, rfl, rfl, rfl, rfl⟩
  refine ⟨trivial, trivial, by simp [Allowed], trivial, ⟨.held (by decide), by decide, ?_⟩,
    ⟨.held (by decide), by decide, ?_⟩, trivial⟩ <;>
  · intro x hx; cases hx; exact ⟨.held (by decide), by show _ = _; decide⟩

end Verif.Props
