import Verif.Proof.Typed

/-!
# C98: typed data under the names of objects
-/

namespace Verif.Props

open Verif Verif.Value Verif.Typed Verif.Spec.Typed

/-- C98: whatever a careful program has done before, every further allowed call is defined, tells what the sheet says,
and what it makes is new. -/
theorem C98_told {h : List (Event × Out)} {s : Typed.State} (hx : Exec Typed.step Typed.State.init h s) (hc : Careful h)
    {e : Event} (ha : Allowed (sheet h) e) :
    ∃ s' out, Typed.step s e = .ok (s', out) ∧
      (∀ w, told (sheet h) e = some w → out = w) ∧
      (told (sheet h) e = none → ∃ x, out = .made x ∧ Unused (sheet h) x) := by
  obtain ⟨s', out, h1, _, h3⟩ := step_rel (rel_exec hx hc) ha
  refine ⟨s', out, h1, ?_, ?_⟩
  · intro w hw
    rw [hw] at h3
    exact h3
  · intro hw
    rw [hw] at h3
    exact h3

/-- Reading as a type what is under a name. -/
private theorem reading {h : List (Event × Out)} {s : Typed.State} (hx : Exec Typed.step Typed.State.init h s)
    (hc : Careful h) {o : Nat} (ho : (sheet h).object o) (nm : Bytes) (t : Ty) :
    Typed.step s (.getTyped o nm t) = .ok (s, .got (answer (sheet h) o nm t)) := by
  obtain ⟨s', out, h1, h2, _⟩ := C98_told hx hc (e := .getTyped o nm t) ho
  have := h2 _ rfl
  subst this
  rw [h1]
  simp only [Typed.step] at h1
  obtain ⟨g, _, h4⟩ := res_bind_ok h1
  cases h4
  rfl

private theorem under_set {a : List (Event × Out)} {o : Nat} {nm : Bytes} {d : Scalar} {out : Out}
    (ho : (sheet a).object o) : (sheet (a ++ [(.setTyped o nm d, out)])).under o nm = some (.own d) := by
  rw [sheet_snoc]
  show ((sheet a).put o nm (.own d)).under o nm = _
  rw [under_put, if_pos ⟨rfl, rfl, ho.2⟩]

/-- C98: data set under a name with the setter of its type is what the getter of that type gives, until something else
is put under that name of that object; whatever is done meanwhile with other names, other objects and values. -/
theorem C98_last {a b : List (Event × Out)} {o : Nat} {nm : Bytes} {d : Scalar} {out : Out} {s : Typed.State}
    (hx : Exec Typed.step Typed.State.init (a ++ (.setTyped o nm d, out) :: b) s)
    (hc : Careful (a ++ (.setTyped o nm d, out) :: b)) (he : ∀ p ∈ b, Elsewhere o nm p.1)
    (ho : (sheet (a ++ (.setTyped o nm d, out) :: b)).object o) :
    (d.ty ≠ .string → d.ty ≠ .bytes → Typed.step s (.getTyped o nm d.ty) = .ok (s, .got (.is d))) ∧
    (∀ x, d = .string x ∨ d = .bytes x → Typed.step s (.getTyped o nm .string) = .ok (s, .got (.text x))) ∧
    (∀ t, t ≠ d.ty → ¬ ((d.ty = .string ∨ d.ty = .bytes) ∧ (t = .string ∨ t = .bytes)) →
      Typed.step s (.getTyped o nm t) = .ok (s, .got .wrongType)) := by
  have hu : (sheet (a ++ (.setTyped o nm d, out) :: b)).under o nm = some (.own d) := by
    have h1 := under_set (nm := nm) (d := d) (out := out) (hc a _ _ b rfl : (sheet a).object o)
    have e : a ++ (.setTyped o nm d, out) :: b = (a ++ [(.setTyped o nm d, out)]) ++ b := by simp
    rw [e] at hx hc ⊢
    exact under_stays h1 _ b s rfl hx hc he
  refine ⟨?_, ?_, ?_⟩
  · intro h1 h2
    rw [reading hx hc ho, getEx_answer hu]
    simp only [Sheet.data]
    cases d <;> first | rfl | exact absurd rfl h1 | exact absurd rfl h2
  · intro x h
    rw [reading hx hc ho, getEx_answer hu]
    rcases h with rfl | rfl <;> rfl
  · intro t h1 h2
    rw [reading hx hc ho, getEx_answer hu]
    simp only [Sheet.data]
    cases d <;> cases t <;> first | rfl | (exact absurd rfl h1) | (exact absurd (by simp [Scalar.ty]) h2)

/-- A run that sets, sets something else, and gets. -/
private def typedDemo : List Event :=
  [.newObject none, .newValue (.int32 7), .setValue 0 [98] 1, .setTyped 0 [97] (.uint16 5), .change 1 (.int32 8),
    .getTyped 0 [97] .uint16, .getTyped 0 [97] .int32, .getTyped 0 [98] .int32, .getTyped 0 [99] .int32]

example : ∃ s, Typed.run Typed.State.init typedDemo = .ok (s,
    [.made 0, .made 1, .done, .done, .done, .got (.is (.uint16 5)), .got .wrongType, .got (.is (.int32 8)), .got .notFound]) :=
  ⟨_, rfl⟩

/-- C98: a value given to an object is not copied. What is later put into the value is what the object gives. -/
theorem C98_shared {a b : List (Event × Out)} {o x : Nat} {nm : Bytes} {d : Scalar} {out out' : Out} {s : Typed.State}
    (hx : Exec Typed.step Typed.State.init (a ++ (.setValue o nm x, out) :: b ++ [(.change x d, out')]) s)
    (hc : Careful (a ++ (.setValue o nm x, out) :: b ++ [(.change x d, out')])) (he : ∀ p ∈ b, Elsewhere o nm p.1)
    (ho : (sheet (a ++ (.setValue o nm x, out) :: b ++ [(.change x d, out')])).object o)
    (h1 : d.ty ≠ .string) (h2 : d.ty ≠ .bytes) :
    Typed.step s (.getTyped o nm d.ty) = .ok (s, .got (.is d)) := by
  have hso : (sheet a).object o := (hc a (.setValue o nm x) out (b ++ [(.change x d, out')]) (by simp)).1
  have hu : (sheet (a ++ [(.setValue o nm x, out)])).under o nm = some (.shared x) := by
    rw [sheet_snoc]
    show ((sheet a).put o nm (.shared x)).under o nm = _
    rw [under_put, if_pos ⟨rfl, rfl, hso.2⟩]
  have hu2 : (sheet (a ++ (.setValue o nm x, out) :: b ++ [(.change x d, out')])).under o nm = some (.shared x) := by
    have e : a ++ (.setValue o nm x, out) :: b ++ [(.change x d, out')] = (a ++ [(.setValue o nm x, out)]) ++ (b ++ [(.change x d, out')]) := by
      simp
    rw [e] at hx hc ⊢
    refine under_stays hu _ _ s rfl hx hc ?_
    intro p hp
    rcases List.mem_append.1 hp with hp | hp
    · exact he p hp
    · simp at hp; subst hp; trivial
  rw [reading hx hc ho, getEx_answer hu2]
  have hd : (sheet (a ++ (.setValue o nm x, out) :: b ++ [(.change x d, out')])).data (.shared x) = d := by
    rw [sheet_snoc]
    simp [note, Sheet.data, Spec.Retain.change]
  rw [hd]
  cases d <;> first | rfl | exact absurd rfl h1 | exact absurd rfl h2

example : ∃ s, Typed.run Typed.State.init
    [.newObject none, .newObject none, .newValue (.int32 7), .setValue 0 [98] 2, .setValue 1 [99] 2, .release 2, .changeAt 1 [99] (.boolean true),
      .getTyped 0 [98] .boolean, .release 0, .getTyped 1 [99] .boolean] = .ok (s,
    [.made 0, .made 1, .made 2, .done, .done, .done, .there true, .got (.is (.boolean true)), .done, .got (.is (.boolean true))]) :=
  ⟨_, rfl⟩

/-- C98: setting under a name, with the setters of objects or those of properties, changes nothing that is read under
another name or from another object, even where the same value was under both. -/
theorem C98_others {h : List (Event × Out)} {s s' : Typed.State} {e : Event} {out : Out} {o q : Nat} {nm n : Bytes}
    (hx : Exec Typed.step Typed.State.init h s) (hc : Careful h) (ha : Allowed (sheet h) e)
    (hs : Typed.step s e = .ok (s', out))
    (he : (∃ d, e = .setTyped o nm d) ∨ (∃ x, e = .setValue o nm x) ∨ ∃ d, e = .setAt o nm d)
    (hne : ¬ (q = o ∧ n = nm)) (hq : (sheet h).object q) (t : Ty) :
    ∃ g, Typed.step s (.getTyped q n t) = .ok (s, .got g) ∧ Typed.step s' (.getTyped q n t) = .ok (s', .got g) := by
  have hx' : Exec Typed.step Typed.State.init (h ++ [(e, out)]) s' := .snoc hx hs
  have hc' : Careful (h ++ [(e, out)]) := by
    intro a e' o' b hab
    rcases List.eq_nil_or_concat b with rfl | ⟨b', p, rfl⟩
    · have h1 := List.append_inj_left' hab rfl
      have h2 := List.append_inj_right' hab rfl
      cases h2
      rw [← h1]; exact ha
    · rw [List.concat_eq_append] at hab
      have : h = a ++ (e', o') :: b' := by
        have : a ++ (e', o') :: (b' ++ [p]) = (a ++ (e', o') :: b') ++ [p] := by simp
        rw [this] at hab
        exact List.append_inj_left' hab rfl
      exact hc a e' o' b' this
  have keep : ∀ v : Sheet, v.object q → (note v (e, out)).object q ∧ (note v (e, out)).values = v.values ∧
      (note v (e, out)).under q n = v.under q n := by
    intro v hv
    have hputv : ∀ x, (v.put o nm x).object q ∧ (v.put o nm x).values = v.values := by
      intro x
      unfold Sheet.put
      split
      · refine ⟨⟨hv.1, ?_⟩, rfl⟩
        simp only [Spec.Retain.change]
        split
        · rfl
        · exact hv.2
      · exact ⟨hv, rfl⟩
    have hel : Elsewhere q n e := by
      rcases he with ⟨d, rfl⟩ | ⟨x, rfl⟩ | ⟨d, rfl⟩ <;> exact fun h => hne ⟨h.1.symm, h.2.symm⟩
    refine ⟨?_, ?_, under_elsewhere hel ?_⟩
    · rcases he with ⟨d, rfl⟩ | ⟨x, rfl⟩ | ⟨d, rfl⟩
      · exact (hputv _).1
      · exact (hputv _).1
      · simp only [note]; split
        · exact (hputv _).1
        · exact hv
    · rcases he with ⟨d, rfl⟩ | ⟨x, rfl⟩ | ⟨d, rfl⟩
      · exact (hputv _).2
      · exact (hputv _).2
      · simp only [note]; split
        · exact (hputv _).2
        · rfl
    · intro name x h1
      rcases he with ⟨d, rfl⟩ | ⟨x, rfl⟩ | ⟨d, rfl⟩ <;> cases h1
  obtain ⟨k1, k2, k3⟩ := keep _ hq
  rw [← sheet_snoc] at k1 k2 k3
  refine ⟨_, reading hx hc hq n t, ?_⟩
  rw [reading hx' hc' k1]
  have : answer (sheet (h ++ [(e, out)])) q n t = answer (sheet h) q n t := by
    cases hu : (sheet h).under q n with
    | none => simp only [answer, k3, hu]
    | some x =>
      rw [getEx_answer (by rw [k3]; exact hu), getEx_answer hu]
      cases x <;> simp only [Sheet.data, k2]
  rw [this]

example : ∃ s, Typed.run Typed.State.init
    [.newObject none, .newObject none, .newValue (.int32 7), .setValue 0 [97] 2, .setValue 1 [97] 2, .setAt 0 [97] (.char 65),
      .getTyped 1 [97] .int32, .getTyped 0 [97] .char] = .ok (s,
    [.made 0, .made 1, .made 2, .done, .done, .there true, .got (.is (.int32 7)), .got (.is (.char 65))]) :=
  ⟨_, rfl⟩

/-- C98: reading a property that an object does not have is answered with an error by the getters of strings and bytes
of properties, but the others (`rbusProperty_GetInt32Ex` and the like) dereference the NULL pointer. -/
theorem C98_null_fails : ∀ t, t ≠ .string → t ≠ .bytes →
    Typed.run Typed.State.init [.newObject none, .getTyped 0 [97] t, .getAt 0 [97] .string] =
      .ok (⟨Retain.alloc Retain.State.init .object none, fun _ => .none⟩, [.made 0, .got .notFound, .got .null]) ∧
    Typed.run Typed.State.init [.newObject none, .getAt 0 [97] t] = .ub := by
  intro t h1 h2
  refine ⟨rfl, ?_⟩
  cases t <;> first | rfl | exact absurd rfl h1 | exact absurd rfl h2

end Verif.Props
