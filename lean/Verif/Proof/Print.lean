import Verif.Spec.Print
import Verif.Proof.Exec
import Verif.Proof.Text

/-!
# Proofs about printing: the text of an object can be read in one way only
-/

namespace Verif.Print

open Verif Verif.Value Verif.ObjCmp Verif.Spec.Print

/-- A printed line. -/
inductive Line where
  | blank
  | obj (d : Nat) (n : Bytes)
  | prop (d : Nat) (n : Bytes)
  | val (d : Nat) (l t : Bytes)

/-- A line without its line feed. -/
def Line.bytes : Line → Bytes
  | .blank => [13]
  | .obj d n => spaces d ++ lit "rbusObject name=" ++ n ++ [13]
  | .prop d n => spaces d ++ lit "rbusProperty name=" ++ n ++ [13]
  | .val d l t => spaces d ++ (lit "rbusValue type:" ++ l ++ lit " value:" ++ t) ++ [13]

/-- The labels of lines are those of types; there are no line feeds. -/
def Line.Good : Line → Prop
  | .blank => True
  | .obj _ n | .prop _ n => 10 ∉ n
  | .val _ l t => (∃ ty, l = label ty) ∧ 10 ∉ t

/-- Lines one after the other. -/
def render (ls : List Line) : Bytes := ls.flatMap fun l => l.bytes ++ [10]

theorem render_append (a b : List Line) : render (a ++ b) = render a ++ render b := by
  simp [render]

mutual
/-- The lines of a value, up to the end of the line after it. -/
def valLines (d : Nat) : Val → List Line
  | .null | .nullObj => [.blank]
  | .scalar s => [.val d (label s.ty) (match toStr s with | .ok t => t | _ => [])]
  | .props ps => propsLines d ps ++ [.blank]
  | .obj o => objLines d o ++ [.blank]

/-- The lines of properties. -/
def propsLines (d : Nat) : Chain → List Line
  | .nil => []
  | .cons n v rest => .prop d (n.getD []) :: (valLines (d + 1) v ++ propsLines d rest)

/-- The lines of an object that is full. -/
def objLines (d : Nat) : Obj → List Line
  | .mk n _ ps cs => .obj d (n.getD []) :: (propsLines (d + 1) ps ++ objsLines (d + 1) cs)

/-- The lines of objects. -/
def objsLines (d : Nat) : Objs → List Line
  | .nil => []
  | .cons o rest => objLines d o ++ objsLines d rest
end

/-! ## The text consists of the lines -/

theorem named_ok {n : Option Bytes} {m : Bytes} (h : named n = .ok m) : n.getD [] = m := by
  cases n with
  | none => cases h
  | some a => cases h; rfl

mutual
theorem printVal_lines (d : Nat) : ∀ (v : Val) (t : Bytes), fullVal v → printVal d v = .ok t →
    t ++ crlf = render (valLines d v)
  | .null, t, _, h => by cases h; rfl
  | .nullObj, t, _, h => by cases h; rfl
  | .scalar s, t, _, h => by
    unfold printVal at h
    obtain ⟨a, h1, h2⟩ := res_bind_ok h
    unfold debugText at h1
    obtain ⟨b, h3, h4⟩ := res_bind_ok h1
    simp only [Res.pure_eq, Res.ok.injEq] at h2 h4
    subst h2 h4
    simp [valLines, render, Line.bytes, h3, crlf]
  | .props ps, t, hf, h => by
    unfold printVal at h
    rw [printProps_lines d ps t hf h, valLines, render_append]
    rfl
  | .obj o, t, hf, h => by
    unfold printVal at h
    rw [printObj_lines d o t hf h, valLines, render_append]
    rfl

theorem printProps_lines (d : Nat) : ∀ (ps : Chain) (t : Bytes), fullProps ps → printProps d ps = .ok t →
    t = render (propsLines d ps)
  | .nil, t, _, h => by cases h; rfl
  | .cons n v rest, t, hf, h => by
    unfold printProps at h
    obtain ⟨m, h1, h⟩ := res_bind_ok h
    obtain ⟨a, h2, h⟩ := res_bind_ok h
    obtain ⟨b, h3, h⟩ := res_bind_ok h
    simp only [Res.pure_eq, Res.ok.injEq] at h
    have e1 := printVal_lines (d + 1) v a hf.1 h2
    have e2 := printProps_lines d rest b hf.2 h3
    subst h
    rw [propsLines, named_ok h1, show ∀ l ls, render (l :: ls) = l.bytes ++ [10] ++ render ls from
      fun l ls => by simp [render], render_append, ← e1, ← e2]
    simp [Line.bytes, crlf]

theorem printObj_lines (d : Nat) : ∀ (o : Obj) (t : Bytes), fullObj o → printObj d o = .ok t →
    t = render (objLines d o)
  | .mk n k ps cs, t, hf, h => by
    unfold printObj at h
    obtain ⟨m, h1, h⟩ := res_bind_ok h
    have hc : ∀ l ls, render (l :: ls) = l.bytes ++ [10] ++ render ls := fun l ls => by simp [render]
    rw [objLines, named_ok h1, hc, render_append]
    cases ps with
    | nil =>
      rw [hf.1 rfl]
      simp only [Res.pure_eq, Res.ok.injEq] at h
      subst h
      simp [propsLines, objsLines, render, Line.bytes, crlf]
    | cons q v rest =>
      dsimp only at h
      obtain ⟨a, h2, h⟩ := res_bind_ok h
      obtain ⟨b, h3, h⟩ := res_bind_ok h
      simp only [Res.pure_eq, Res.ok.injEq] at h
      have e1 := printProps_lines (d + 1) (.cons q v rest) a hf.2.1 h2
      have e2 := printObjs_lines (d + 1) cs b hf.2.2 h3
      subst h
      rw [← e1, ← e2]
      simp [Line.bytes, crlf]

theorem printObjs_lines (d : Nat) : ∀ (os : Objs) (t : Bytes), fullObjs os → printObjs d os = .ok t →
    t = render (objsLines d os)
  | .nil, t, _, h => by cases h; rfl
  | .cons o rest, t, hf, h => by
    unfold printObjs at h
    obtain ⟨a, h2, h⟩ := res_bind_ok h
    obtain ⟨b, h3, h⟩ := res_bind_ok h
    simp only [Res.pure_eq, Res.ok.injEq] at h
    subst h
    rw [objsLines, render_append, ← printObj_lines d o a hf.1 h2, ← printObjs_lines d rest b hf.2 h3]
end

/-! ## A text has one reading as lines -/

theorem split_at {c : UInt8} : ∀ (a b : Bytes) (r s : Bytes), c ∉ a → c ∉ b → a ++ c :: r = b ++ c :: s →
    a = b ∧ r = s
  | [], [], r, s, _, _, h => by simpa using h
  | [], y :: b, r, s, _, hb, h => by
    simp only [List.nil_append, List.cons_append, List.cons.injEq] at h
    exact absurd h.1 (fun e => hb (by simp [e]))
  | x :: a, [], r, s, ha, _, h => by
    simp only [List.nil_append, List.cons_append, List.cons.injEq] at h
    exact absurd h.1 (fun e => ha (by simp [e]))
  | x :: a, y :: b, r, s, ha, hb, h => by
    simp only [List.cons_append, List.cons.injEq] at h
    obtain ⟨e1, e2⟩ := split_at a b r s (fun h => ha (List.mem_cons_of_mem _ h))
      (fun h => hb (List.mem_cons_of_mem _ h)) h.2
    exact ⟨by rw [h.1, e1], e2⟩

theorem spaces_inj : ∀ (d e : Nat) (a b : Bytes), a.head? ≠ some 32 → b.head? ≠ some 32 →
    spaces d ++ a = spaces e ++ b → d = e ∧ a = b
  | 0, 0, a, b, _, _, h => by simpa [spaces] using h
  | 0, e + 1, a, b, ha, _, h => by
    exact absurd (by rw [show a = spaces (e + 1) ++ b by simpa [spaces] using h]; simp [spaces, List.replicate_succ]) ha
  | d + 1, 0, a, b, _, hb, h => by
    exact absurd (by rw [show b = spaces (d + 1) ++ a by simpa [spaces] using h.symm]; simp [spaces, List.replicate_succ]) hb
  | d + 1, e + 1, a, b, ha, hb, h => by
    simp only [spaces, List.replicate_succ, List.cons_append, List.cons.injEq, true_and] at h
    obtain ⟨e1, e2⟩ := spaces_inj d e a b ha hb h
    exact ⟨by rw [e1], e2⟩

theorem lit_obj : lit "rbusObject name=" = 114 :: 98 :: 117 :: 115 :: 79 :: lit "bject name=" := by decide +kernel
theorem lit_prop : lit "rbusProperty name=" = 114 :: 98 :: 117 :: 115 :: 80 :: lit "roperty name=" := by decide +kernel
theorem lit_val : lit "rbusValue type:" = 114 :: 98 :: 117 :: 115 :: 86 :: lit "alue type:" := by decide +kernel
theorem lit_value : lit " value:" = 32 :: lit "value:" := by decide +kernel

/-- The first word of a label. -/
def word (ty : Ty) : Bytes := if ty = .int8 ∨ ty = .uint8 then lit "unknown" else label ty

theorem label_word (ty : Ty) (t : Bytes) : ∃ r, label ty ++ lit " value:" ++ t = word ty ++ 32 :: r ∧ 32 ∉ word ty := by
  have h : ∀ ty, 32 ∉ word ty := by intro ty; cases ty <;> decide +kernel
  rw [lit_value]
  by_cases e : ty = .int8 ∨ ty = .uint8
  · refine ⟨lit "type" ++ 32 :: lit "value:" ++ t, ?_, h ty⟩
    rw [word, if_pos e]
    have h2 : label ty = lit "unknown" ++ 32 :: lit "type" := by rcases e with e | e <;> rw [e] <;> decide +kernel
    rw [h2]
    simp
  · refine ⟨lit "value:" ++ t, ?_, h ty⟩
    rw [word, if_neg e]
    simp

theorem word_label {a b : Ty} (h : word a = word b) : label a = label b := by
  revert h
  cases a <;> cases b <;> decide +kernel

/-- A printed value has one reading. -/
theorem value_inj {a b : Ty} {s t : Bytes} (h : label a ++ lit " value:" ++ s = label b ++ lit " value:" ++ t) :
    label a = label b ∧ s = t := by
  obtain ⟨r, h1, h2⟩ := label_word a s
  obtain ⟨r', h3, h4⟩ := label_word b t
  have h5 := h
  rw [h1, h3] at h5
  have h6 := word_label (split_at _ _ _ _ h2 h4 h5).1
  refine ⟨h6, ?_⟩
  rw [h6] at h
  simpa using h

theorem Line.bytes_inj : ∀ {a b : Line}, a.Good → b.Good → a.bytes = b.bytes → a = b := by
  have one : ∀ (d : Nat) (a : Bytes), spaces d ++ (114 :: a) ≠ [13] := by
    intro d a h
    cases d with
    | zero => simp [spaces] at h
    | succ d => simp [spaces, List.replicate_succ] at h
  have form : ∀ (a : Line), a = .blank ∨ ∃ d x r, x ≠ 32 ∧ a.bytes = spaces d ++ (114 :: x :: r) := by
    intro a
    cases a with
    | blank => exact .inl rfl
    | obj d n => exact .inr ⟨d, 98, _, by decide, by
        simp only [Line.bytes, lit_obj, List.append_assoc, List.cons_append]; rfl⟩
    | prop d n => exact .inr ⟨d, 98, _, by decide, by
        simp only [Line.bytes, lit_prop, List.append_assoc, List.cons_append]; rfl⟩
    | val d l t => exact .inr ⟨d, 98, _, by decide, by
        simp only [Line.bytes, lit_val, List.append_assoc, List.cons_append]; rfl⟩
  have hd : ∀ (r : Bytes), (114 :: r).head? ≠ some 32 := by intro r; simp
  intro a b ha hb h
  cases a with
  | blank =>
    rcases form b with rfl | ⟨d, x, r, _, hr⟩
    · rfl
    · exact absurd (hr.symm.trans h.symm) (one d _)
  | obj d n =>
    · cases b with
      | blank => simp only [Line.bytes, lit_obj, List.append_assoc, List.cons_append] at h; exact absurd h (one d _)
      | obj e m =>
        simp only [Line.bytes, lit_obj, List.append_assoc, List.cons_append] at h
        obtain ⟨e1, e2⟩ := spaces_inj d e _ _ (hd _) (hd _) h
        simp at e2
        rw [e1, e2]
      | prop e m =>
        simp only [Line.bytes, lit_obj, lit_prop, List.append_assoc, List.cons_append] at h
        have := (spaces_inj d e _ _ (hd _) (hd _) h).2
        simp at this
      | val e m t =>
        simp only [Line.bytes, lit_obj, lit_val, List.append_assoc, List.cons_append] at h
        have := (spaces_inj d e _ _ (hd _) (hd _) h).2
        simp at this
  | prop d n =>
    cases b with
    | blank => simp only [Line.bytes, lit_prop, List.append_assoc, List.cons_append] at h; exact absurd h (one d _)
    | obj e m =>
      simp only [Line.bytes, lit_obj, lit_prop, List.append_assoc, List.cons_append] at h
      have := (spaces_inj d e _ _ (hd _) (hd _) h).2
      simp at this
    | prop e m =>
      simp only [Line.bytes, lit_prop, List.append_assoc, List.cons_append] at h
      obtain ⟨e1, e2⟩ := spaces_inj d e _ _ (hd _) (hd _) h
      simp at e2
      rw [e1, e2]
    | val e m t =>
      simp only [Line.bytes, lit_prop, lit_val, List.append_assoc, List.cons_append] at h
      have := (spaces_inj d e _ _ (hd _) (hd _) h).2
      simp at this
  | val d l t =>
    cases b with
    | blank => simp only [Line.bytes, lit_val, List.append_assoc, List.cons_append] at h; exact absurd h (one d _)
    | obj e m =>
      simp only [Line.bytes, lit_obj, lit_val, List.append_assoc, List.cons_append] at h
      have := (spaces_inj d e _ _ (hd _) (hd _) h).2
      simp at this
    | prop e m =>
      simp only [Line.bytes, lit_prop, lit_val, List.append_assoc, List.cons_append] at h
      have := (spaces_inj d e _ _ (hd _) (hd _) h).2
      simp at this
    | val e m s =>
      obtain ⟨⟨ta, rfl⟩, _⟩ := ha
      obtain ⟨⟨tb, rfl⟩, _⟩ := hb
      simp only [Line.bytes, lit_val, List.append_assoc, List.cons_append] at h
      obtain ⟨e1, e2⟩ := spaces_inj d e _ _ (hd _) (hd _) h
      have e3 : label ta ++ lit " value:" ++ (t ++ [13]) = label tb ++ lit " value:" ++ (s ++ [13]) := by
        simpa using e2
      obtain ⟨e4, e5⟩ := value_inj e3
      rw [e1, e4, List.append_cancel_right e5]

theorem Line.bytes_clean : ∀ {a : Line}, a.Good → 10 ∉ a.bytes := by
  have hs : ∀ d, 10 ∉ spaces d := by
    intro d h
    exact absurd (List.eq_of_mem_replicate h) (by decide)
  intro a h
  cases a with
  | blank => decide
  | obj d n =>
    simp only [Line.bytes, List.mem_append, not_or]
    exact ⟨⟨⟨hs d, by decide +kernel⟩, h⟩, by decide⟩
  | prop d n =>
    simp only [Line.bytes, List.mem_append, not_or]
    exact ⟨⟨⟨hs d, by decide +kernel⟩, h⟩, by decide⟩
  | val d l t =>
    obtain ⟨⟨ty, rfl⟩, h⟩ := h
    simp only [Line.bytes, List.mem_append, not_or]
    exact ⟨⟨hs d, ⟨⟨by decide +kernel, by cases ty <;> decide +kernel⟩, by decide +kernel⟩, h⟩, by decide⟩

theorem render_inj : ∀ (a b : List Line), (∀ l ∈ a, l.Good) → (∀ l ∈ b, l.Good) → render a = render b → a = b
  | [], [], _, _, _ => rfl
  | [], y :: b, _, _, h => by simp [render] at h
  | x :: a, [], _, _, h => by simp [render] at h
  | x :: a, y :: b, ha, hb, h => by
    simp only [render, List.flatMap_cons, List.append_assoc, List.cons_append, List.nil_append] at h
    obtain ⟨e1, e2⟩ := split_at _ _ _ _ (Line.bytes_clean (ha x (by simp))) (Line.bytes_clean (hb y (by simp))) h
    rw [Line.bytes_inj (ha x (by simp)) (hb y (by simp)) e1,
      render_inj a b (fun l h => ha l (by simp [h])) (fun l h => hb l (by simp [h])) e2]

mutual
theorem valLines_good (d : Nat) : ∀ v, cleanVal v → ∀ l ∈ valLines d v, l.Good
  | .null, _, l, h => by simp [valLines] at h; subst h; trivial
  | .nullObj, _, l, h => by simp [valLines] at h; subst h; trivial
  | .scalar s, hc, l, h => by
    simp only [valLines, List.mem_singleton] at h
    subst h
    refine ⟨⟨s.ty, rfl⟩, ?_⟩
    cases hs : toStr s with
    | ok t => exact hc t hs
    | _ => simp
  | .props ps, hc, l, h => by
    simp only [valLines, List.mem_append, List.mem_singleton] at h
    rcases h with h | rfl
    · exact propsLines_good d ps hc l h
    · trivial
  | .obj o, hc, l, h => by
    simp only [valLines, List.mem_append, List.mem_singleton] at h
    rcases h with h | rfl
    · exact objLines_good d o hc l h
    · trivial

theorem propsLines_good (d : Nat) : ∀ ps, cleanProps ps → ∀ l ∈ propsLines d ps, l.Good
  | .nil, _, l, h => by simp [propsLines] at h
  | .cons n v rest, hc, l, h => by
    simp only [propsLines, List.mem_cons, List.mem_append] at h
    rcases h with rfl | h | h
    · exact hc.1
    · exact valLines_good (d + 1) v hc.2.1 l h
    · exact propsLines_good d rest hc.2.2 l h

theorem objLines_good (d : Nat) : ∀ o, cleanObj o → ∀ l ∈ objLines d o, l.Good
  | .mk n k ps cs, hc, l, h => by
    simp only [objLines, List.mem_cons, List.mem_append] at h
    rcases h with rfl | h | h
    · exact hc.1
    · exact propsLines_good (d + 1) ps hc.2.1 l h
    · exact objsLines_good (d + 1) cs hc.2.2 l h

theorem objsLines_good (d : Nat) : ∀ os, cleanObjs os → ∀ l ∈ objsLines d os, l.Good
  | .nil, _, l, h => by simp [objsLines] at h
  | .cons o rest, hc, l, h => by
    simp only [objsLines, List.mem_append] at h
    rcases h with h | h
    · exact objLines_good d o hc.1 l h
    · exact objsLines_good d rest hc.2 l h
end

/-! ## Lines have one reading as an object -/

/-- What follows properties printed at depth `d` does not go on with them. -/
def NoProp (d : Nat) (r : List Line) : Prop := ∀ n s, r ≠ .prop d n :: s

/-- What follows objects printed at depth `d` does not go on with them. -/
def Below (d : Nat) (r : List Line) : Prop :=
  ∀ e n s, d ≤ e → r ≠ .prop e n :: s ∧ r ≠ .obj e n :: s

theorem Below.mono {d e : Nat} (h : d ≤ e) {r : List Line} (hr : Below d r) : Below e r :=
  fun k n s hk => hr k n s (Nat.le_trans h hk)

theorem Below.noProp {d : Nat} {r : List Line} (hr : Below d r) : NoProp d r := fun n s => (hr d n s (Nat.le_refl d)).1

theorem below_blank (d : Nat) (r : List Line) : Below d (.blank :: r) := by
  intro e n s _
  exact ⟨(by simp), by simp⟩

theorem below_val (d k : Nat) (l t : Bytes) (r : List Line) : Below d (.val k l t :: r) := by
  intro e n s _
  exact ⟨(by simp), by simp⟩

theorem noProp_objs {d : Nat} {r : List Line} (hr : Below d r) : ∀ os, NoProp d (objsLines d os ++ r)
  | .nil => hr.noProp
  | .cons (.mk n k ps cs) rest => by
    intro m s
    simp [objsLines, objLines]

theorem below_objs {d : Nat} {r : List Line} (hr : Below d r) : ∀ os, Below (d + 1) (objsLines d os ++ r)
  | .nil => hr.mono (Nat.le_succ d)
  | .cons (.mk n k ps cs) rest => by
    intro e m s he
    simp only [objsLines, objLines, List.cons_append, ne_eq, List.cons.injEq, reduceCtorEq, false_and, not_false_eq_true,
      Line.obj.injEq, true_and]
    intro h
    omega

mutual
theorem val_unique (d : Nat) : ∀ (v w : Val) (r s : List Line), valLines d v ++ r = valLines d w ++ s →
    seenVal v = seenVal w ∧ r = s
  | .null, w, r, s, h => nothing_unique d w r s h
  | .nullObj, w, r, s, h => nothing_unique d w r s h
  | .scalar a, w, r, s, h => by
    cases w with
    | null => simp [valLines] at h
    | nullObj => simp [valLines] at h
    | scalar b =>
      simp only [valLines, List.cons_append, List.nil_append, List.cons.injEq, Line.val.injEq, true_and] at h
      refine ⟨?_, h.2⟩
      simp only [seenVal]
      exact congr (congrArg Seen.value h.1.1) h.1.2
    | props ps => cases ps <;> simp [valLines, propsLines] at h
    | obj o => cases o; simp [valLines, objLines] at h
  | .props .nil, w, r, s, h => nothing_unique d w r s h
  | .props (.cons n v rest), w, r, s, h => by
    cases w with
    | null => simp [valLines, propsLines] at h
    | nullObj => simp [valLines, propsLines] at h
    | scalar b => simp [valLines, propsLines] at h
    | props qs =>
      simp only [valLines, List.append_assoc, List.cons_append, List.nil_append] at h
      cases qs with
      | nil => simp [propsLines] at h
      | cons m w rest' =>
        obtain ⟨e1, e2⟩ := props_unique d (.cons n v rest) (.cons m w rest') _ _ (below_blank d r).noProp
          (below_blank d s).noProp h
        simp only [List.cons.injEq, true_and] at e2
        simp only [seenProps] at e1
        simp only [seenVal, e1, e2, and_self]
    | obj o => cases o; simp [valLines, propsLines, objLines] at h
  | .obj o, w, r, s, h => by
    cases w with
    | null => cases o; simp [valLines, objLines] at h
    | nullObj => cases o; simp [valLines, objLines] at h
    | scalar b => cases o; simp [valLines, objLines] at h
    | props qs => cases o; cases qs <;> simp [valLines, propsLines, objLines] at h
    | obj p =>
      simp only [valLines, List.append_assoc, List.cons_append, List.nil_append] at h
      obtain ⟨e1, e2⟩ := obj_unique d o p _ _ (below_blank (d + 1) r) (below_blank (d + 1) s) h
      simp only [List.cons.injEq, true_and] at e2
      simp only [seenVal, e1, e2, and_self]

theorem props_unique (d : Nat) : ∀ (ps qs : Chain) (r s : List Line), NoProp d r → NoProp d s →
    propsLines d ps ++ r = propsLines d qs ++ s → seenProps ps = seenProps qs ∧ r = s
  | .nil, .nil, r, s, _, _, h => ⟨rfl, h⟩
  | .nil, .cons n v rest, r, s, hr, _, h => by
    simp only [propsLines, List.nil_append, List.cons_append] at h
    exact absurd h (hr _ _)
  | .cons n v rest, .nil, r, s, _, hs, h => by
    simp only [propsLines, List.nil_append, List.cons_append] at h
    exact absurd h.symm (hs _ _)
  | .cons n v rest, .cons m w rest', r, s, hr, hs, h => by
    simp only [propsLines, List.cons_append, List.append_assoc, List.cons.injEq, Line.prop.injEq, true_and] at h
    obtain ⟨e1, e2⟩ := val_unique (d + 1) v w _ _ h.2
    obtain ⟨e3, e4⟩ := props_unique d rest rest' r s hr hs e2
    exact ⟨by simp only [seenProps, h.1, e1, e3], e4⟩

theorem obj_unique (d : Nat) : ∀ (o p : Obj) (r s : List Line), Below (d + 1) r → Below (d + 1) s →
    objLines d o ++ r = objLines d p ++ s → seenObj o = seenObj p ∧ r = s
  | .mk n k ps cs, .mk m j qs es, r, s, hr, hs, h => by
    simp only [objLines, List.cons_append, List.append_assoc, List.cons.injEq, Line.obj.injEq, true_and] at h
    obtain ⟨e1, e2⟩ := props_unique (d + 1) ps qs _ _ (noProp_objs hr cs) (noProp_objs hs es) h.2
    obtain ⟨e3, e4⟩ := objs_unique (d + 1) cs es r s hr hs e2
    exact ⟨by simp only [seenObj, h.1, e1, e3], e4⟩

theorem objs_unique (d : Nat) : ∀ (os ps : Objs) (r s : List Line), Below d r → Below d s →
    objsLines d os ++ r = objsLines d ps ++ s → seenObjs os = seenObjs ps ∧ r = s
  | .nil, .nil, r, s, _, _, h => ⟨rfl, h⟩
  | .nil, .cons (.mk n k ps cs) rest, r, s, hr, _, h => by
    simp only [objsLines, objLines, List.nil_append, List.cons_append] at h
    exact absurd h (hr d _ _ (Nat.le_refl d)).2
  | .cons (.mk n k ps cs) rest, .nil, r, s, _, hs, h => by
    simp only [objsLines, objLines, List.nil_append, List.cons_append] at h
    exact absurd h.symm (hs d _ _ (Nat.le_refl d)).2
  | .cons o rest, .cons p rest', r, s, hr, hs, h => by
    simp only [objsLines, List.append_assoc] at h
    obtain ⟨e1, e2⟩ := obj_unique d o p _ _ (below_objs hr rest) (below_objs hs rest') h
    obtain ⟨e3, e4⟩ := objs_unique d rest rest' r s hr hs e2
    exact ⟨by simp only [seenObjs, e1, e3], e4⟩

/-- Nothing is a blank line. -/
theorem nothing_unique (d : Nat) : ∀ (w : Val) (r s : List Line), [Line.blank] ++ r = valLines d w ++ s →
    Seen.nothing = seenVal w ∧ r = s
  | .null, r, s, h => by simpa [valLines, seenVal] using h
  | .nullObj, r, s, h => by simpa [valLines, seenVal] using h
  | .scalar a, r, s, h => by simp [valLines] at h
  | .props .nil, r, s, h => by simpa [valLines, seenVal, propsLines] using h
  | .props (.cons n v rest), r, s, h => by simp [valLines, propsLines] at h
  | .obj (.mk n k ps cs), r, s, h => by simp [valLines, objLines] at h
end

/-! ## Filters -/

/-- After a filter comes nothing, a space or a closing parenthesis. -/
def End (r : Bytes) : Prop := r = [] ∨ r.head? = some 32 ∨ r.head? = some 41

theorem end_split : ∀ (a b r s : Bytes), (∀ c ∈ a, c ≠ 32 ∧ c ≠ 41) → (∀ c ∈ b, c ≠ 32 ∧ c ≠ 41) → End r → End s →
    a ++ r = b ++ s → a = b ∧ r = s
  | [], [], r, s, _, _, _, _, h => by simpa using h
  | [], y :: b, r, s, _, hb, hr, _, h => by
    simp only [List.nil_append, List.cons_append] at h
    subst h
    have := hb y (by simp)
    rcases hr with h | h | h <;> simp at h
    · exact absurd h this.1
    · exact absurd h this.2
  | x :: a, [], r, s, ha, _, _, hs, h => by
    simp only [List.nil_append, List.cons_append] at h
    subst h
    have := ha x (by simp)
    rcases hs with h | h | h <;> simp at h
    · exact absurd h this.1
    · exact absurd h this.2
  | x :: a, y :: b, r, s, ha, hb, hr, hs, h => by
    simp only [List.cons_append, List.cons.injEq] at h
    obtain ⟨e1, e2⟩ := end_split a b r s (fun c h => ha c (by simp [h])) (fun c h => hb c (by simp [h])) hr hs h.2
    exact ⟨by rw [h.1, e1], e2⟩

theorem opText_inj {op op' : Nat} (h1 : op ≤ 5) (h2 : op' ≤ 5) {x y : Bytes}
    (h : opText op ++ 114 :: x = opText op' ++ 114 :: y) : op = op' ∧ x = y := by
  have e : ∀ op ≤ 5, opText op = match op with
      | 0 => [62] | 1 => [62, 61] | 2 => [60] | 3 => [60, 61] | 4 => [61, 61] | _ => [33, 61] := by decide +kernel
  rw [e op h1, e op' h2] at h
  rcases op with _ | _ | _ | _ | _ | _ | op <;> rcases op' with _ | _ | _ | _ | _ | _ | op' <;> simp at h ⊢ <;>
    first | exact h | omega

theorem debugText_ok {v : Scalar} {t : Bytes} (h : debugText v = .ok t) : ∃ s, toStr v = .ok s ∧
    t = 114 :: 98 :: 117 :: 115 :: 86 :: (lit "alue type:" ++ (label v.ty ++ lit " value:" ++ s)) := by
  unfold debugText at h
  obtain ⟨s, h1, h2⟩ := res_bind_ok h
  simp only [Res.pure_eq, Res.ok.injEq] at h2
  refine ⟨s, h1, ?_⟩
  rw [← h2, lit_val]
  simp

theorem subject_head {x : Option Scalar} {p : Bytes} (h : subject x = .ok p) :
    ∃ c r, p = c :: r ∧ (c = 88 ∨ c = 114) := by
  cases x with
  | none =>
    simp only [subject, Res.ok.injEq] at h
    subst h
    exact ⟨88, [], (by decide +kernel), .inl rfl⟩
  | some v =>
    obtain ⟨s, _, rfl⟩ := debugText_ok h
    exact ⟨114, _, rfl, .inr rfl⟩

theorem lit_not : lit "!" = [33] := by decide +kernel
theorem lit_open : lit "(" = [40] := by decide +kernel
theorem lit_close : lit ")" = [41] := by decide +kernel
theorem lit_and : lit " && " = [32, 38, 38, 32] := by decide +kernel
theorem lit_or : lit " || " = [32, 124, 124, 32] := by decide +kernel

/-- The text of a logic expression with these operands. -/
def logicText (a b : Bytes) : Nat → Bytes
  | 0 => 40 :: (a ++ (32 :: 38 :: 38 :: 32 :: (b ++ [41])))
  | 1 => 40 :: (a ++ (32 :: 124 :: 124 :: 32 :: (b ++ [41])))
  | _ => 33 :: 40 :: (a ++ [41])

/-- What a logic expression prints. -/
theorem logic_ok {x : Option Scalar} {op : Nat} {l r : Filter.Filter} {t : Bytes}
    (h : printFilter x (.logic op l r) = .ok t) (hop : op ≤ 2) : ∃ a b, printFilter x l = .ok a ∧
      (op ≠ 2 → printFilter x r = .ok b) ∧ t = logicText a b op := by
  unfold printFilter at h
  obtain ⟨a, h1, h⟩ := res_bind_ok h
  obtain ⟨b, h2, h⟩ := res_bind_ok h
  simp only [Res.pure_eq, Res.ok.injEq, lit_not, lit_open, lit_close, lit_and, lit_or] at h
  refine ⟨a, b, h1, ?_, ?_⟩
  · intro ho
    rw [if_pos (by simpa [Filter.opNOT] using ho)] at h2
    exact h2
  · rw [← h]
    rcases op with _ | _ | _ | op
    · simp [Filter.opNOT, Filter.opAND, logicText]
    · simp [Filter.opNOT, Filter.opAND, Filter.opOR, logicText]
    · simp only [Filter.opNOT, Nat.zero_add, Nat.reduceAdd, ne_eq, not_true_eq_false, if_false, Res.ok.injEq] at h2
      subst h2
      simp [Filter.opNOT, Filter.opAND, Filter.opOR, logicText]
    · omega

/-- The text of a filter has one reading. -/
theorem filter_unique (x : Option Scalar) : ∀ (f g : Filter.Filter) (a b r s : Bytes), Readable f → Readable g →
    printFilter x f = .ok a → printFilter x g = .ok b → End r → End s → a ++ r = b ++ s →
    seenFilter f = seenFilter g ∧ r = s := by
  have nullCase : ∀ (g : Filter.Filter) (b r s : Bytes), g ≠ .null → Readable g → printFilter x g = .ok b → End r →
      r ≠ b ++ s := by
    intro g b r s hg hR hb hr e
    have : ∃ c t, b = c :: t ∧ (c = 88 ∨ c = 114 ∨ c = 40 ∨ c = 33) := by
      cases g with
      | null => exact absurd rfl hg
      | relation op v =>
        unfold printFilter at hb
        obtain ⟨p, h1, hb⟩ := res_bind_ok hb
        obtain ⟨q, h2, hb⟩ := res_bind_ok hb
        simp only [Res.pure_eq, Res.ok.injEq] at hb
        obtain ⟨c, t, rfl, hc⟩ := subject_head h1
        exact ⟨c, _, hb.symm, by rcases hc with h | h <;> simp [h]⟩
      | logic op l q =>
        obtain ⟨a, b', _, _, rfl⟩ := logic_ok hb hR.1
        rcases op with _ | _ | _ | op
        · exact ⟨40, _, rfl, by simp⟩
        · exact ⟨40, _, rfl, by simp⟩
        · exact ⟨33, _, rfl, by simp⟩
        · exact absurd hR.1 (by omega)
    obtain ⟨c, t, rfl, hc⟩ := this
    subst e
    rcases hr with h | h | h
    · simp at h
    · simp only [List.cons_append, List.head?_cons, Option.some.injEq] at h
      subst h
      revert hc; decide
    · simp only [List.cons_append, List.head?_cons, Option.some.injEq] at h
      subst h
      revert hc; decide
  have relLogic : ∀ (op : Nat) (v : Scalar) (op' : Nat) (l q : Filter.Filter) (a b r s : Bytes),
      Readable (.logic op' l q) → printFilter x (.relation op v) = .ok a → printFilter x (.logic op' l q) = .ok b →
      a ++ r ≠ b ++ s := by
    intro op v op' l q a b r s hR ha hb e
    unfold printFilter at ha
    obtain ⟨p, h1, ha⟩ := res_bind_ok ha
    obtain ⟨q', h2, ha⟩ := res_bind_ok ha
    simp only [Res.pure_eq, Res.ok.injEq] at ha
    obtain ⟨c, t, rfl, hc⟩ := subject_head h1
    obtain ⟨a', b', _, _, rfl⟩ := logic_ok hb hR.1
    subst ha
    rcases op' with _ | _ | _ | op'
    · simp only [logicText, List.cons_append, List.cons.injEq] at e
      have := e.1; subst this; revert hc; decide
    · simp only [logicText, List.cons_append, List.cons.injEq] at e
      have := e.1; subst this; revert hc; decide
    · simp only [logicText, List.cons_append, List.cons.injEq] at e
      have := e.1; subst this; revert hc; decide
    · exact absurd hR.1 (by omega)
  intro f
  induction f with
  | null =>
    intro g a b r s _ hg ha hb hr hs h
    cases ha
    by_cases e : g = .null
    · subst e; cases hb; exact ⟨rfl, by simpa using h⟩
    · exact absurd (by simpa using h) (nullCase g b r s e hg hb hr)
  | relation op v =>
    intro g a b r s hf hg ha hb hr hs h
    cases g with
    | null =>
      cases hb
      exact absurd (by simpa using h.symm) (nullCase _ a s r (by simp) hf ha hs)
    | logic op' l q => exact absurd h (relLogic op v op' l q a b r s hg ha hb)
    | relation op' w =>
      unfold printFilter at ha hb
      obtain ⟨p, h1, ha⟩ := res_bind_ok ha
      obtain ⟨t, h2, ha⟩ := res_bind_ok ha
      obtain ⟨p', h1', hb⟩ := res_bind_ok hb
      obtain ⟨t', h2', hb⟩ := res_bind_ok hb
      rw [h1] at h1'
      cases h1'
      simp only [Res.pure_eq, Res.ok.injEq] at ha hb
      subst ha hb
      obtain ⟨tv, k1, rfl⟩ := debugText_ok h2
      obtain ⟨tw, k2, rfl⟩ := debugText_ok h2'
      simp only [List.append_assoc, List.append_cancel_left_eq, List.cons_append] at h
      obtain ⟨e1, e2⟩ := opText_inj hf.1 hg.1 h
      simp only [List.cons.injEq, true_and, List.append_cancel_left_eq] at e2
      obtain ⟨e3, e4⟩ := value_inj (a := v.ty) (b := w.ty) (s := tv ++ r) (t := tw ++ s) (by simpa using e2)
      obtain ⟨e5, e6⟩ := end_split tv tw r s (hf.2 tv k1) (hg.2 tw k2) hr hs e4
      refine ⟨?_, e6⟩
      simp only [seenFilter, k1, k2, e1, e3, e5]
  | logic op l q ihl ihq =>
    intro g a b r s hf hg ha hb hr hs h
    cases g with
    | null =>
      cases hb
      exact absurd (by simpa using h.symm) (nullCase _ a s r (by simp) hf ha hs)
    | relation op' w => exact absurd h.symm (relLogic op' w op l q b a s r hf hb ha)
    | logic op' l' q' =>
      obtain ⟨a1, a2, k1, k2, rfl⟩ := logic_ok ha hf.1
      obtain ⟨b1, b2, k3, k4, rfl⟩ := logic_ok hb hg.1
      have sp : ∀ (c : UInt8) (u : Bytes), End (32 :: c :: u) := fun c u => .inr (.inl rfl)
      have cl : ∀ u : Bytes, End (41 :: u) := fun u => .inr (.inr rfl)
      rcases op with _ | _ | _ | op
      · rcases op' with _ | _ | _ | op'
        · simp only [logicText, List.cons_append, List.append_assoc, List.nil_append, List.cons.injEq, true_and] at h
          obtain ⟨e1, e2⟩ := ihl l' _ _ _ _ hf.2.1 hg.2.1 k1 k3 (sp _ _) (sp _ _) h
          simp only [List.cons.injEq, true_and] at e2
          obtain ⟨e3, e4⟩ := ihq q' _ _ _ _ (hf.2.2 (by decide)) (hg.2.2 (by decide)) (k2 (by omega)) (k4 (by omega)) (cl _) (cl _) e2
          simp only [List.cons.injEq, true_and] at e4
          exact ⟨by simp [seenFilter, e1, e3], e4⟩
        · simp only [logicText, List.cons_append, List.append_assoc, List.nil_append, List.cons.injEq, true_and] at h
          obtain ⟨e1, e2⟩ := ihl l' _ _ _ _ hf.2.1 hg.2.1 k1 k3 (sp _ _) (sp _ _) h
          simp at e2
        · simp [logicText] at h
        · exact absurd hg.1 (by omega)
      · rcases op' with _ | _ | _ | op'
        · simp only [logicText, List.cons_append, List.append_assoc, List.nil_append, List.cons.injEq, true_and] at h
          obtain ⟨e1, e2⟩ := ihl l' _ _ _ _ hf.2.1 hg.2.1 k1 k3 (sp _ _) (sp _ _) h
          simp at e2
        · simp only [logicText, List.cons_append, List.append_assoc, List.nil_append, List.cons.injEq, true_and] at h
          obtain ⟨e1, e2⟩ := ihl l' _ _ _ _ hf.2.1 hg.2.1 k1 k3 (sp _ _) (sp _ _) h
          simp only [List.cons.injEq, true_and] at e2
          obtain ⟨e3, e4⟩ := ihq q' _ _ _ _ (hf.2.2 (by decide)) (hg.2.2 (by decide)) (k2 (by omega)) (k4 (by omega)) (cl _) (cl _) e2
          simp only [List.cons.injEq, true_and] at e4
          exact ⟨by simp [seenFilter, e1, e3], e4⟩
        · simp [logicText] at h
        · exact absurd hg.1 (by omega)
      · rcases op' with _ | _ | _ | op'
        · simp [logicText] at h
        · simp [logicText] at h
        · simp only [logicText, List.cons_append, List.append_assoc, List.nil_append, List.cons.injEq, true_and] at h
          obtain ⟨e1, e2⟩ := ihl l' _ _ _ _ hf.2.1 hg.2.1 k1 k3 (cl _) (cl _) h
          simp only [List.cons.injEq, true_and] at e2
          exact ⟨by simp [seenFilter, Filter.opNOT, e1], e2⟩
        · exact absurd hg.1 (by omega)
      · exact absurd hf.1 (by omega)

/-! ## Scalars -/

theorem hexByte_inj {a b : UInt8} (h : Text.hexByte a = Text.hexByte b) : a = b := by
  have inv : ∀ n : Fin 256, (match Text.hexByte (UInt8.ofNat n.1) with
      | [x, y] => (Spec.Text.digitOf x).bind fun i => (Spec.Text.digitOf y).map fun j => i * 16 + j
      | _ => none) = some n.1 := by decide +kernel
  have ha := inv ⟨a.toNat, a.toNat_lt⟩
  have hb := inv ⟨b.toNat, b.toNat_lt⟩
  simp only [UInt8.ofNat_toNat] at ha hb
  rw [h, hb] at ha
  exact UInt8.toNat.inj (Option.some.inj ha).symm

theorem hex_inj : ∀ {s t : Bytes}, s.flatMap Text.hexByte = t.flatMap Text.hexByte → s = t
  | [], [], _ => rfl
  | [], y :: t, h => by simp [Text.hexByte] at h
  | x :: s, [], h => by simp [Text.hexByte] at h
  | x :: s, y :: t, h => by
    simp only [List.flatMap_cons] at h
    obtain ⟨h1, h2⟩ := List.append_inj h (by simp [Text.hexByte])
    rw [hexByte_inj h1, hex_inj h2]

theorem hexText_inj {m n : Nat} (h : Text.hexText m = Text.hexText n) : m = n := by
  have h1 := Text.scan_numeral (Text.toDigits_numeral (base := 16) (by omega) (by omega) m)
  have h2 := Text.scan_numeral (Text.toDigits_numeral (base := 16) (by omega) (by omega) n)
  have h3 : (Nat.toDigits 16 m).map (fun c => UInt8.ofNat c.toNat) = (Nat.toDigits 16 n).map (fun c => UInt8.ofNat c.toNat) := h
  rw [h3, h2] at h1
  exact (congrArg Prod.fst h1).symm

theorem label_inj {a b : Ty} (ha : a ≠ .int8 ∧ a ≠ .uint8) (h : label a = label b) : a = b := by
  revert ha h
  cases a <;> cases b <;> decide +kernel

/-! ## When printing is defined -/

theorem debugText_defined {v : Scalar} (h : Given v) : ∃ t, debugText v = .ok t := by
  have : ∃ t, toStr v = .ok t := by
    cases v with
    | none => exact h.elim
    | string s => cases s with
      | none => exact h.elim
      | some s => exact ⟨_, rfl⟩
    | bytes s => cases s with
      | none => exact h.elim
      | some s => exact ⟨_, rfl⟩
    | datetime d =>
      simp only [toStr, DateText.toText, DateText.text]
      by_cases e : d.year = 0
      · exact ⟨_, by rw [if_pos e, Res.ok_bind]; rfl⟩
      · exact ⟨_, by rw [if_neg e, if_pos (by have := h.1; have := h.2; omega), Res.ok_bind]; rfl⟩
    | _ => exact ⟨_, rfl⟩
  obtain ⟨t, ht⟩ := this
  exact ⟨_, by rw [debugText, ht, Res.ok_bind]; rfl⟩

mutual
theorem val_defined (d : Nat) : ∀ v, givenVal v → ∃ t, printVal d v = .ok t
  | .null, _ => ⟨_, rfl⟩
  | .nullObj, _ => ⟨_, rfl⟩
  | .scalar s, h => by
    obtain ⟨t, ht⟩ := debugText_defined (v := s) h
    exact ⟨_, by rw [printVal, ht, Res.ok_bind, Res.pure_eq]⟩
  | .props ps, h => by rw [printVal]; exact props_defined d ps h
  | .obj o, h => by rw [printVal]; exact obj_defined d o h

theorem props_defined (d : Nat) : ∀ ps, givenProps ps → ∃ t, printProps d ps = .ok t
  | .nil, _ => ⟨_, rfl⟩
  | .cons none _ _, h => absurd rfl h.1
  | .cons (some n) v rest, h => by
    obtain ⟨a, ha⟩ := val_defined (d + 1) v h.2.1
    obtain ⟨b, hb⟩ := props_defined d rest h.2.2
    exact ⟨_, by rw [printProps, named, Res.ok_bind, ha, Res.ok_bind, hb, Res.ok_bind, Res.pure_eq]⟩

theorem obj_defined (d : Nat) : ∀ o, givenObj o → ∃ t, printObj d o = .ok t
  | .mk none _ _ _, h => absurd rfl h.1
  | .mk (some n) m ps cs, h => by
    obtain ⟨a, ha⟩ := props_defined (d + 1) ps h.2.1
    obtain ⟨b, hb⟩ := objs_defined (d + 1) cs h.2.2
    cases ps with
    | nil =>
      rw [printObj, named, Res.ok_bind]
      exact ⟨_, rfl⟩
    | cons q v rest =>
      rw [printObj, named, Res.ok_bind]
      dsimp only
      rw [ha, Res.ok_bind, hb, Res.ok_bind, Res.pure_eq]
      exact ⟨_, rfl⟩

theorem objs_defined (d : Nat) : ∀ os, givenObjs os → ∃ t, printObjs d os = .ok t
  | .nil, _ => ⟨_, rfl⟩
  | .cons o rest, h => by
    obtain ⟨a, ha⟩ := obj_defined d o h.1
    obtain ⟨b, hb⟩ := objs_defined d rest h.2
    exact ⟨_, by rw [printObjs, ha, Res.ok_bind, hb, Res.ok_bind, Res.pure_eq]⟩
end

theorem filter_defined (x : Option Scalar) (hx : ∀ v, x = some v → Given v) :
    ∀ f, givenFilter f → ∃ t, printFilter x f = .ok t
  | .null, _ => ⟨_, rfl⟩
  | .relation op v, h => by
    obtain ⟨a, ha⟩ : ∃ a, subject x = .ok a := by
      cases x with
      | none => exact ⟨_, rfl⟩
      | some v => exact debugText_defined (hx v rfl)
    obtain ⟨b, hb⟩ := debugText_defined (v := v) h
    exact ⟨_, by rw [printFilter, ha, Res.ok_bind, hb, Res.ok_bind, Res.pure_eq]⟩
  | .logic op l r, h => by
    obtain ⟨a, ha⟩ := filter_defined x hx l h.1
    obtain ⟨b, hb⟩ := filter_defined x hx r h.2
    rw [printFilter, ha, Res.ok_bind]
    by_cases e : op ≠ Filter.opNOT
    · rw [if_pos e, hb, Res.ok_bind, Res.pure_eq]
      exact ⟨_, rfl⟩
    · rw [if_neg e, Res.ok_bind, Res.pure_eq]
      exact ⟨_, rfl⟩

end Verif.Print
