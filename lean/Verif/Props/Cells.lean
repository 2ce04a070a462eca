import Verif.Proof.CellsRun

/-!
# C92: a value tells what was put into it last, and gives back its memory
-/

namespace Verif.Props

open Verif Verif.Spec.Cells
open Verif.Cells (Op Out Src Kind Part Tag State)

/-- Whatever a program does with values, in any order and with any data, every getter tells what the specification of plain
variables says: the type and data put in last, or that the type is another one. No call touches memory that is freed or not its own.

Partial: the program puts no text or bytes into a value that holds a property or an object (`C92_overwrite_fails`), copies no value
that holds one (`C92_copy_fails`), asks a value of another type for its string only with the function that checks the type
(`C92_other_type_fails`), asks no NULL string for its length and bytes (`C92_null_fails`), and sets no value from its own bytes
(`C92_self_fails`). -/
theorem C92_values_partial {ops : List Op} {A : Sheet} {outs : List Out} (h : Spec.Cells.run Sheet.init ops = some (A, outs)) :
    ∃ s, Cells.run State.init ops = .ok (s, outs) := by
  obtain ⟨s, h1, _⟩ := Cells.run_rel Cells.init_rel h
  exact ⟨s, h1⟩

/-- The memory in use is what the values need: a value lives until it was released as often as it was retained and made; each
property or object has the references of the program and one for each value that holds it; and when no value is left, no buffer and
no block is left.

Partial: as `C92_values_partial`. -/
theorem C92_memory_partial {ops : List Op} {A : Sheet} {outs : List Out} {s : State}
    (h : Spec.Cells.run Sheet.init ops = some (A, outs)) (hs : Cells.run State.init ops = .ok (s, outs)) :
    (∀ v, s.cell v = none ↔ A.val v = none) ∧ (∀ r, s.ref r = A.held r + A.holders r) ∧
    ((∀ v, A.val v = none) → (∀ a, s.heap.buf a = none) ∧ ∀ k, s.heap.ext k = none) := by
  obtain ⟨s', h1, i⟩ := Cells.run_rel Cells.init_rel h
  rw [hs] at h1
  cases h1
  refine ⟨fun v => ⟨fun hn => ?_, i.dead v⟩, i.refs, fun hall => ?_⟩
  · cases hv : A.val v with
    | none => rfl
    | some p =>
      obtain ⟨c, hc, _⟩ := i.alive v p.1 p.2 hv
      rw [hn] at hc
      cases hc
  · have hb : ∀ a, s.heap.buf a = none := by
      intro a
      refine (Cells.view_buf i.heap).mp ?_
      cases hv : s.heap.view a with
      | none => rfl
      | some p =>
        obtain ⟨v, c, hc, _⟩ := i.owned a (by rw [hv]; exact Option.some_ne_none _)
        rw [i.dead v (hall v)] at hc
        cases hc
    refine ⟨hb, fun k => ?_⟩
    cases hk : s.heap.ext k with
    | none => rfl
    | some bs =>
      obtain ⟨a, b, h2, _⟩ := i.heap.owned k bs hk
      rw [hb a] at h2
      cases h2

/-- A pointer to the string or the bytes of a value stays good, and what it points to stays the same, whatever is done with other
values, until the value is set or freed.

Partial: as `C92_values_partial`. -/
theorem C92_pointer_partial {ops ops' : List Op} {A A' : Sheet} {outs outs' : List Out} {s s' : State} {v n : Nat} {x : Content}
    {bs : Bytes} (h : Spec.Cells.run Sheet.init ops = some (A, outs)) (hs : Cells.run State.init ops = .ok (s, outs))
    (h' : Spec.Cells.run A ops' = some (A', outs')) (hs' : Cells.run s ops' = .ok (s', outs'))
    (hv : A.val v = some (x, n)) (hx : x = .text (some bs) ∨ x = .bytes (some bs)) (ht : ∀ op ∈ ops', target op ≠ some v)
    (hl : A'.val v ≠ none) :
    ∃ l, Cells.pointerTo s v = .ok l ∧ Cells.pointerTo s' v = .ok l ∧
      s.heap.read l = .ok (bs ++ if x.tag = .string then [0] else []) ∧
      s'.heap.read l = .ok (bs ++ if x.tag = .string then [0] else []) := by
  obtain ⟨s1, h1, i⟩ := Cells.run_rel Cells.init_rel h
  rw [hs] at h1
  cases h1
  obtain ⟨s2, h2, i'⟩ := Cells.run_rel i h'
  rw [hs'] at h2
  cases h2
  obtain ⟨hloc, m, hm⟩ := Cells.run_loc i h' hs' ht hv hl
  have hx' : (x = .text (some bs) ∧ (bs ++ if x.tag = .string then [0] else []) = bs ++ [0]) ∨
      (x = .bytes (some bs) ∧ (bs ++ if x.tag = .string then [0] else []) = bs) := by
    rcases hx with rfl | rfl
    · exact .inl ⟨rfl, rfl⟩
    · exact .inr ⟨rfl, by simp [Content.tag]⟩
  obtain ⟨l, h3, h4, h5⟩ := Cells.loc_text i hv hx'
  obtain ⟨l', h6, h7, h8⟩ := Cells.loc_text i' hm hx'
  have : l = l' := by
    rw [hloc, h4] at h7
    exact Option.some.inj h7
  subst this
  exact ⟨l, h3, h6, h5, h8⟩

/-! ## What goes wrong -/

/-- C92 fails: a value that holds an object (or a property) is given a string; the object is never released again, even when the
value and the program's own reference are gone. -/
theorem C92_overwrite_fails (k : Part) (text : Bytes) (h : text.length < 64) (h0 : (0 : UInt8) ∉ text) :
    ∃ s outs, Cells.run State.init [.new, .newPart, .setPart 0 k (some 0), .setString 0 (.own (text ++ [0])), .release 0,
      .releasePart 0] = .ok (s, outs) ∧ s.cell 0 = none ∧ s.ref 0 = 1 := by
  have e : Cells.cstring (text ++ [0]) = .ok text := by
    rw [Cells.cstring_ok (by simp), Cells.takeWhile_zero h0]
  have l1 : ¬ 2147483582 ≤ text.length := by omega
  have l2 : ¬ 64 ≤ text.length := by omega
  have l3 : ¬ 64 < text.length + 1 := by omega
  simp [Cells.run, Cells.step, Cells.silent, Cells.new, Cells.setPart, Cells.freeInternal, State.get, State.put, Cells.upd, State.drop,
    Cells.Cell.clear, State.retainRef, Cells.setString, Src.bytes, e, Src.overlaps, Cells.setBuffer, Cells.bufferOf, Tag.buffered,
    Cells.Heap.create, Cells.Heap.write, l1, l2, l3, Cells.release, State.init, Cells.Cell.pointer, Cells.Heap.destroy,
    Cells.Heap.freeData, State.releaseRef]

/-- C92 fails: a value that holds an object (or a property) is copied: the copy is no copy, keeps its own type, and loses its own
data: here a number turns to 0. -/
theorem C92_copy_fails (k : Part) (bs : Bytes) (h : bs.length = 4) :
    ∃ s, Cells.run State.init [.new, .new, .newPart, .setPart 0 k (some 0), .setPlain 1 .int32 bs, .copy 1 0, .getPlain 1 .int32,
      .getPart 1 k] = .ok (s, [.done, .done, .done, .done, .done, .done, .plain [0, 0, 0, 0], .wrongType]) := by
  simp [Cells.run, Cells.step, Cells.silent, Cells.told, Cells.new, Cells.setPart, Cells.setPlain, Cells.freeInternal, State.get,
    State.put, Cells.upd, State.drop, Cells.Cell.clear, State.retainRef, State.init, Cells.Cell.fill, Cells.copy, Cells.getPlain,
    Cells.getPart, Kind.size, Cells.zeros]

/-- C92 fails: the string of a value of another type, which the code promises to be NULL, is undefined unless the value is zero. -/
theorem C92_other_type_fails (k : Kind) (bs : Bytes) (h : bs.length = Spec.Cells.width k) (h0 : ∃ b ∈ bs.take 8, b ≠ 0) :
    Cells.run State.init [.new, .setPlain 0 k bs, .getStringAny 0] = .ub := by
  have e : ¬ (bs ++ (Cells.zeros 8 ++ (Cells.zeros 48).drop 8).drop bs.length).take 8 = Cells.zeros 8 := by
    intro hz
    obtain ⟨b, hb, hne⟩ := h0
    have : b ∈ (bs ++ (Cells.zeros 8 ++ (Cells.zeros 48).drop 8).drop bs.length).take 8 := by
      rw [List.take_append]
      exact List.mem_append_left _ hb
    rw [hz] at this
    exact hne (List.eq_of_mem_replicate this)
  have p : Cells.Cell.pointer ⟨1, .plain k, none, bs ++ (Cells.zeros 8 ++ (Cells.zeros 48).drop 8).drop bs.length⟩ = .wild := by
    simp only [Cells.Cell.pointer, if_neg e]
  have hs : Cells.setPlain (Cells.new State.init) 0 k bs = .ok ((Cells.new State.init).put 0 (some
      ⟨1, .plain k, none, bs ++ (Cells.zeros 8 ++ (Cells.zeros 48).drop 8).drop bs.length⟩)) := rfl
  have hg : ((Cells.new State.init).put 0 (some
      ⟨1, .plain k, none, bs ++ (Cells.zeros 8 ++ (Cells.zeros 48).drop 8).drop bs.length⟩)).get 0 =
      .ok ⟨1, .plain k, none, bs ++ (Cells.zeros 8 ++ (Cells.zeros 48).drop 8).drop bs.length⟩ := rfl
  simp only [Cells.run, Cells.step, Cells.silent, Cells.told, hs, Cells.getStringAny, hg, Cells.textOf, p, Cells.dataOf, Res.ok_bind,
    Res.pure_eq, Res.ub_bind]

/-- C92 fails: the length or the bytes of a NULL string cannot be asked for. -/
theorem C92_null_fails (b : Bool) : Cells.run State.init [.new, .setNull 0 b, .getTLV 0] = .ub := by
  cases b <;> rfl

/-- C92 fails: a string cannot be set from (the start of) itself. -/
theorem C92_self_fails {ops : List Op} {A : Sheet} {outs : List Out} {s : State} {v n : Nat} {t : Bytes}
    (h : Spec.Cells.run Sheet.init ops = some (A, outs)) (hs : Cells.run State.init ops = .ok (s, outs))
    (hv : A.val v = some (.text (some t), n)) : Cells.step s (.setString v (.of v)) = .ub := by
  obtain ⟨s1, h1, i⟩ := Cells.run_rel Cells.init_rel h
  rw [hs] at h1
  cases h1
  have hb := Cells.bytesOf_rel i hv rfl
  obtain ⟨c, _, _, _, _, _, h0, _⟩ := i.alive v _ n hv
  simp [Cells.step, Cells.silent, Cells.setString, Src.bytes, hb, Cells.cstring, Src.overlaps]

/-! ## A program -/

private def cellOps : List Op :=
  [.new, .new, .newPart, .setString 0 (.own [104, 105, 0]), .copy 1 0, .setString 0 (.own (List.replicate 100 97 ++ [0])),
    .getString 1, .getPlain 1 .int32, .setPlain 1 .uint16 [7, 0], .getPlain 1 .uint16, .setTLV 1 .bytes 2 (.of 0), .getBytes 1,
    .setPlain 0 .boolean [1], .setPart 0 .object (some 0), .getPart 0 .object, .retain 0, .release 0, .release 0, .release 1,
    .releasePart 0]

private def cellEnd : Option (List Out × Nat × Bool) :=
  (Spec.Cells.run Sheet.init cellOps).map fun p => (p.2, p.1.held 0, (p.1.val 0).isNone && (p.1.val 1).isNone)

/-- Two values and an object. -/
example : cellEnd = some ([.done, .done, .done, .done, .done, .done, .text (some [104, 105]), .wrongType, .done, .plain [7, 0],
    .done, .text (some [97, 97]), .done, .done, .part (some 0), .done, .done, .done, .done, .done], 0, true) := by decide +kernel

/-- A pointer to the string of value 1 while value 0 changes. -/
example : ∃ A outs A' outs', Spec.Cells.run Sheet.init (cellOps.take 5) = some (A, outs) ∧
    Spec.Cells.run A [.setString 0 (.own (List.replicate 100 97 ++ [0])), .release 0] = some (A', outs') ∧
    A.val 1 = some (.text (some [104, 105]), 1) ∧ (A'.val 1).isSome ∧ (A'.val 0).isNone ∧
    ∀ op ∈ [Op.setString 0 (.own (List.replicate 100 97 ++ [0])), .release 0], target op ≠ some 1 :=
  ⟨_, _, _, _, rfl, rfl, rfl, rfl, rfl, by simp [target]⟩

end Verif.Props
