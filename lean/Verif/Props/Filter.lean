import Verif.Proof.Filter
import Verif.Props.Compare

/-!
# C05, C07 and filter comparison (used by C28)
-/

namespace Verif.Props

open Verif Verif.Buffer Verif.Value Verif.Filter

/-! ## C07 -/

/-- C07. For every expression built of relations, AND, OR and NOT, and every value whose
comparison with each bound is defined, applying the filter gives the logical meaning of the
expression. -/
theorem C07_filter_meaning (sc : Bool) (cmp : Scalar → Ordering) (v : Scalar) (e : Expr)
    (h : ∀ w ∈ e.bounds, Value.compare sc v w = .ok (cmp w)) :
    ∃ r : Bool, Filter.apply sc e.build v = .ok r ∧ (r = true ↔ e.Holds cmp) := by
  have rel : ∀ (w : Scalar) (op : Nat), Value.compare sc v w = .ok (cmp w) →
      Filter.apply sc (.relation op w) v = .ok (relHolds op (cmp w)) := by
    intro w op hw
    simp [Filter.apply, hw]
  induction e with
  | gt w | ge w | lt w | le w | eq w | ne w =>
    refine ⟨_, rel w _ (h w (by simp [Expr.bounds])), ?_⟩
    cases hc : cmp w <;> simp [relHolds, Expr.Holds, hc, opGT, opGE, opLT, opLE, opEQ, opNE]
  | and l r ihl ihr =>
    obtain ⟨x, hx, ex⟩ := ihl (fun w hw => h w (by simp [Expr.bounds, hw]))
    obtain ⟨y, hy, ey⟩ := ihr (fun w hw => h w (by simp [Expr.bounds, hw]))
    exact ⟨x && y, by simp [Filter.apply, Expr.build, hx, hy, opAND, opNOT], by simp [Expr.Holds, ex, ey]⟩
  | or l r ihl ihr =>
    obtain ⟨x, hx, ex⟩ := ihl (fun w hw => h w (by simp [Expr.bounds, hw]))
    obtain ⟨y, hy, ey⟩ := ihr (fun w hw => h w (by simp [Expr.bounds, hw]))
    exact ⟨x || y, by simp [Filter.apply, Expr.build, hx, hy, opOR, opAND, opNOT],
      by simp [Expr.Holds, ex, ey]⟩
  | not e ih =>
    obtain ⟨x, hx, ex⟩ := ih (fun w hw => h w (by simpa [Expr.bounds] using hw))
    exact ⟨!x, by simp [Filter.apply, Expr.build, hx, opOR, opAND, opNOT],
      by rw [Expr.Holds, ← ex]; simp⟩

/-- `5 > 3 and not (5 <= 4 or 5 = 9)`. -/
example : Filter.apply true (Expr.build (.and (.gt (.int32 3)) (.not (.or (.le (.int8 4)) (.eq (.uint64 9))))))
    (.int32 5) = .ok true := by decide +kernel

/-- C07 for integers, spelled out: with integer bounds and value below 2^53 (any integer types) the
six relations have their arithmetic meaning. -/
theorem C07_integer_relations (sc : Bool) (v w : Scalar) (n m : Int) (hv : intNum sc v = some n)
    (hw : intNum sc w = some m) (hn : n.natAbs < 2 ^ 53) (hm : m.natAbs < 2 ^ 53) :
    Filter.apply sc (Expr.gt w).build v = .ok (decide (n > m)) ∧
    Filter.apply sc (Expr.ge w).build v = .ok (decide (n ≥ m)) ∧
    Filter.apply sc (Expr.lt w).build v = .ok (decide (n < m)) ∧
    Filter.apply sc (Expr.le w).build v = .ok (decide (n ≤ m)) ∧
    Filter.apply sc (Expr.eq w).build v = .ok (decide (n = m)) ∧
    Filter.apply sc (Expr.ne w).build v = .ok (decide (n ≠ m)) := by
  have hc := C08_small_integers_exact sc v w n m hv hw hn hm
  simp only [Expr.build, Filter.apply, hc, Res.ok_bind, Res.pure_eq, Res.ok.injEq]
  have neg : ∀ {p : Prop} [Decidable p], ¬ p → false = decide p := fun h => (decide_eq_false h).symm
  have pos : ∀ {p : Prop} [Decidable p], p → true = decide p := fun h => (decide_eq_true h).symm
  by_cases h1 : n < m
  · rw [if_pos h1]
    exact ⟨neg (by omega), neg (by omega), pos (by omega), pos (by omega), neg (by omega),
      pos (by omega)⟩
  · rw [if_neg h1]
    by_cases h2 : n = m
    · rw [if_pos h2]
      exact ⟨neg (by omega), pos (by omega), neg (by omega), pos (by omega), pos (by omega),
        neg (by omega)⟩
    · rw [if_neg h2]
      exact ⟨pos (by omega), pos (by omega), neg (by omega), neg (by omega), neg (by omega),
        pos (by omega)⟩

example : intNum true (.int64 (-7)) = some (-7) ∧ (-7 : Int).natAbs < 2 ^ 53 := by decide

/-! ## C05 -/

/-- C05 (part that holds). Every filter built of relations and binary operators over encodable values
is returned unchanged by storing it in a new buffer and reading it back, unless the stored form
fills the allocation exactly and the last value is of a fixed-size type.
Missing: NOT, and the exact-fill case; the code fails on both. -/
theorem C05_filter_store_partial (f : Filter) (h : Storable f) :
    ∃ b, Filter.encode create f = .ok b ∧
      ((b.data.length = b.alloc → endsAnywhere (lastValue f) = true) →
        ∃ b', Filter.decode b = .ok (f, b')) := by
  obtain ⟨b, h1, h2, h3, h4⟩ := Filter.encode_ok h inv_create
  have hd : b.data = image f := by simpa [create] using h2
  refine ⟨b, h1, fun hfull => ⟨{ b with rd := (image f).length }, ?_⟩⟩
  have := decodeF_image h (fuel := b.alloc + 1) (b := b) (pre := []) (post := [])
    (by simpa using hd) (by simpa [create] using h4)
    (by have := h3.fits; rw [hd] at this; omega)
    (by
      by_cases hf : b.data.length = b.alloc
      · right
        refine ⟨hfull hf, ?_⟩
        rw [← hf, hd]; simp
      · left
        have := Nat.lt_of_le_of_ne h3.fits hf
        rw [hd] at this
        simpa using this)
  simpa [Filter.decode] using this

/-- C05 for use inside larger stored data (the subscription cache): the stored form occurring
anywhere in a buffer, with more data after it, is read back. -/
theorem C05_filter_store_in_context (f : Filter) (h : Storable f) (b : Buf) (pre post : Bytes)
    (hd : b.data = pre ++ (image f ++ post)) (hrd : b.rd = pre.length)
    (ha : b.data.length < b.alloc ∨ (post ≠ [] ∧ b.data.length = b.alloc)) :
    Filter.decode b = .ok (f, { b with rd := pre.length + (image f).length }) := by
  have hl : b.data.length = pre.length + (image f).length + post.length := by
    rw [hd]; simp; omega
  apply decodeF_image h hd hrd
  · rcases ha with h | h <;> omega
  · rcases ha with h | ⟨h, h'⟩
    · left; omega
    · left
      have := List.length_pos_iff.2 h
      omega

private def demo : Filter :=
  .logic opAND (.relation opGT (.int32 3)) (.logic opOR (.relation opEQ (.string (some [97])))
    (.relation opNE (.boolean true)))

example : Storable demo := by simp [demo, Storable, Encodable, opAND, opOR, opNOT, opGT, opEQ, opNE]

/-- C05 fails for NOT: a NOT filter is stored without error, but reading it back runs into bytes
that were never written. -/
theorem C05_not_fails :
    ∃ f b, f = (Expr.not (.gt (.int32 3))).build ∧ Filter.encode create f = .ok b ∧
      Filter.decode b = .ub := by
  refine ⟨_, _, rfl, rfl, by decide⟩

/-- C05 fails on exact fill: the AND of two 32-bit integer relations takes exactly 64 bytes. -/
theorem C05_exact_fill_fails :
    ∃ f b, Storable f ∧ Filter.encode create f = .ok b ∧ Filter.decode b = .fail := by
  refine ⟨.logic opAND (.relation opGT (.int32 3)) (.relation opLT (.int32 9)), _, ?_, rfl, by decide⟩
  simp [Storable, Encodable, opAND, opNOT, opGT, opLT]

/-! ## Comparing filters -/

/-- Comparing two filters gives "equal" exactly when they have the same shape and operators and
their values compare equal; comparison of the values is what decides subscription identity. -/
theorem C53_filter_compare_equal_iff (sc : Bool) (f g : Filter) :
    Filter.cmp sc f g = .ok .eq ↔ Same sc f g := by
  induction f generalizing g with
  | null =>
    cases g
    · exact ⟨fun _ => .null, fun _ => rfl⟩
    all_goals exact ⟨fun h => by simp [Filter.cmp] at h, fun h => by cases h⟩
  | relation op v =>
    cases g with
    | null => exact ⟨fun h => by simp [Filter.cmp] at h, fun h => by cases h⟩
    | logic _ _ _ => exact ⟨fun h => by simp [Filter.cmp] at h, fun h => by cases h⟩
    | relation op' w =>
      constructor
      · intro h
        simp only [Filter.cmp] at h
        split at h
        · rename_i e; subst e; exact .relation h
        · split at h <;> simp at h
      · intro h
        cases h with
        | relation h => simpa [Filter.cmp] using h
  | logic op l r ihl ihr =>
    cases g with
    | null => exact ⟨fun h => by simp [Filter.cmp] at h, fun h => by cases h⟩
    | relation _ _ => exact ⟨fun h => by simp [Filter.cmp] at h, fun h => by cases h⟩
    | logic op' l' r' =>
      constructor
      · intro h
        simp only [Filter.cmp] at h
        split at h
        · rename_i e
          subst e
          cases hc : Filter.cmp sc l l' with
          | fail => rw [hc] at h; simp at h
          | ub => rw [hc] at h; simp at h
          | ok c =>
            rw [hc] at h
            simp only [Res.ok_bind] at h
            by_cases hce : c = .eq
            · subst hce
              rw [if_neg (by simp)] at h
              exact .logic ((ihl l').1 hc) ((ihr r').1 h)
            · rw [if_pos hce] at h
              simp only [Res.pure_eq, Res.ok.injEq] at h
              exact absurd h hce
        · split at h <;> simp at h
      · intro h
        cases h with
        | logic h1 h2 => simp [Filter.cmp, (ihl l').2 h1, (ihr r').2 h2]

example : Same true (Expr.not (.gt (.int32 3))).build (Expr.not (.gt (.uint8 3))).build :=
  .logic (.relation (by decide +kernel)) .null

end Verif.Props
