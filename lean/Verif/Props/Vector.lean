import Verif.Proof.Vector

/-!
# C26: a vector behaves as a list
-/

namespace Verif.Props

open Verif Verif.Vector

/-- C26. Every history of operations on a new vector stays inside the allocation and gives the
answers that a plain list gives. -/
theorem C26_vector_is_list {α : Type} (ops : List (Op α)) :
    ∃ v, Verif.Vector.run Verif.Vector.create ops = .ok (v, (specRun [] ops).2) := by
  obtain ⟨v, h, _⟩ := run_holds ops (v := Verif.Vector.create) (l := []) ⟨rfl, .inl ⟨rfl, rfl⟩⟩
  exact ⟨v, h⟩

/-- C26 (contents). After the history, the vector holds the list's items in the first slots. -/
theorem C26_vector_contents {α : Type} (ops : List (Op α)) (v : Vec α) (outs : List (Out α))
    (h : Verif.Vector.run Verif.Vector.create ops = .ok (v, outs)) :
    v.count = (specRun [] ops).1.length ∧
    v.slots.take v.count = (specRun [] ops).1.map some ∧
    (v.count < v.slots.length ∨ v.count = 0) := by
  obtain ⟨v', h', hc, hs⟩ := run_holds ops (v := Verif.Vector.create (α := α)) (l := [])
    ⟨rfl, .inl ⟨rfl, rfl⟩⟩
  rw [h] at h'
  simp only [Res.ok.injEq, Prod.mk.injEq] at h'
  obtain ⟨rfl, _⟩ := h'
  refine ⟨hc, ?_, ?_⟩
  · obtain ⟨h1, h2⟩ | ⟨m, h1⟩ := hs
    · simp [h1, h2]
    · rw [h1, hc, List.take_append_of_le_length (by simp), List.take_of_length_le (by simp)]
  · obtain ⟨h1, h2⟩ | ⟨m, h1⟩ := hs
    · right; rw [hc, h2]; rfl
    · left; rw [h1, hc]; simp

/-- Twenty pushes (crossing a reallocation), a removal and two lookups. -/
example : ((specRun ([] : List Nat) ((List.range 20).map Op.push ++
    [.removeBy (· == 3), .at' 3, .size, .find (· == 3)])).2.drop 20).map (fun o => match o with
      | .flag b => if b then 1 else 0 | .item (some x) => x | .num n => n | .item none => 99 | .unit => 0)
    = [1, 4, 19, 99] := by decide

end Verif.Props
