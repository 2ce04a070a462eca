import Verif.Proof.LinkedList

/-!
# C27, C56: linked lists
-/

namespace Verif.Props

open Verif Verif.LinkedList

variable {D : Type}

/-- **C27.** Whatever insertions, removals and updates are made on a new list, provided the items
named are in the list at that time, the operations answer as those on a sequence of items do, without
following a link to nowhere or forever, and afterwards walking forward gives the sequence, walking
backward gives it in reverse, the size is its length, and searching gives the first item satisfying
the test. -/
theorem C27_list_is_sequence (ops : List (Op D)) (h : AllowedRun Spec.empty ops) :
    ∃ s, Verif.LinkedList.run create ops = .ok (s, (Verif.LinkedList.specRun Spec.empty ops).2) ∧
      walkNext s s.fresh s.front = .ok (Verif.LinkedList.specRun Spec.empty ops).1.live ∧
      walkPrev s s.fresh s.back = .ok (Verif.LinkedList.specRun Spec.empty ops).1.live.reverse ∧
      s.size = (Verif.LinkedList.specRun Spec.empty ops).1.live.length ∧
      ∀ p, find s p = .ok (((Verif.LinkedList.specRun Spec.empty ops).1.live.map (·.2)).find? p) := by
  obtain ⟨s, h1, h2⟩ := run_inv ops (create_inv (D := D)) h
  have hw := walks h2
  exact ⟨s, h1, hw.1, hw.2.1, hw.2.2.1, find_ok h2⟩

/-- **C27.** Items in the list are always distinct, so an item pointer the user keeps names one
place in the list until it is removed. -/
theorem C27_items_distinct (ops : List (Op D)) (h : AllowedRun Spec.empty ops) :
    ((Verif.LinkedList.specRun Spec.empty ops).1.live.map (·.1)).Nodup := by
  obtain ⟨s, _, h2⟩ := run_inv ops (create_inv (D := D)) h
  exact h2.sep.1

/-- Two items pushed back, one inserted between them, the first removed, one pushed to the front
using the removed item again. -/
example : AllowedRun (D := Nat) Spec.empty
    [.pushBack (.ptr (some 10)), .pushBack (.ptr (some 20)), .insertBefore (.ptr (some 15)) 1,
      .removeItem 0 false, .pushFront .reuse] ∧
    (Verif.LinkedList.specRun Spec.empty
      [.pushBack (.ptr (some 10)), .pushBack (.ptr (some 20)), .insertBefore (.ptr (some 15)) 1,
        .removeItem 0 false, .pushFront .reuse]).1.live
      = [(0, some 10), (2, some 15), (1, some 20)] := by
  constructor
  · refine ⟨trivial, trivial, ⟨some 20, by decide⟩, ⟨some 10, by decide⟩, trivial, trivial⟩
  · decide

/-- **C56, what is proved.** If no item was removed without a destroyer, destroying the list passes to
the destroyer the data of the items in it, each once, in order, and nothing else. Missing: lists from
which an item was removed without a destroyer, see `C56_destroyed_once_fails`. -/
theorem C56_destroyed_once_partial (ops : List (Op D)) (h : AllowedRun Spec.empty ops)
    (hd : ∀ op ∈ ops, destroys op = true) :
    ∃ s os, Verif.LinkedList.run create ops = .ok (s, os) ∧
      destroyCalls s = .ok ((Verif.LinkedList.specRun Spec.empty ops).1.live.map (·.2)) := by
  obtain ⟨s, h1, h2⟩ := run_inv ops (create_inv (D := D)) h
  have hw := walks h2
  have hc := clean_run ops Spec.empty (by simp [Spec.empty]) hd
  refine ⟨s, _, h1, ?_⟩
  simp only [destroyCalls, hw.1, hw.2.2.2, Res.ok_bind, Res.pure_eq]
  have : ((Verif.LinkedList.specRun Spec.empty ops).1.free.map (·.2)).filter (·.isSome) = [] := by
    rw [List.filter_eq_nil_iff]
    intro x hx
    obtain ⟨y, hy, rfl⟩ := List.mem_map.mp hx
    rw [hc y hy]
    simp
  rw [this, List.append_nil]

example : AllowedRun (D := Nat) Spec.empty
      [.pushBack (.ptr (some 10)), .pushBack (.ptr (some 20)), .removeItem 0 true] ∧
    (∀ op ∈ [Op.pushBack (.ptr (some 10)), .pushBack (.ptr (some 20)), .removeItem 0 true],
      destroys op = true) := by
  refine ⟨⟨trivial, trivial, ⟨some 10, by decide⟩, trivial⟩, ?_⟩
  intro op hop
  simp only [List.mem_cons, List.not_mem_nil, or_false] at hop
  rcases hop with rfl | rfl | rfl <;> rfl

/-- **C56 fails.** Data whose item was removed without a destroyer, so that it belongs to the user
again, is passed to the destroyer when the list is destroyed, unless the item was used again. -/
theorem C56_destroyed_once_fails (d : D) (ds : List D) :
    ∃ s os, Verif.LinkedList.run create
        ((Op.pushBack (.ptr (some d)) :: ds.map (fun x => Op.pushBack (.ptr (some x)))) ++ [.removeItem 0 false])
        = .ok (s, os) ∧
      destroyCalls s = .ok (ds.map some ++ [some d]) := by
  have hpush : ∀ (l : List D) (t : Spec D), t.free = [] →
      ∀ ops, (Verif.LinkedList.specRun t (l.map (fun x => Op.pushBack (.ptr (some x))) ++ ops)).1
        = (Verif.LinkedList.specRun { live := t.live ++ (l.mapIdx (fun i x => (t.made + i, some x))), free := [], made := t.made + l.length } ops).1 ∧
      (AllowedRun { live := t.live ++ (l.mapIdx (fun i x => (t.made + i, some x))), free := [], made := t.made + l.length } ops →
        AllowedRun t (l.map (fun x => Op.pushBack (.ptr (some x))) ++ ops)) := by
    intro l
    induction l with
    | nil => intro t ht ops; obtain ⟨a, b, c⟩ := t; simp only at ht; subst ht; simp
    | cons x l ih =>
      intro t ht ops
      have hs : (specStep t (.pushBack (.ptr (some x)))).1 =
          { live := t.live ++ [(t.made, some x)], free := [], made := t.made + 1 } := by
        simp [specStep, Spec.take, ht, argData]
      have := ih { live := t.live ++ [(t.made, some x)], free := [], made := t.made + 1 } rfl ops
      simp only [List.map_cons, List.cons_append, Verif.LinkedList.specRun, AllowedRun, hs]
      simp only [List.append_assoc, List.singleton_append] at this
      simp only [List.mapIdx_cons, List.length_cons, Nat.add_zero,
        Nat.add_assoc, Nat.add_comm 1] at this ⊢
      exact ⟨this.1, fun ha => ⟨trivial, this.2 ha⟩⟩
  have key := hpush (d :: ds) Spec.empty rfl [.removeItem 0 false]
  simp only [Spec.empty, List.nil_append, List.mapIdx_cons, Nat.zero_add, List.map_cons] at key
  have ha := key.2 ⟨⟨some d, by simp⟩, trivial⟩
  obtain ⟨s, h1, h2⟩ := run_inv _ (create_inv (D := D)) ha
  refine ⟨s, _, h1, ?_⟩
  have hw := walks h2
  simp only [destroyCalls, hw.1, hw.2.2.2, Res.ok_bind, Res.pure_eq]
  simp only [Spec.empty] at *
  rw [key.1]
  simp [Verif.LinkedList.specRun, specStep, Spec.remove, dropped, Function.comp_def, List.mapIdx_eq_zipIdx_map]
  rw [show (fun x : D × Nat => some x.1) = some ∘ Prod.fst from rfl, ← List.map_map, List.zipIdx_map_fst]

end Verif.Props
