import Verif.Spec.Discover
import Verif.Proof.Exec
/-!
# Discovery: proofs
-/

namespace Verif.Proof.Discover

open Verif.Discover Verif.Spec.Discover

theorem copy_all {mem : Nat → Bool} (hm : ∀ i, mem i = true) {names : List Bytes} (hs : ∀ n ∈ names, n.length ≤ 256) :
    ∀ (k i : Nat), i + k = names.length → copy mem (names.map some) i k = .ok (some (names.drop i)) := by
  intro k
  induction k with
  | zero =>
    intro i hi
    unfold copy
    rw [List.drop_of_length_le (by omega)]
  | succ k ih =>
    intro i hi
    have hlt : i < names.length := by omega
    unfold copy
    simp only [List.getElem?_map, List.getElem?_eq_getElem hlt, Option.map_some, hm, if_true]
    rw [ih (i + 1) (by omega)]
    simp only [Res.ok_bind, Option.map_some, Res.pure_eq]
    have hd : names.drop i = names[i] :: names.drop (i + 1) := List.drop_eq_getElem_cons hlt
    have ht : strndup names[i] = names[i] := List.take_of_length_le (hs _ (List.getElem_mem hlt))
    rw [hd, ht]

theorem toInt_ofNat {n : Nat} (h : n < 2 ^ 31) : (BitVec.ofNat 32 n).toInt = n := by
  have hn : (BitVec.ofNat 32 n).toNat = n := by rw [BitVec.toNat_ofNat]; omega
  rw [BitVec.toInt_eq_toNat_of_lt (by omega), hn]

theorem fill_all {mem : Nat → Bool} (hm : ∀ i, mem i = true) {names : List Bytes} (hs : ∀ n ∈ names, n.length ≤ 256)
    (undo : Undo) (before : Slot) :
    fill mem (names.map some) names.length names.length names.length undo before =
      .ok ⟨.success, some names.length, .array (names.map .text)⟩ := by
  unfold fill
  rw [if_pos ⟨by omega, hm 0⟩, if_neg (by omega), copy_all hm hs _ 0 (by omega)]
  simp

theorem copy_defined {mem : Nat → Bool} {items : List (Option Bytes)} (ht : ∀ i ∈ items, i ≠ none) :
    ∀ (k i : Nat), ∃ r, copy mem items i k = .ok r := by
  intro k
  induction k with
  | zero => intro i; exact ⟨_, rfl⟩
  | succ k ih =>
    intro i
    unfold copy
    cases hi : items[i]? with
    | none => exact ⟨_, rfl⟩
    | some x =>
      cases x with
      | none => exact absurd rfl (ht none (List.mem_of_getElem? hi))
      | some s =>
        simp only []
        split
        · obtain ⟨r, hr⟩ := ih (i + 1)
          rw [hr]
          exact ⟨_, rfl⟩
        · exact ⟨_, rfl⟩

theorem fill_defined {mem : Nat → Bool} {items : List (Option Bytes)} (ht : ∀ i ∈ items, i ≠ none) {size : Int} {z k : Nat}
    (hz : 0 ≤ size → (z : Int) ≤ size) (undo : Undo) (before : Slot) : ∃ o, fill mem items size z k undo before = .ok o := by
  unfold fill
  split
  · rename_i h
    rw [if_neg (by have := hz h.1; omega)]
    obtain ⟨r, hr⟩ := copy_defined (mem := mem) ht k 0
    rw [hr]
    cases r <;> exact ⟨_, rfl⟩
  · exact ⟨_, rfl⟩

theorem fill_error {mem : Nat → Bool} {items : List (Option Bytes)} {size : Int} {z k : Nat} {undo : Undo} {before : Slot} {o : Out}
    (h : fill mem items size z k undo before = .ok o) (hc : o.code ≠ .success) :
    o.slot = before ∨ o.slot = (if undo = .clear then .null else .dangling) := by
  unfold fill at h
  split at h
  · split at h
    · cases h
    · obtain ⟨r, _, h⟩ := res_bind_ok h
      cases r with
      | none => cases h; exact .inr rfl
      | some l => cases h; exact absurd rfl hc
  · cases h; exact .inl rfl

theorem fill_names {mem : Nat → Bool} {items : List (Option Bytes)} {size : Int} {z k : Nat} {undo : Undo} {before : Slot} {o : Out}
    (h : fill mem items size z k undo before = .ok o) (hc : o.code = .success) :
    ∃ names, copy mem items 0 k = .ok (some names) ∧ o.count = some size ∧
      o.slot = .array (names.map .text ++ List.replicate (z - k) .null ++ List.replicate (size.toNat - z) .garbage) := by
  unfold fill at h
  split at h
  · split at h
    · cases h
    · obtain ⟨r, hr, h⟩ := res_bind_ok h
      cases r with
      | none => cases h; cases hc
      | some l => cases h; exact ⟨l, hr, rfl, rfl⟩
  · cases h; cases hc

theorem traceEach_one {s : Router.State} {x : Option Bytes} {ns : List Nat} {l : List Bytes}
    (h : Router.traceEach s [x] = .ok (some (ns, l))) : ns = [l.length] := by
  have hex : ∀ (ps : List Nat) (es : List Bytes), Router.exprs s ps = .ok es → es.length = ps.length := by
    intro ps
    induction ps with
    | nil => intro es h; cases h; rfl
    | cons p ps ih =>
      intro es h
      unfold Router.exprs at h
      obtain ⟨e, _, h⟩ := res_bind_ok h
      obtain ⟨r, hr, h⟩ := res_bind_ok h
      cases h
      simp [ih r hr]
  cases x with
  | none => cases h
  | some x =>
    unfold Router.traceEach at h
    obtain ⟨l', _, h⟩ := res_bind_ok h
    obtain ⟨es, he, h⟩ := res_bind_ok h
    obtain ⟨r, hr, h⟩ := res_bind_ok h
    cases hr
    cases h
    simp [hex _ _ he]

end Verif.Proof.Discover
