import Verif.Proof.HashMap

/-!
# C25: a hash map behaves as a finite map
-/

namespace Verif.Props

open Verif Verif.HashMap

/-- C25. For every hash function that stays within the table and every load factor, every history of
operations on a new map gives the answers that the list of live bindings gives, across all growing
and shrinking of the table. -/
theorem C25_map_is_finite_map {K V : Type} [DecidableEq K] (c : Conf K) (hc : GoodHash c)
    (ops : List (Op K V)) :
    ∃ m, Verif.HashMap.run c Verif.HashMap.create ops = .ok (m, (Verif.HashMap.specRun [] ops).2) := by
  obtain ⟨m, h, _⟩ := run_holds hc ops (create_holds c)
  exact ⟨m, h⟩

/-- C25. The default hash function, on a machine where `int` wraps around, stays within the table,
so maps created with `rtHashMap_Create` are finite maps. -/
theorem C25_default_map {V : Type} (ops : List (Op Bytes V)) :
    ∃ m, Verif.HashMap.run defaultConf Verif.HashMap.create ops
      = .ok (m, (Verif.HashMap.specRun [] ops).2) :=
  C25_map_is_finite_map defaultConf (fun _ _ h => Nat.mod_lt _ h) ops

/-- Set, overwrite, remove and look up. -/
example : (Verif.HashMap.specRun ([] : List (Bytes × Nat))
    [.set [65] 1, .set [66] 2, .set [65] 3, .get [65], .remove [66], .get [66], .size]).2
    = [.unit, .unit, .unit, .val (some 3), .flag true, .val none, .num 1] := by decide

/-- C25 fails for the default hash function as C defines it: the hash of any key that starts with
seven printable characters overflows `int`. -/
theorem C25_string_hash_fails (a b c d e f g : UInt8) (rest : Bytes) (n : Nat)
    (h : ∀ x ∈ [a, b, c, d, e, f, g], 32 ≤ x.toNat ∧ x.toNat < 128) :
    hashString (a :: b :: c :: d :: e :: f :: g :: rest) n = .ub := by
  have ext : ∀ x : UInt8, x.toNat < 128 → (BitVec.ofNat 8 x.toNat).toInt = x.toNat := by
    intro x hx
    rw [BitVec.toInt_eq_toNat_of_lt (by simp; omega)]
    simp
  simp only [List.mem_cons, List.not_mem_nil, or_false, forall_eq_or_imp, forall_eq] at h
  obtain ⟨ha, hb, hc, hd, he, hf, hg⟩ := h
  unfold hashString
  have : hashLoop 0 (a :: b :: c :: d :: e :: f :: g :: rest) = .ub := by
    simp only [hashLoop, ext a ha.2, ext b hb.2, ext c hc.2, ext d hd.2, ext e he.2, ext f hf.2, ext g hg.2]
    split
    · split
      · split
        · split
          · split
            · split
              · rw [if_neg]
                omega
              · rfl
            · rfl
          · rfl
        · rfl
      · rfl
    · rfl
  rw [this]
  rfl

/-- "Device.X". -/
example : hashString [68, 101, 118, 105, 99, 101, 46, 88] 16 = .ub :=
  C25_string_hash_fails 68 101 118 105 99 101 46 [88] 16 (by decide)

end Verif.Props
