import Verif.Model.Message

namespace Verif.Message

open Verif

theorem grab_append (x r : Bytes) {k : Nat} (h : x.length = k) : grab (x ++ r) k = some (x, r) := by
  subst h
  simp [grab]

theorem grabU_append (n k : Nat) (r : Bytes) (h : n < 256 ^ k) :
    grabU (beBytes k n ++ r) k = some (n, r) := by
  simp [grabU, grab_append _ r (beBytes_length k n), beNat_beBytes, Nat.mod_eq_of_lt h]

theorem grabS_append (d : Int) (k : Nat) (r : Bytes) (h1 : d < 0)
    (h2 : -(256 ^ k / 2 : Nat) ≤ d) (hk : 256 ^ k / 2 * 2 = 256 ^ k) :
    grabS (beBytes k (d + (256 ^ k : Nat)).toNat ++ r) k = some (d, r) := by
  have h3 : (d + (256 ^ k : Nat)).toNat < 256 ^ k := by omega
  simp only [grabS, grabU_append _ k r h3, Option.map_some]
  rw [if_neg (by omega)]
  congr 2
  omega

theorem beBytes_one (n : Nat) : beBytes 1 n = [UInt8.ofNat n] := by
  simp [beBytes, leBytes]

/-- Unpacking a packed integer. -/
theorem unpack_packInt (d : Int) (h1 : -2 ^ 63 ≤ d) (h2 : d < 2 ^ 64) (r : Bytes) :
    unpackNext (packInt d ++ r) = some (.int d, r) := by
  unfold packInt
  split
  · split
    · split
      · have := grabS_append d 8 r (by omega) (by omega) (by decide)
        simp only [show (256 ^ 8 : Nat) = 2 ^ 64 by decide] at this
        simp only [List.cons_append, unpackNext]
        simp [show ((2 ^ 64 : Nat) : Int) = 18446744073709551616 by decide] at this
        simp [this]
      · have := grabS_append d 4 r (by omega) (by omega) (by decide)
        simp only [show (256 ^ 4 : Nat) = 2 ^ 32 by decide] at this
        simp only [List.cons_append, unpackNext]
        simp at this
        simp [this]
    · split
      · have := grabS_append d 2 r (by omega) (by omega) (by decide)
        simp only [List.cons_append, unpackNext]
        simp at this
        simp [this]
      · have := grabS_append d 1 r (by omega) (by omega) (by decide)
        simp only [List.cons_append, unpackNext]
        simp at this
        simp [this]
  · split
    · rw [beBytes_one]
      simp only [List.cons_append, List.nil_append, unpackNext]
      have : (UInt8.ofNat (d + 2 ^ 8).toNat).toNat = (d + 256).toNat := by
        simp; omega
      rw [this, if_neg (by omega), if_pos (by omega)]
      congr 3
      omega
    · split
      · rw [beBytes_one]
        simp only [List.cons_append, List.nil_append, unpackNext]
        have : (UInt8.ofNat d.toNat).toNat = d.toNat := by
          simp; omega
        rw [this, if_pos (by omega)]
        congr 3
        omega
      · have hd : ((d.toNat : Nat) : Int) = d := by omega
        split
        · split
          · have := grabU_append d.toNat 1 r (by omega)
            simp only [List.cons_append, unpackNext]
            simp [this, hd]
          · have := grabU_append d.toNat 2 r (by omega)
            simp only [List.cons_append, unpackNext]
            simp [this, hd]
        · split
          · have := grabU_append d.toNat 4 r (by omega)
            simp only [List.cons_append, unpackNext]
            simp [this, hd]
          · have := grabU_append d.toNat 8 r (by omega)
            simp only [List.cons_append, unpackNext]
            simp [this, hd]

theorem unpack_packStr (s : Bytes) (h : s.length < 2 ^ 32) (r : Bytes) :
    unpackNext (packStr s ++ r) = some (.str s, r) := by
  unfold packStr
  split
  · rw [beBytes_one]
    simp only [List.cons_append, List.nil_append, unpackNext]
    have : (UInt8.ofNat (0xa0 + s.length)).toNat = 0xa0 + s.length := by
      simp; omega
    rw [this, if_neg (by omega), if_neg (by omega), if_pos (by omega)]
    simp [grab]
  · split
    · have := grabU_append s.length 1 (s ++ r) (by omega)
      simp only [List.cons_append, List.append_assoc, unpackNext]
      simp [this, grab]
    · split
      · have := grabU_append s.length 2 (s ++ r) (by omega)
        simp only [List.cons_append, List.append_assoc, unpackNext]
        simp [this, grab]
      · have := grabU_append s.length 4 (s ++ r) (by omega)
        simp only [List.cons_append, List.append_assoc, unpackNext]
        simp [this, grab]

theorem unpack_packBin (s : Bytes) (h : s.length < 2 ^ 32) (r : Bytes) :
    unpackNext (packBin s ++ r) = some (.bin s, r) := by
  unfold packBin
  split
  · have := grabU_append s.length 1 (s ++ r) (by omega)
    simp only [List.cons_append, List.append_assoc, unpackNext]
    simp [this, grab]
  · split
    · have := grabU_append s.length 2 (s ++ r) (by omega)
      simp only [List.cons_append, List.append_assoc, unpackNext]
      simp [this, grab]
    · have := grabU_append s.length 4 (s ++ r) (by omega)
      simp only [List.cons_append, List.append_assoc, unpackNext]
      simp [this, grab]

theorem unpack_dbl (v : BitVec 64) (r : Bytes) :
    unpackNext (setDouble v ++ r) = some (.dbl v, r) := by
  have := grabU_append v.toNat 8 r (by have := v.isLt; omega)
  simp only [setDouble, pack, List.cons_append, unpackNext]
  simp [this]

theorem get_setInt32 (v : BitVec 32) (r : Bytes) : getInt32 (setInt32 v ++ r) = some (v, r) := by
  have h1 := BitVec.le_toInt v
  have h2 := BitVec.toInt_lt (x := v)
  simp only [setInt32, getInt32, unpack_packInt v.toInt (by omega) (by omega)]
  simp

theorem get_setInt64 (v : BitVec 64) (r : Bytes) : getInt64 (setInt64 v ++ r) = some (v, r) := by
  have h1 := BitVec.le_toInt v
  have h2 := BitVec.toInt_lt (x := v)
  simp only [setInt64, getInt64, unpack_packInt v.toInt (by omega) (by omega)]
  simp

theorem get_setDouble (v : BitVec 64) (r : Bytes) : getDouble (setDouble v ++ r) = some (v, r) := by
  simp [getDouble, unpack_dbl]

theorem get_setBytes (s : Bytes) (h : s.length < 2 ^ 32) (r : Bytes) :
    getBytes (setBytes s ++ r) = some (s, r) := by
  simp [getBytes, setBytes, unpack_packBin s h]

theorem takeWhile_append_nul {s : Bytes} (h : (0 : UInt8) ∉ s) (t : Bytes) :
    (s ++ 0 :: t).takeWhile (· ≠ 0) = s := by
  induction s with
  | nil => simp
  | cons c s ih =>
    simp only [List.mem_cons, not_or] at h
    rw [List.cons_append, List.takeWhile_cons]
    have : decide (c ≠ 0) = true := by simpa using fun hc => h.1 hc.symm
    rw [this]
    simp only [if_true]
    rw [ih h.2]

theorem get_setString (s : Bytes) (h0 : (0 : UInt8) ∉ s) (h : s.length + 1 < 2 ^ 32) (r : Bytes) :
    getString (setString s ++ r) = .ok (s, r) := by
  have : (s ++ [0]).contains 0 = true := by simp
  simp only [getString, setString, unpack_packStr (s ++ [0]) (by simpa using h), this, if_true]
  rw [takeWhile_append_nul h0]

theorem setInt32_pos (v : BitVec 32) : 0 < (setInt32 v).length := by
  simp only [setInt32, packInt]
  repeat' split
  all_goals simp

theorem setString_pos (s : Bytes) : 0 < (setString s).length := by
  simp only [setString, packStr, List.length_append, List.length_cons]
  omega

theorem grab_split {bs x r : Bytes} {k : Nat} (h : grab bs k = some (x, r)) : bs = x ++ r := by
  unfold grab at h
  split at h
  · simp only [Option.some.injEq, Prod.mk.injEq] at h
    rw [← h.1, ← h.2, List.take_append_drop]
  · simp at h

theorem grabU_split {bs r : Bytes} {k n : Nat} (h : grabU bs k = some (n, r)) :
    ∃ x, bs = x ++ r := by
  unfold grabU at h
  cases hg : grab bs k with
  | none => simp [hg] at h
  | some q =>
    obtain ⟨x, r'⟩ := q
    simp only [hg, Option.map_some, Option.some.injEq, Prod.mk.injEq] at h
    exact ⟨x, by rw [← h.2]; exact grab_split hg⟩

theorem grabS_split {bs r : Bytes} {k : Nat} {n : Int} (h : grabS bs k = some (n, r)) :
    ∃ x, bs = x ++ r := by
  unfold grabS at h
  cases hg : grabU bs k with
  | none => simp [hg] at h
  | some q =>
    obtain ⟨x, r'⟩ := q
    simp only [hg, Option.map_some, Option.some.injEq, Prod.mk.injEq] at h
    obtain ⟨y, hy⟩ := grabU_split hg
    exact ⟨y, by rw [← h.2]; exact hy⟩

/-- The bytes an item points to. -/
def Item.bytes : Item → Bytes
  | .str s => s
  | .bin s => s
  | _ => []

/-- Whatever the input, an unpacked item lies inside it, and at least one byte is consumed. -/
theorem unpack_inside {bs r : Bytes} {i : Item} (h : unpackNext bs = some (i, r)) :
    ∃ pre, pre ≠ [] ∧ bs = pre ++ (i.bytes ++ r) := by
  cases bs with
  | nil => simp [unpackNext] at h
  | cons t bs =>
    have one : ∀ {x : Bytes}, bs = x ++ r → i.bytes = [] →
        ∃ pre, pre ≠ [] ∧ t :: bs = pre ++ (i.bytes ++ r) := by
      intro x hx hi
      exact ⟨t :: x, by simp, by rw [hi, hx]; simp⟩
    have two : ∀ {k : Nat}, ∀ f : Bytes → Item, (∀ s, (f s).bytes = s) →
        (do let (n, r) ← grabU bs k; let (s, r) ← grab r n; pure (f s, r)) = some (i, r) →
        ∃ pre, pre ≠ [] ∧ t :: bs = pre ++ (i.bytes ++ r) := by
      intro k f hf hh
      cases hg : grabU bs k with
      | none => simp [hg] at hh
      | some q =>
        obtain ⟨n, r1⟩ := q
        simp only [hg, Option.bind_eq_bind, Option.bind_some] at hh
        cases hg2 : grab r1 n with
        | none => simp [hg2] at hh
        | some q2 =>
          obtain ⟨s, r2⟩ := q2
          simp only [hg2, Option.bind_some, Option.pure_def, Option.some.injEq, Prod.mk.injEq] at hh
          obtain ⟨x, hx⟩ := grabU_split hg
          have hs := grab_split hg2
          refine ⟨t :: x, by simp, ?_⟩
          rw [← hh.1, hf, ← hh.2, hx, hs]
          simp
    have mapU : ∀ {k : Nat}, ∀ f : Nat → Item, (∀ n, (f n).bytes = []) →
        ((grabU bs k).map fun (v, r) => (f v, r)) = some (i, r) →
        ∃ pre, pre ≠ [] ∧ t :: bs = pre ++ (i.bytes ++ r) := by
      intro k f hf hh
      cases hg : grabU bs k with
      | none => simp [hg] at hh
      | some q =>
        obtain ⟨n, r1⟩ := q
        simp only [hg, Option.map_some, Option.some.injEq, Prod.mk.injEq] at hh
        obtain ⟨x, hx⟩ := grabU_split hg
        exact one (hh.2 ▸ hx) (by rw [← hh.1]; exact hf n)
    have mapS : ∀ {k : Nat}, ∀ f : Int → Item, (∀ n, (f n).bytes = []) →
        ((grabS bs k).map fun (v, r) => (f v, r)) = some (i, r) →
        ∃ pre, pre ≠ [] ∧ t :: bs = pre ++ (i.bytes ++ r) := by
      intro k f hf hh
      cases hg : grabS bs k with
      | none => simp [hg] at hh
      | some q =>
        obtain ⟨n, r1⟩ := q
        simp only [hg, Option.map_some, Option.some.injEq, Prod.mk.injEq] at hh
        obtain ⟨x, hx⟩ := grabS_split hg
        exact one (hh.2 ▸ hx) (by rw [← hh.1]; exact hf n)
    unfold unpackNext at h
    dsimp only at h
    generalize t.toNat = n at h
    by_cases c : n < 0x80
    · rw [if_pos c] at h
      simp only [Option.some.injEq, Prod.mk.injEq] at h
      exact one (x := []) (by simpa using h.2) (by rw [← h.1]; rfl)
    rw [if_neg c] at h; clear c
    by_cases c : 0xe0 ≤ n
    · rw [if_pos c] at h
      simp only [Option.some.injEq, Prod.mk.injEq] at h
      exact one (x := []) (by simpa using h.2) (by rw [← h.1]; rfl)
    rw [if_neg c] at h; clear c
    by_cases c : 0xa0 ≤ n ∧ n < 0xc0
    · rw [if_pos c] at h
      cases hg : grab bs (n - 0xa0) with
      | none => simp [hg] at h
      | some q =>
        obtain ⟨s, r1⟩ := q
        simp only [hg, Option.map_some, Option.some.injEq, Prod.mk.injEq] at h
        have hs := grab_split hg
        refine ⟨[t], by simp, ?_⟩
        rw [← h.1, ← h.2, hs]
        rfl
    rw [if_neg c] at h; clear c
    by_cases c : n = 0xc4
    · rw [if_pos c] at h
      exact two .bin (fun _ => rfl) h
    rw [if_neg c] at h; clear c
    by_cases c : n = 0xc5
    · rw [if_pos c] at h
      exact two .bin (fun _ => rfl) h
    rw [if_neg c] at h; clear c
    by_cases c : n = 0xc6
    · rw [if_pos c] at h
      exact two .bin (fun _ => rfl) h
    rw [if_neg c] at h; clear c
    by_cases c : n = 0xcb
    · rw [if_pos c] at h
      exact mapU (fun v => .dbl (BitVec.ofNat 64 v)) (fun _ => rfl) h
    rw [if_neg c] at h; clear c
    by_cases c : n = 0xcc
    · rw [if_pos c] at h
      exact mapU (fun v => .int v) (fun _ => rfl) h
    rw [if_neg c] at h; clear c
    by_cases c : n = 0xcd
    · rw [if_pos c] at h
      exact mapU (fun v => .int v) (fun _ => rfl) h
    rw [if_neg c] at h; clear c
    by_cases c : n = 0xce
    · rw [if_pos c] at h
      exact mapU (fun v => .int v) (fun _ => rfl) h
    rw [if_neg c] at h; clear c
    by_cases c : n = 0xcf
    · rw [if_pos c] at h
      exact mapU (fun v => .int v) (fun _ => rfl) h
    rw [if_neg c] at h; clear c
    by_cases c : n = 0xd0
    · rw [if_pos c] at h
      exact mapS (fun v => .int v) (fun _ => rfl) h
    rw [if_neg c] at h; clear c
    by_cases c : n = 0xd1
    · rw [if_pos c] at h
      exact mapS (fun v => .int v) (fun _ => rfl) h
    rw [if_neg c] at h; clear c
    by_cases c : n = 0xd2
    · rw [if_pos c] at h
      exact mapS (fun v => .int v) (fun _ => rfl) h
    rw [if_neg c] at h; clear c
    by_cases c : n = 0xd3
    · rw [if_pos c] at h
      exact mapS (fun v => .int v) (fun _ => rfl) h
    rw [if_neg c] at h; clear c
    by_cases c : n = 0xd9
    · rw [if_pos c] at h
      exact two .str (fun _ => rfl) h
    rw [if_neg c] at h; clear c
    by_cases c : n = 0xda
    · rw [if_pos c] at h
      exact two .str (fun _ => rfl) h
    rw [if_neg c] at h; clear c
    by_cases c : n = 0xdb
    · rw [if_pos c] at h
      exact two .str (fun _ => rfl) h
    rw [if_neg c] at h; clear c
    simp at h

end Verif.Message
