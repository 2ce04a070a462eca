import Verif.Proof.Message

namespace Verif.Message

open Verif

theorem beBytes_four (n : Nat) : beBytes 4 n =
    [UInt8.ofNat (n / 256 / 256 / 256), UInt8.ofNat (n / 256 / 256), UInt8.ofNat (n / 256),
      UInt8.ofNat n] := by
  simp [beBytes, leBytes]

theorem modify_at (pre post : Bytes) (b : UInt8) (f : UInt8 → UInt8) :
    (pre ++ b :: post).modify pre.length f = pre ++ f b :: post := by
  induction pre with
  | nil => simp [List.modify]
  | cons c pre ih => simpa [List.modify] using ih

theorem mask_top {L : Nat} (h : L < 2 ^ 31) :
    UInt8.ofNat ((L + 2 ^ 31) / 256 / 256 / 256) &&& 0x7F = UInt8.ofNat (L / 256 / 256 / 256) := by
  apply UInt8.toNat_inj.mp
  rw [UInt8.toNat_and]
  simp only [UInt8.toNat_ofNat']
  rw [show UInt8.toNat 127 = 2 ^ 7 - 1 by rfl, Nat.and_two_pow_sub_one_eq_mod]
  omega

theorem off_toInt {L : Nat} (h : L < 2 ^ 31) :
    (BitVec.ofNat 32 L ||| 0x80000000#32).toInt = (L : Int) - 2 ^ 31 := by
  have h1 : (BitVec.ofNat 32 L ||| 0x80000000#32).toNat = L + 2 ^ 31 := by
    rw [BitVec.toNat_or, BitVec.toNat_ofNat, Nat.mod_eq_of_lt (by omega)]
    rw [show (0x80000000#32).toNat = 2 ^ 31 * 1 by rfl, Nat.or_comm,
      ← Nat.two_pow_add_eq_or_of_lt h]
    omega
  rw [BitVec.toInt_eq_toNat_cond, h1]
  rw [if_neg (by omega)]
  omega

/-- The bytes `setMeta` produces, while the offset takes its five-byte form. -/
theorem setMeta_bytes (body m p s : Bytes) (h : body.length < 2 ^ 31 - 32768) :
    setMeta body m p s = body ++ (setString m ++ (setString p ++ (setString s ++
      (0xd2 :: beBytes 4 body.length)))) := by
  simp only [setMeta, off_toInt (show body.length < 2 ^ 31 by omega)]
  generalize hS : setString m ++ setString p ++ setString s = S
  have hpk : packInt ((body.length : Int) - 2 ^ 31) =
      0xd2 :: beBytes 4 (body.length + 2 ^ 31) := by
    unfold packInt
    rw [if_pos (by omega), if_pos (by omega), if_neg (by omega)]
    congr 2
    omega
  rw [hpk, beBytes_four, beBytes_four]
  have hlen : (body ++ S ++ 0xd2 :: [UInt8.ofNat ((body.length + 2 ^ 31) / 256 / 256 / 256),
      UInt8.ofNat ((body.length + 2 ^ 31) / 256 / 256),
      UInt8.ofNat ((body.length + 2 ^ 31) / 256), UInt8.ofNat (body.length + 2 ^ 31)]).length - 4
      = (body ++ S ++ [0xd2]).length := by
    simp
    omega
  rw [hlen]
  rw [show body ++ S ++ 0xd2 :: [UInt8.ofNat ((body.length + 2 ^ 31) / 256 / 256 / 256),
      UInt8.ofNat ((body.length + 2 ^ 31) / 256 / 256),
      UInt8.ofNat ((body.length + 2 ^ 31) / 256), UInt8.ofNat (body.length + 2 ^ 31)]
      = (body ++ S ++ [0xd2]) ++ UInt8.ofNat ((body.length + 2 ^ 31) / 256 / 256 / 256) ::
        [UInt8.ofNat ((body.length + 2 ^ 31) / 256 / 256),
          UInt8.ofNat ((body.length + 2 ^ 31) / 256), UInt8.ofNat (body.length + 2 ^ 31)] by simp]
  rw [modify_at, mask_top (by omega)]
  have e1 : UInt8.ofNat ((body.length + 2 ^ 31) / 256 / 256) = UInt8.ofNat (body.length / 256 / 256) := by
    apply UInt8.toNat_inj.mp
    simp only [UInt8.toNat_ofNat']
    omega
  have e2 : UInt8.ofNat ((body.length + 2 ^ 31) / 256) = UInt8.ofNat (body.length / 256) := by
    apply UInt8.toNat_inj.mp
    simp only [UInt8.toNat_ofNat']
    omega
  have e3 : UInt8.ofNat (body.length + 2 ^ 31) = UInt8.ofNat body.length := by
    apply UInt8.toNat_inj.mp
    simp only [UInt8.toNat_ofNat']
    omega
  rw [e1, e2, e3, ← hS]
  simp

theorem getMeta_setMeta (body m p s : Bytes) (hb : body.length < 2 ^ 31 - 32768)
    (hm : (0 : UInt8) ∉ m ∧ m.length + 1 < 2 ^ 32) (hp : (0 : UInt8) ∉ p ∧ p.length + 1 < 2 ^ 32)
    (hs : (0 : UInt8) ∉ s ∧ s.length + 1 < 2 ^ 32) (off : Nat) :
    getMeta (setMeta body m p s) off = .ok ((m, p, s), off) := by
  rw [setMeta_bytes body m p s hb]
  generalize hB : body ++ (setString m ++ (setString p ++ (setString s ++
      (0xd2 :: beBytes 4 body.length)))) = B
  have hBsplit : B = (body ++ (setString m ++ (setString p ++ setString s))) ++
      (0xd2 :: beBytes 4 body.length) := by rw [← hB]; simp
  have hlen : B.length = (body ++ (setString m ++ (setString p ++ setString s))).length + 5 := by
    rw [hBsplit]; simp; omega
  have hdrop : B.drop (B.length - 5) = 0xd2 :: beBytes 4 body.length := by
    rw [hlen, Nat.add_sub_cancel]
    rw [hBsplit, List.drop_left]
  have hget : getInt32 (0xd2 :: beBytes 4 body.length) = some (BitVec.ofNat 32 body.length, []) := by
    have hU := grabU_append body.length 4 [] (by omega)
    rw [List.append_nil] at hU
    have hS : grabS (beBytes 4 body.length) 4 = some ((body.length : Int), []) := by
      simp only [grabS, hU, Option.map_some]
      rw [if_pos (by omega)]
    simp only [getInt32, unpackNext]
    simp [hS]
  have hoff : (BitVec.ofNat 32 body.length).toNat = body.length := by
    rw [BitVec.toNat_ofNat]; exact Nat.mod_eq_of_lt (by omega)
  have hnn : ¬ (BitVec.ofNat 32 body.length).toInt < 0 := by
    rw [BitVec.toInt_eq_toNat_of_lt (by omega), hoff]; omega
  simp only [getMeta]
  rw [if_neg (by omega), hdrop, hget]
  simp only [if_neg hnn, hoff]
  rw [← hB, List.drop_left]
  rw [get_setString m hm.1 hm.2]
  simp only [Res.ok_bind]
  rw [get_setString p hp.1 hp.2]
  simp only [Res.ok_bind]
  rw [get_setString s hs.1 hs.2]
  rfl

/-- Between 2 GiB - 32 KiB and 2 GiB - 128 the offset is packed in three bytes, and what is read as the offset is the
last byte of the last text. -/
theorem getMeta_large (L : Nat) (h1 : 2 ^ 31 - 32768 ≤ L) (h2 : L < 2 ^ 31 - 128) (m p s : Bytes) (x : UInt8)
    (hx : x.toNat < 128) (r : Nat) :
    getMeta (setMeta (List.replicate L 0) m p (s ++ [x])) r = .fail := by
  have hset : ∃ pre q1 q2, setMeta (List.replicate L 0) m p (s ++ [x]) =
      List.replicate L 0 ++ (pre ++ [x, 0, 0xd1, q1, q2]) := by
    simp only [setMeta, List.length_replicate, off_toInt (show L < 2 ^ 31 by omega)]
    have hpk : packInt ((L : Int) - 2 ^ 31) = 0xd1 :: beBytes 2 ((L : Int) - 2 ^ 31 + 2 ^ 16).toNat := by
      unfold packInt
      rw [if_pos (by omega), if_neg (by omega), if_pos (by omega)]
    have hbe : ∀ n, beBytes 2 n = [UInt8.ofNat (n / 256), UInt8.ofNat n] := by
      intro n; simp [beBytes, leBytes]
    obtain ⟨hd, hs⟩ : ∃ hd, setString (s ++ [x]) = hd ++ [x, 0] := by
      unfold setString packStr
      generalize (if ((s ++ [x] ++ [0]).length < 32) then _ else _ : Bytes) = hd
      exact ⟨hd ++ s, by simp⟩
    rw [hpk, hbe, hs]
    generalize UInt8.ofNat (_ / 256) = q1
    generalize UInt8.ofNat _ = q2
    refine ⟨setString m ++ setString p ++ hd, q1, q2, ?_⟩
    have hl : (List.replicate L (0 : UInt8) ++ (setString m ++ setString p ++ (hd ++ [x, 0])) ++ [0xd1, q1, q2]).length - 4
        = (List.replicate L (0 : UInt8) ++ (setString m ++ setString p ++ hd) ++ [x]).length := by
      simp only [List.length_append, List.length_cons, List.length_nil]
      omega
    rw [hl, show List.replicate L (0 : UInt8) ++ (setString m ++ setString p ++ (hd ++ [x, 0])) ++ [0xd1, q1, q2] =
      (List.replicate L (0 : UInt8) ++ (setString m ++ setString p ++ hd) ++ [x]) ++ (0 : UInt8) :: [0xd1, q1, q2] by
        simp [List.append_assoc], modify_at]
    simp [List.append_assoc]
  obtain ⟨pre, q1, q2, e⟩ := hset
  rw [e]
  have hlen : (List.replicate L (0 : UInt8) ++ (pre ++ [x, 0, 0xd1, q1, q2])).length = L + pre.length + 5 := by
    simp only [List.length_append, List.length_replicate, List.length_cons, List.length_nil]
    omega
  have hdrop : (List.replicate L (0 : UInt8) ++ (pre ++ [x, 0, 0xd1, q1, q2])).drop (L + pre.length + 5 - 5) =
      [x, 0, 0xd1, q1, q2] := by
    rw [← List.append_assoc, List.drop_left' (by simp)]
  have hoff : getInt32 [x, 0, 0xd1, q1, q2] = some (BitVec.ofInt 32 (x.toNat : Int), [0, 0xd1, q1, q2]) := by
    simp [getInt32, unpackNext, hx]
  have hbv : BitVec.ofInt 32 (x.toNat : Int) = BitVec.ofNat 32 x.toNat := by simp
  have hpos : ¬ (BitVec.ofNat 32 x.toNat).toInt < 0 := by
    rw [BitVec.toInt_eq_toNat_of_lt (by rw [BitVec.toNat_ofNat]; omega)]
    omega
  have hnat : (BitVec.ofNat 32 x.toNat).toNat = x.toNat := by
    rw [BitVec.toNat_ofNat, Nat.mod_eq_of_lt (by omega)]
  obtain ⟨k, hk⟩ : ∃ k, L - x.toNat = k + 1 := ⟨L - x.toNat - 1, by omega⟩
  have hget : getString ((List.replicate L (0 : UInt8) ++ (pre ++ [x, 0, 0xd1, q1, q2])).drop x.toNat) = .fail := by
    rw [List.drop_append_of_le_length (by rw [List.length_replicate]; omega), List.drop_replicate, hk,
      List.replicate_succ]
    simp [getString, unpackNext]
  unfold getMeta
  rw [hlen, if_neg (by omega), hdrop, hoff]
  simp only [hbv, hpos, if_false, hnat, hget, Res.fail_bind]

end Verif.Message
