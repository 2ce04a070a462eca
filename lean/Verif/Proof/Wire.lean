import Verif.Spec.Wire
import Verif.Proof.Message
import Verif.Proof.Value

namespace Verif.Wire

open Verif Verif.Message Verif.Value Verif.Filter

theorem getStringU_set (s : Bytes) (h : Name s) (r : Bytes) :
    getStringU (setString s ++ r) = .ok (s, r) := by
  simp [getStringU, get_setString s h.1 h.2]

theorem getStringN_set (s : Bytes) (h : Name s) (r : Bytes) :
    getStringN (setString s ++ r) = .ok (s, r) := by
  have e := get_setString s h.1 h.2 r
  unfold getString at e
  unfold getStringN
  split at e
  · rename_i eq; rw [eq]; exact e
  · cases e

theorem getInt32Z_set (v : BitVec 32) (r : Bytes) : getInt32Z (setInt32 v ++ r) = (v, r) := by
  have e := get_setInt32 v r
  unfold getInt32 at e
  unfold getInt32Z
  split at e
  · rename_i eq; rw [eq]; exact Option.some.inj e
  · cases e

theorem toInt_small {n : Nat} (h : n < 2 ^ 31) : (BitVec.ofNat 32 n).toInt.toNat = n := by
  have h2 : (BitVec.ofNat 32 n).toNat = n := by
    rw [BitVec.toNat_ofNat]; exact Nat.mod_eq_of_lt (by omega)
  rw [BitVec.toInt_eq_toNat_of_lt (by omega), h2]
  simp

theorem code_toNat (t : Ty) : (BitVec.ofNat 32 t.code).toNat = t.code := by
  cases t <;> rfl

theorem scalar_ty_ofCode (s : Scalar) : Ty.ofCode s.ty.code = some s.ty := by
  cases s <;> rfl

theorem setWidth_signExtend (v : BitVec 16) : (v.signExtend 32).setWidth 16 = v := by
  apply BitVec.eq_of_getLsbD_eq
  intro i hi
  simp [BitVec.getLsbD_signExtend, hi]
  omega

/-- Reading back a scalar. -/
theorem readScalar_append (fc : FloatConv) (s : Scalar) (hs : SendableScalar fc s) :
    ∃ d, appendScalar fc s = .ok d ∧ ∀ r, readScalar fc s.ty (d ++ r) = .ok (s, r) := by
  have hle1 : ∀ v : BitVec 8, leNat (leBytes 1 v.toNat) = v.toNat := by
    intro v
    rw [leNat_leBytes]
    have := v.isLt
    exact Nat.mod_eq_of_lt (by omega)
  cases s with
  | int16 v =>
    refine ⟨_, rfl, fun r => ?_⟩
    simp only [Scalar.ty, readScalar, get_setInt32, orUb, Res.ok_bind, Res.pure_eq]
    congr 3
    exact setWidth_signExtend v
  | uint16 v =>
    refine ⟨_, rfl, fun r => ?_⟩
    simp only [Scalar.ty, readScalar, get_setInt32, orUb, Res.ok_bind, Res.pure_eq]
    congr 3
    simp
  | int32 v => exact ⟨_, rfl, fun r => by simp [Scalar.ty, readScalar, get_setInt32, orUb]⟩
  | uint32 v => exact ⟨_, rfl, fun r => by simp [Scalar.ty, readScalar, get_setInt32, orUb]⟩
  | int64 v => exact ⟨_, rfl, fun r => by simp [Scalar.ty, readScalar, get_setInt64, orUb]⟩
  | uint64 v => exact ⟨_, rfl, fun r => by simp [Scalar.ty, readScalar, get_setInt64, orUb]⟩
  | single v =>
    refine ⟨_, rfl, fun r => ?_⟩
    have : fc.narrow (fc.widen v) = v := hs
    simp [Scalar.ty, readScalar, get_setDouble, orUb, this]
  | double v => exact ⟨_, rfl, fun r => by simp [Scalar.ty, readScalar, get_setDouble, orUb]⟩
  | datetime d =>
    refine ⟨_, rfl, fun r => ?_⟩
    have hl := DateTime.encode_length d
    simp only [Scalar.ty, readScalar, get_setBytes _ (show d.encode.length < 2 ^ 32 by omega), orUb,
      Res.ok_bind, setTLV, hl]
    simp [DateTime.decode_encode]
  | string s =>
    cases s with
    | none => exact absurd hs id
    | some s =>
      refine ⟨_, rfl, fun r => ?_⟩
      have hs : Name s := hs
      simp only [Scalar.ty, readScalar, get_setBytes (s ++ [0]) (by simpa using hs.2), orUb,
        Res.ok_bind, setTLV]
      rw [takeWhile_append_nul hs.1]
      simp
  | bytes s =>
    cases s with
    | none => exact absurd hs id
    | some s =>
      exact ⟨_, rfl, fun r => by simp [Scalar.ty, readScalar, get_setBytes s hs, orUb, setTLV]⟩
  | boolean b =>
    refine ⟨_, rfl, fun r => ?_⟩
    simp only [Scalar.ty, readScalar, get_setBytes [if b then (1 : UInt8) else 0] (by simp), orUb,
      Res.ok_bind, setTLV]
    cases b <;> simp
  | char v =>
    refine ⟨_, rfl, fun r => ?_⟩
    simp only [Scalar.ty, readScalar, get_setBytes (leBytes 1 v.toNat) (by simp), orUb,
      Res.ok_bind, setTLV]
    simp [hle1]
  | byte v =>
    refine ⟨_, rfl, fun r => ?_⟩
    simp only [Scalar.ty, readScalar, get_setBytes (leBytes 1 v.toNat) (by simp), orUb,
      Res.ok_bind, setTLV]
    simp [hle1]
  | int8 v =>
    refine ⟨_, rfl, fun r => ?_⟩
    simp only [Scalar.ty, readScalar, get_setBytes (leBytes 1 v.toNat) (by simp), orUb,
      Res.ok_bind, setTLV]
    simp [hle1]
  | uint8 v =>
    refine ⟨_, rfl, fun r => ?_⟩
    simp only [Scalar.ty, readScalar, get_setBytes (leBytes 1 v.toNat) (by simp), orUb,
      Res.ok_bind, setTLV]
    simp [hle1]
  | none =>
    exact ⟨_, rfl, fun r => by simp [Scalar.ty, readScalar, get_setBytes [] (by simp), orUb, setTLV]⟩

mutual
theorem readVal_append (fc : FloatConv) : ∀ v, SendableVal fc v →
    ∃ d, appendVal fc v = .ok d ∧ 0 < d.length ∧
      ∀ fuel r, d.length ≤ fuel → readVal fc fuel (d ++ r) = .ok (v, r)
  | .scalar s, hs => by
    obtain ⟨d, hd, hr⟩ := readScalar_append fc s hs
    refine ⟨_, by simp only [appendVal, hd, Res.ok_bind, Res.pure_eq]; rfl, ?_, ?_⟩
    · have := setInt32_pos (BitVec.ofNat 32 s.ty.code)
      simp only [List.length_append]; omega
    · intro fuel r hf
      have := setInt32_pos (BitVec.ofNat 32 s.ty.code)
      simp only [List.length_append] at hf
      obtain ⟨fuel, rfl⟩ : ∃ k, fuel = k + 1 := ⟨fuel - 1, by omega⟩
      simp only [readVal, List.append_assoc, get_setInt32, orUb, Res.ok_bind, code_toNat,
        scalar_ty_ofCode]
      have hr := hr r
      cases s <;> simp_all [Scalar.ty]
  | .props ps, hs => by
    obtain ⟨d, hd, hr⟩ := readProps_append fc ps hs.2
    refine ⟨_, by simp only [appendVal, hd, Res.ok_bind, Res.pure_eq]; rfl, ?_, ?_⟩
    · have := setInt32_pos (BitVec.ofNat 32 Ty.property.code)
      simp only [List.length_append]; omega
    · intro fuel r hf
      have h1 := setInt32_pos (BitVec.ofNat 32 Ty.property.code)
      have h2 := setInt32_pos (BitVec.ofNat 32 ps.count)
      simp only [List.length_append] at hf
      obtain ⟨fuel, rfl⟩ : ∃ k, fuel = k + 1 := ⟨fuel - 1, by omega⟩
      simp only [readVal, List.append_assoc, get_setInt32, orUb, Res.ok_bind, code_toNat,
        show Ty.ofCode Ty.property.code = some .property from rfl, getInt32Z_set,
        toInt_small hs.1]
      rw [hr fuel r (by omega)]
      rfl
  | .obj o, hs => by
    obtain ⟨d, hd, hr⟩ := readObj_append fc o hs
    refine ⟨_, by simp only [appendVal, hd, Res.ok_bind, Res.pure_eq]; rfl, ?_, ?_⟩
    · have := setInt32_pos (BitVec.ofNat 32 Ty.object.code)
      simp only [List.length_append]; omega
    · intro fuel r hf
      have h1 := setInt32_pos (BitVec.ofNat 32 Ty.object.code)
      simp only [List.length_append] at hf
      obtain ⟨fuel, rfl⟩ : ∃ k, fuel = k + 1 := ⟨fuel - 1, by omega⟩
      simp only [readVal, List.append_assoc, get_setInt32, orUb, Res.ok_bind, code_toNat,
        show Ty.ofCode Ty.object.code = some .object from rfl]
      rw [hr.2 fuel r (by omega)]
      rfl
  | .nullObj, hs => absurd hs id

theorem readProps_append (fc : FloatConv) : ∀ ps, SendableProps fc ps →
    ∃ d, appendProps fc ps = .ok d ∧
      ∀ fuel r, d.length ≤ fuel → readProps fc fuel ps.count (d ++ r) = .ok (ps, r)
  | .nil, _ => ⟨[], rfl, fun fuel r _ => by simp [readProps, PropList.count]⟩
  | .cons name v rest, hs => by
    obtain ⟨d, hd, hdp, hr⟩ := readVal_append fc v hs.2.1
    obtain ⟨e, he, hre⟩ := readProps_append fc rest hs.2.2
    refine ⟨_, by simp only [appendProps, hd, he, Res.ok_bind, Res.pure_eq]; rfl, ?_⟩
    intro fuel r hf
    have h1 := setString_pos name
    simp only [List.length_append] at hf
    obtain ⟨fuel, rfl⟩ : ∃ k, fuel = k + 1 := ⟨fuel - 1, by omega⟩
    simp only [readProps, PropList.count, List.append_assoc, getStringU_set name hs.1, Res.ok_bind]
    rw [hr fuel _ (by omega)]
    simp only [Res.ok_bind]
    rw [hre fuel r (by omega)]
    rfl

theorem readObj_append (fc : FloatConv) : ∀ o, SendableObj fc o →
    ∃ d, appendObj fc o = .ok d ∧ 0 < d.length ∧
      ∀ fuel r, d.length ≤ fuel → readObj fc fuel (d ++ r) = .ok (o, r)
  | .mk name multi ps cs, hs => by
    obtain ⟨d, hd, hr⟩ := readProps_append fc ps hs.2.2.1
    obtain ⟨e, he, hre⟩ := readObjs_append fc cs hs.2.2.2.2
    refine ⟨_, by simp only [appendObj, hd, he, Res.ok_bind, Res.pure_eq]; rfl, ?_, ?_⟩
    · have := setString_pos name
      simp only [List.length_append]; omega
    · intro fuel r hf
      have h1 := setString_pos name
      simp only [List.length_append] at hf
      obtain ⟨fuel, rfl⟩ : ∃ k, fuel = k + 1 := ⟨fuel - 1, by omega⟩
      simp only [readObj, List.append_assoc, getStringN_set name hs.1, Res.ok_bind, getInt32Z_set,
        toInt_small hs.2.1]
      have h2 := setInt32_pos (BitVec.ofNat 32 cs.count)
      rw [hr fuel _ (by omega)]
      simp only [Res.ok_bind, getInt32Z_set, toInt_small hs.2.2.2.1]
      rw [hre fuel r (by omega)]
      cases multi <;> rfl

theorem readObjs_append (fc : FloatConv) : ∀ os, SendableObjs fc os →
    ∃ d, appendObjs fc os = .ok d ∧
      ∀ fuel r, d.length < fuel → readObjs fc fuel os.count (d ++ r) = .ok (os, r)
  | .nil, _ => ⟨[], rfl, fun fuel r _ => by simp [readObjs, ObjList.count]⟩
  | .cons o rest, hs => by
    obtain ⟨d, hd, hdp, hr⟩ := readObj_append fc o hs.1
    obtain ⟨e, he, hre⟩ := readObjs_append fc rest hs.2
    refine ⟨_, by simp only [appendObjs, hd, he, Res.ok_bind, Res.pure_eq]; rfl, ?_⟩
    intro fuel r hf
    simp only [List.length_append] at hf
    obtain ⟨fuel, rfl⟩ : ∃ k, fuel = k + 1 := ⟨fuel - 1, by omega⟩
    simp only [readObjs, ObjList.count, List.append_assoc]
    rw [hr fuel _ (by omega)]
    simp only [Res.ok_bind]
    rw [hre fuel r (by omega)]
    rfl
end

theorem readFilter_append (fc : FloatConv) : ∀ f, SendableFilter fc f →
    ∃ d, appendFilter fc f = .ok d ∧ 0 < d.length ∧
      ∀ fuel r, d.length ≤ fuel → readFilter fc fuel (d ++ r) = .ok (f, r) := by
  intro f
  induction f with
  | null =>
    intro _
    refine ⟨_, rfl, setInt32_pos _, ?_⟩
    intro fuel r hf
    have := setInt32_pos (-1)
    obtain ⟨fuel, rfl⟩ : ∃ k, fuel = k + 1 := ⟨fuel - 1, by omega⟩
    simp only [readFilter, get_setInt32, orUb, Res.ok_bind]
    rfl
  | relation op v =>
    intro hs
    obtain ⟨d, hd, hdp, hr⟩ := readVal_append fc (.scalar v) hs.2
    refine ⟨_, by simp only [appendFilter, hd, Res.ok_bind, Res.pure_eq]; rfl, ?_, ?_⟩
    · simp only [List.length_append]; omega
    · intro fuel r hf
      simp only [List.length_append] at hf
      obtain ⟨fuel, rfl⟩ : ∃ k, fuel = k + 1 := ⟨fuel - 1, by omega⟩
      have hn : Name filterName := by
        constructor
        · decide
        · decide
      simp only [readFilter, List.append_assoc, get_setInt32, orUb, Res.ok_bind, if_true,
        getStringU_set _ hn, readValue]
      rw [hr _ r (by simp)]
      have : (BitVec.ofNat 32 op).toNat = op := by
        rw [BitVec.toNat_ofNat]; exact Nat.mod_eq_of_lt (by have := hs.1; omega)
      simp [this]
  | logic op l r ihl ihr =>
    intro hs
    obtain ⟨hop, hl, hrr, hnot⟩ := hs
    obtain ⟨dl, hdl, hdlp, hrl⟩ := ihl hl
    obtain ⟨dr, hdr, hdrp, hrr⟩ := ihr hrr
    have hopn : (BitVec.ofNat 32 op).toNat = op := by
      rw [BitVec.toNat_ofNat]; exact Nat.mod_eq_of_lt (by omega)
    by_cases hn : op = opNOT
    · subst hn
      rw [hnot rfl]
      refine ⟨_, by simp only [appendFilter, hdl, Res.ok_bind, ne_eq, not_true_eq_false, if_false,
        Res.pure_eq]; rfl, ?_, ?_⟩
      · simp only [List.length_append]; omega
      · intro fuel r hf
        have := setInt32_pos 1
        simp only [List.length_append] at hf
        obtain ⟨fuel, rfl⟩ : ∃ k, fuel = k + 1 := ⟨fuel - 1, by omega⟩
        simp only [readFilter, List.append_assoc, get_setInt32, orUb, Res.ok_bind, List.nil_append]
        rw [if_neg (by decide), if_pos trivial]
        rw [hrl fuel _ (by omega)]
        simp [hopn]
    · have hne : (BitVec.ofNat 32 op) ≠ BitVec.ofNat 32 opNOT := by
        intro h
        have := congrArg BitVec.toNat h
        rw [hopn] at this
        exact hn this
      refine ⟨_, by simp only [appendFilter, hdl, hdr, Res.ok_bind, ne_eq, hn, not_false_eq_true,
        if_true, Res.pure_eq]; rfl, ?_, ?_⟩
      · simp only [List.length_append]; omega
      · intro fuel r hf
        have := setInt32_pos 1
        simp only [List.length_append] at hf
        obtain ⟨fuel, rfl⟩ : ∃ k, fuel = k + 1 := ⟨fuel - 1, by omega⟩
        simp only [readFilter, List.append_assoc, get_setInt32, orUb, Res.ok_bind]
        rw [if_neg (by decide), if_pos trivial]
        rw [hrl fuel _ (by omega)]
        simp only [Res.ok_bind, if_pos hne]
        rw [hrr fuel _ (by omega)]
        simp [hopn]

theorem readData_append (fc : FloatConv) (data : Option Obj)
    (hd : ∀ o, data = some o → SendableObj fc o) :
    ∃ d, appendData fc data = .ok d ∧ ∀ r, readData fc (d ++ r) = .ok (data, r) := by
  cases data with
  | none => exact ⟨_, rfl, fun r => by simp [readData, getInt32Z_set]⟩
  | some o =>
    obtain ⟨d, h1, _, h2⟩ := readObj_append fc o (hd o rfl)
    refine ⟨_, by simp only [appendData, h1, Res.ok_bind, Res.pure_eq]; rfl, fun r => ?_⟩
    simp only [readData, List.append_assoc, getInt32Z_set, readObject]
    rw [if_pos (by decide), h2 _ r (by simp)]
    rfl

theorem readFilterOpt_append (fc : FloatConv) (f : Filter) (hf : SendableFilter fc f) :
    ∃ d, appendFilterOpt fc f = .ok d ∧ ∀ r, readFilterOpt fc (d ++ r) = .ok (f, r) := by
  have hgen : ∀ f, SendableFilter fc f → ∃ d,
      (do let d ← appendFilter fc f; pure (setInt32 1 ++ d)) = Res.ok d ∧
      ∀ r, readFilterOpt fc (d ++ r) = .ok (f, r) := by
    intro f hf
    obtain ⟨d, h1, _, h2⟩ := readFilter_append fc f hf
    refine ⟨_, by simp only [h1, Res.ok_bind, Res.pure_eq]; rfl, fun r => ?_⟩
    simp only [readFilterOpt, List.append_assoc, getInt32Z_set]
    rw [if_pos (by decide), h2 _ r (by simp)]
  cases f with
  | null => exact ⟨_, rfl, fun r => by simp [readFilterOpt, getInt32Z_set]⟩
  | relation op v => exact hgen _ hf
  | logic op l r => exact hgen _ hf

theorem readEvent_append (fc : FloatConv) (e : Event) (hn : Name e.name)
    (hd : ∀ o, e.data = some o → SendableObj fc o) (hf : SendableFilter fc e.filter) :
    ∃ d, appendEvent fc e = .ok d ∧ ∀ r, readEvent fc (d ++ r) = .ok (e, r) := by
  obtain ⟨name, type, data, filter, interval, duration, cid⟩ := e
  simp only at hn hd hf
  obtain ⟨d, e1, e2⟩ := readData_append fc data hd
  obtain ⟨f, f1, f2⟩ := readFilterOpt_append fc filter hf
  refine ⟨_, by simp only [appendEvent, e1, f1, Res.ok_bind, Res.pure_eq]; rfl, fun r => ?_⟩
  simp only [readEvent, List.append_assoc, getStringU_set name hn, Res.ok_bind, get_setInt32, orUb,
    e2, f2, Res.pure_eq]

end Verif.Wire
