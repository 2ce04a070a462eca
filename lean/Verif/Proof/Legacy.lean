import Verif.Spec.Legacy
import Verif.Proof.Exec
import Verif.Proof.Wire
import Verif.Proof.Text
import Verif.Proof.FloatText
import Verif.Proof.SetGet
import Verif.Props.DateText

namespace Verif.Proof.Legacy

open Verif Verif.Message Verif.Value Verif.Wire Verif.Legacy Verif.Spec.Legacy Verif.Spec.Text

theorem getStringP_set (s : Bytes) (h : Name s) (r : Bytes) : getStringP (setString s ++ r) = .ok (some s, r) := by
  have e := get_setString s h.1 h.2 r
  unfold getString at e
  unfold getStringP
  split at e
  · rename_i eq
    rw [eq]
    simp only at e ⊢
    split at e
    · rename_i hc
      rw [if_pos hc]
      cases e
      rfl
    · cases e
  · cases e

theorem whole {L : Libs} (g : Good L) (ty : Text.IntTy) {s : Bytes} {z : Int} (hd : Denotes (prefixes ty) s z)
    (h1 : least ty ≤ z) (h2 : z ≤ greatest ty) :
    ∃ v, Text.setFromString L.long (tyOf ty) s = some v ∧ held ty v = some z :=
  ⟨Text.put ty z, (Text.set_iff ty).2 ⟨z, Text.parse_complete g.long ty s z hd h1 h2, rfl⟩, Text.held_put h1 h2⟩

theorem fraction {F : FloatText.Format} {tiny : Nat} {rnd : FloatText.Rounding F} (hr : FloatText.Correct F tiny rnd)
    {s : Bytes} {neg : Bool} {num den : Nat} (h : Fraction F tiny s neg num den) :
    ∃ b n, FloatText.fromText F rnd s = some b ∧ F.val b = .fin n ∧ Nearest F n neg num den := by
  obtain ⟨hn, hden, hx⟩ := h
  have key : (rnd (.frac neg num den)).2 = false → FloatText.fromText F rnd s = some (rnd (.frac neg num den)).1 := by
    intro h1
    unfold FloatText.fromText
    rw [FloatText.strtod_notation hn]
    simp only [h1]
    rfl
  rcases hx with rfl | ⟨hi, hhi, hlo, hle⟩
  · obtain ⟨h1, h2⟩ := hr.zero neg den hden
    refine ⟨_, 0, key h1, h2, ⟨_, h2⟩, fun m _ => ?_⟩
    have : FloatText.distance 0 (FloatText.signed neg 0) den = 0 := by
      cases neg <;> simp [FloatText.distance, FloatText.signed]
    omega
  · obtain ⟨h1, n, h2, h3⟩ := hr.nearest neg num den hi hden hhi hlo hle
    exact ⟨_, n, key h1, h2, ⟨_, h2⟩, h3⟩

theorem parse_proper {L : Libs} (g : Good L) {k : Kind} {s : Bytes} (h : Proper k s) :
    ∃ v, parse L k.code (some s) = some v ∧ Means k s v := by
  cases k with
  | string => exact ⟨_, rfl, rfl⟩
  | int =>
    obtain ⟨z, hd, h1, h2⟩ := h
    obtain ⟨v, hv, hh⟩ := whole g .int32 hd (by simp only [least]; omega) (by simp only [greatest]; omega)
    exact ⟨v, hv, z, hd, hh⟩
  | unsignedInt =>
    obtain ⟨z, hd, h1, h2⟩ := h
    obtain ⟨v, hv, hh⟩ := whole g .uint32 hd (by simp only [least]; omega) (by simp only [greatest]; omega)
    exact ⟨v, hv, z, hd, hh⟩
  | long =>
    obtain ⟨z, hd, h1, h2⟩ := h
    obtain ⟨v, hv, hh⟩ := whole g .int64 hd (by simp only [least]; omega) (by simp only [greatest]; omega)
    exact ⟨v, hv, z, hd, hh⟩
  | unsignedLong =>
    obtain ⟨z, hd, h1, h2⟩ := h
    obtain ⟨v, hv, hh⟩ := whole g .uint64 hd (by simp only [least]; omega) (by simp only [greatest]; omega)
    exact ⟨v, hv, z, hd, hh⟩
  | boolean =>
    obtain ⟨b, hb⟩ := h
    refine ⟨.boolean b, ?_, b, hb, rfl⟩
    have h1 : "true".toUTF8.data.toList = [116, 114, 117, 101] := by decide +kernel
    have h2 : "false".toUTF8.data.toList = [102, 97, 108, 115, 101] := by decide +kernel
    have h3 : "1".toUTF8.data.toList = [49] := by decide +kernel
    have h4 : "0".toUTF8.data.toList = [48] := by decide +kernel
    show Text.setFromString L.long .boolean s = _
    cases b with
    | true =>
      simp only [Says, if_true, h1, h3] at hb
      simp only [Text.setFromString]
      rw [if_pos hb]
    | false =>
      simp only [Says, Bool.false_eq_true, if_false, h2, h4] at hb
      have hn : ¬ (s.map Text.lower = [116, 114, 117, 101] ∨ s = [49]) := by
        rintro (e | e) <;> rcases hb with f | f
        · rw [e] at f; simp at f
        · rw [f] at e; simp at e
        · rw [e] at f; simp at f
        · rw [e] at f; simp at f
      simp only [Text.setFromString]
      rw [if_neg hn, if_pos hb]
  | dateTime =>
    obtain ⟨m, hm, hw⟩ := h
    obtain ⟨d, hd, he⟩ := Props.C78_reads L.dates s m hm hw
    refine ⟨.datetime d, ?_, m, d, hm, hw, rfl, he⟩
    show (DateText.fromText L.dates s).map Scalar.datetime = _
    rw [hd]
    rfl
  | float =>
    obtain ⟨neg, num, den, hf⟩ := h
    obtain ⟨b, n, h1, h2, h3⟩ := fraction g.single hf
    refine ⟨.single b, ?_, neg, num, den, b, n, hf, rfl, h2, h3⟩
    show (FloatText.fromText FloatText.single L.single s).map Scalar.single = _
    rw [h1]
    rfl
  | double =>
    obtain ⟨neg, num, den, hf⟩ := h
    obtain ⟨b, n, h1, h2, h3⟩ := fraction g.double hf
    refine ⟨.double b, ?_, neg, num, den, b, n, hf, rfl, h2, h3⟩
    show (FloatText.fromText FloatText.double L.double s).map Scalar.double = _
    rw [h1]
    rfl
  | byte =>
    obtain ⟨c, rfl⟩ := h
    exact ⟨_, rfl, c, rfl, rfl⟩
  | base64 => cases h
  | nothing => cases h

theorem code_small (k : Kind) : (BitVec.ofNat 32 k.code).toInt = k.code ∧ (BitVec.ofNat 32 k.code).toNat = k.code ∧
    k.code ≤ 11 := by
  cases k <;> decide

/-- What `readValue` gives for a value of an older component. -/
theorem readValue_old (L : Libs) (k : Kind) {s : Bytes} (hs : Name s) (r : Bytes) :
    readValue L (setInt32 (BitVec.ofNat 32 k.code) ++ setString s ++ r) =
      match parse L k.code (some s) with
      | some v => .ok (true, .scalar v, r)
      | none => .ok (false, .scalar .none, r) := by
  obtain ⟨h1, h2, h3⟩ := code_small k
  simp only [Legacy.readValue, List.append_assoc, get_setInt32, orUb, Res.ok_bind, h1, h2, getStringP_set s hs]
  rw [if_pos (by omega)]
  simp only [Res.pure_eq]
  cases parse L k.code (some s) <;> rfl

theorem modern_code (t : Ty) : ¬ (0 ≤ (BitVec.ofNat 32 t.code).toInt ∧ (BitVec.ofNat 32 t.code).toInt ≤ 11) := by
  cases t <;> decide

theorem append_head (fc : FloatConv) (v : WVal) {d : Bytes} (h : appendVal fc v = .ok d) :
    ∃ d', d = setInt32 (BitVec.ofNat 32 v.ty.code) ++ d' := by
  cases v with
  | scalar s =>
    simp only [appendVal] at h
    obtain ⟨x, _, h⟩ := res_bind_ok h
    cases h
    exact ⟨x, rfl⟩
  | props ps =>
    simp only [appendVal] at h
    obtain ⟨x, _, h⟩ := res_bind_ok h
    cases h
    exact ⟨_, rfl⟩
  | obj o =>
    simp only [appendVal] at h
    obtain ⟨x, _, h⟩ := res_bind_ok h
    cases h
    exact ⟨x, rfl⟩
  | nullObj =>
    simp only [appendVal] at h
    cases h
    exact ⟨[], by simp [WVal.ty]⟩

theorem readValue_new (L : Libs) (v : WVal) (hv : SendableVal L.conv v) :
    ∃ d, appendVal L.conv v = .ok d ∧ ∀ r, readValue L (d ++ r) = .ok (true, v, r) := by
  obtain ⟨d, h1, _, h2⟩ := readVal_append L.conv v hv
  refine ⟨d, h1, fun r => ?_⟩
  obtain ⟨d', hd⟩ := append_head L.conv v h1
  have hw : Wire.readValue L.conv (d ++ r) = .ok (v, r) := h2 _ r (by simp)
  have hg : getInt32 (d ++ r) = some (BitVec.ofNat 32 v.ty.code, d' ++ r) := by
    rw [hd, List.append_assoc, get_setInt32]
  simp only [Legacy.readValue, hg, orUb, Res.ok_bind]
  rw [if_neg (modern_code v.ty)]
  simp only [hw, Res.ok_bind, Res.pure_eq]

theorem readParam {L : Libs} (g : Good L) {p : Param} (hp : p.Fit L) :
    ∃ d w, p.bytes L = .ok d ∧ p.Is w ∧ ∀ r, readValue L (d ++ r) = .ok (true, w, r) := by
  cases p with
  | old k s =>
    obtain ⟨v, h1, h2⟩ := parse_proper g hp.2
    refine ⟨_, .scalar v, rfl, ⟨v, rfl, h2⟩, fun r => ?_⟩
    rw [readValue_old L k hp.1 r, h1]
  | new v =>
    obtain ⟨d, h1, h2⟩ := readValue_new L v hp
    exact ⟨d, v, h1, rfl, h2⟩

theorem readList {L : Libs} (g : Good L) : ∀ (l : List (Bytes × Param)), (∀ x ∈ l, Name x.1 ∧ x.2.Fit L) →
    ∃ d ps, listBytes L l = .ok d ∧ Same l ps ∧
      ∀ r, readProperties L l.length (d ++ r) = .ok (true, ps, r)
  | [], _ => ⟨[], [], rfl, trivial, fun r => rfl⟩
  | (n, p) :: l, h => by
    obtain ⟨hn, hp⟩ := h (n, p) (by simp)
    obtain ⟨d, w, h1, h2, h3⟩ := readParam g hp
    obtain ⟨e, ps, h4, h5, h6⟩ := readList g l (fun x hx => h x (by simp [hx]))
    refine ⟨setString n ++ (d ++ e), (n, w) :: ps, ?_, ⟨rfl, h2, h5⟩, fun r => ?_⟩
    · simp only [listBytes, h1, h4, Res.ok_bind, Res.pure_eq]
    · simp only [List.length_cons, readProperties, readProperty, List.append_assoc, getStringU_set n hn, Res.ok_bind, h3,
        h6, Res.pure_eq]
      split <;> rfl

end Verif.Proof.Legacy
