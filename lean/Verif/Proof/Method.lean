import Verif.Spec.Method
import Verif.Proof.Wire
import Verif.Proof.Meta
import Verif.Proof.Exec

namespace Verif.Method

open Verif Verif.Message Verif.Value Verif.Wire

theorem setInt32_le (v : BitVec 32) : (setInt32 v).length ≤ 5 := by
  unfold setInt32 packInt
  have h1 := v.toInt_lt
  have h2 := v.le_toInt
  repeat' split
  all_goals first | (simp; done) | omega | (simp; omega)

theorem setString_le (s : Bytes) : (setString s).length ≤ s.length + 6 := by
  unfold setString packStr
  repeat' split
  all_goals (simp; try omega)

theorem setBytes_le (s : Bytes) : (setBytes s).length ≤ s.length + 5 := by
  unfold setBytes packBin
  repeat' split
  all_goals (simp; try omega)

theorem getCode_set (d v : BitVec 32) (r : Bytes) : getCode d (setInt32 v ++ r) = (v, r) := by
  have e := get_setInt32 v r
  unfold getInt32 at e
  unfold getCode
  split at e
  · rename_i eq; rw [eq]; exact Option.some.inj e
  · cases e

theorem readObject_append (fc : FloatConv) (o : Obj) (hs : SendableObj fc o) :
    ∃ d, appendObj fc o = .ok d ∧ ∀ r, readObject fc (d ++ r) = .ok (o, r) := by
  obtain ⟨d, h1, _, h2⟩ := readObj_append fc o hs
  exact ⟨d, h1, fun r => h2 _ r (by simp)⟩

theorem empty_sendable (fc : FloatConv) : SendableObj fc emptyObj := by
  simp [emptyObj, SendableObj, SendableProps, SendableObjs, Name, PropList.count, ObjList.count]

theorem empty_travels (fc : FloatConv) : Travels fc emptyObj := by
  refine ⟨empty_sendable fc, by simp [emptyObj, propsOf, PropList.count], ?_⟩
  intro d h
  have : appendObj fc emptyObj = .ok (setString [] ++ (setInt32 0 ++ (setInt32 0 ++ ([] ++ (setInt32 0 ++ []))))) := rfl
  rw [this] at h
  simp only [Res.ok.injEq] at h
  subst h
  decide

/-- The provider reads what the caller wrote. -/
theorem serve_request (fc : FloatConv) (els : Elements) (parent state name : Bytes) (inp : Option Obj)
    (hn : Name name) (hl : name.length < 2 ^ 20) (hi : ∀ o, inp = some o → Travels fc o) :
    ∃ req, request fc name inp = .ok req ∧
      serve fc els (setMeta req methodRpc parent state) = handle fc els name (inp.getD emptyObj) := by
  have h0 := setInt32_le 0
  have h1 := setInt32_le 1
  have h2 := setString_le name
  cases inp with
  | none =>
    refine ⟨_, rfl, ?_⟩
    rw [setMeta_bytes _ _ _ _ (by simp only [List.length_append]; omega)]
    simp only [serve, List.append_assoc, get_setInt32, orUb, Res.ok_bind, getStringU_set name hn, getInt32Z_set]
    rfl
  | some o =>
    obtain ⟨d, hd, hr⟩ := readObject_append fc o (hi o rfl).1
    have hdl := (hi o rfl).2.2 d hd
    refine ⟨_, by simp only [request, hd, Res.ok_bind, Res.pure_eq]; rfl, ?_⟩
    rw [setMeta_bytes _ _ _ _ (by simp only [List.length_append]; omega)]
    simp only [serve, List.append_assoc, get_setInt32, orUb, Res.ok_bind, getStringU_set name hn, getInt32Z_set, hr]
    rfl

/-- The caller reads what the provider wrote. -/
theorem receive_respond (fc : FloatConv) (code : BitVec 32) (o : Obj) (hs : SendableObj fc o)
    (hl : ∀ d, appendObj fc o = .ok d → d.length < 2 ^ 30 + 1000) :
    ∃ m, respond fc code (some o) = .ok m ∧ receive fc (.inr m) = .ok ⟨returned code, o⟩ := by
  obtain ⟨d, hd, hr⟩ := readObject_append fc o hs
  have hdl := hl d hd
  have h0 := setInt32_le code
  refine ⟨_, by simp only [respond, hd, Res.ok_bind, Res.pure_eq]; rfl, ?_⟩
  rw [setMeta_bytes _ _ _ _ (by simp only [List.length_append]; omega)]
  simp only [receive, List.append_assoc, getCode_set, hr, Res.ok_bind, Res.pure_eq]

theorem getProp_eq (n : Bytes) (ps : PropList) : getProp n ps = (listed ps).lookup n := by
  match ps with
  | .nil => rfl
  | .cons m v r =>
    simp only [getProp, listed, List.lookup_cons, getProp_eq n r]
    by_cases h : m = n
    · simp [h]
    · have : (n == m) = false := by simpa using fun e => h e.symm
      simp [h, this]

theorem lookup_setProp_self (n : Bytes) (v : WVal) (ps : PropList) : (listed (setProp n v ps)).lookup n = some v := by
  match ps with
  | .nil => simp [setProp, listed]
  | .cons m w r =>
    by_cases h : m = n
    · simp [setProp, listed, h]
    · have : (n == m) = false := by simpa using fun e => h e.symm
      simp [setProp, listed, h, List.lookup_cons, this, lookup_setProp_self n v r]

theorem lookup_setProp_other (n k : Bytes) (hk : k ≠ n) (v : WVal) (ps : PropList) :
    (listed (setProp n v ps)).lookup k = (listed ps).lookup k := by
  match ps with
  | .nil =>
    have : (k == n) = false := by simpa using hk
    simp [setProp, listed, List.lookup_cons, this]
  | .cons m w r =>
    by_cases h : m = n
    · subst h
      have : (k == m) = false := by simpa using hk
      simp [setProp, listed, List.lookup_cons, this]
    · simp [setProp, listed, h, List.lookup_cons, lookup_setProp_other n k hk v r]

theorem count_setProp (n : Bytes) (v : WVal) (ps : PropList) : (setProp n v ps).count ≤ ps.count + 1 := by
  match ps with
  | .nil => simp [setProp, PropList.count]
  | .cons m w r =>
    have := count_setProp n v r
    by_cases h : m = n <;> simp [setProp, PropList.count, h] <;> omega

theorem sendable_setProp (fc : FloatConv) (n : Bytes) (v : WVal) (hn : Name n) (hv : SendableVal fc v)
    (ps : PropList) (hs : SendableProps fc ps) : SendableProps fc (setProp n v ps) := by
  match ps with
  | .nil => exact ⟨hn, hv, trivial⟩
  | .cons m w r =>
    obtain ⟨a, b, c⟩ := hs
    by_cases h : m = n
    · simp only [setProp, if_pos h]; exact ⟨a, hv, c⟩
    · simp only [setProp, if_neg h]; exact ⟨a, b, sendable_setProp fc n v hn hv r c⟩

theorem length_setProp (fc : FloatConv) (n : Bytes) (v : WVal) (dv : Bytes) (hv : appendVal fc v = .ok dv)
    (ps : PropList) (d : Bytes) (hd : appendProps fc ps = .ok d) :
    ∃ d', appendProps fc (setProp n v ps) = .ok d' ∧ d'.length ≤ d.length + (setString n).length + dv.length := by
  match ps with
  | .nil =>
    refine ⟨setString n ++ (dv ++ []), ?_, by simp⟩
    simp only [setProp, appendProps, hv, Res.ok_bind, Res.pure_eq]
  | .cons m w r =>
    simp only [appendProps] at hd
    obtain ⟨dw, h1, hd⟩ := res_bind_ok hd
    obtain ⟨dr, h2, hd⟩ := res_bind_ok hd
    simp only [Res.pure_eq, Res.ok.injEq] at hd
    subst hd
    by_cases h : m = n
    · refine ⟨setString m ++ (dv ++ dr), ?_, by simp; omega⟩
      simp only [setProp, if_pos h, appendProps, hv, h2, Res.ok_bind, Res.pure_eq]
    · obtain ⟨d', h3, h4⟩ := length_setProp fc n v dv hv r dr h2
      refine ⟨setString m ++ (dw ++ d'), ?_, by simp; omega⟩
      simp only [setProp, if_neg h, appendProps, h1, h3, Res.ok_bind, Res.pure_eq]

/-- An object with the error noted can be sent. -/
theorem setError_travels (fc : FloatConv) (code : BitVec 32) (text : Bytes) (o : Obj) (ht : Travels fc o)
    (h0 : (0 : UInt8) ∉ text) (hl : text.length < 100) :
    SendableObj fc (setError code text o) ∧
      ∀ d, appendObj fc (setError code text o) = .ok d → d.length < 2 ^ 30 + 1000 := by
  obtain ⟨n, t, ps, cs⟩ := o
  obtain ⟨⟨s1, s2, s3, s4, s5⟩, c1, c2⟩ := ht
  simp only [propsOf] at c1
  constructor
  · refine ⟨s1, ?_, ?_, s4, s5⟩
    · have a := count_setProp errorCode (.scalar (.int32 code)) ps
      have b := count_setProp errorString (.scalar (.string (some text))) (setProp errorCode (.scalar (.int32 code)) ps)
      omega
    · have a : Name errorString := ⟨by decide, by decide⟩
      have b : Name errorCode := ⟨by decide, by decide⟩
      have c : Name text := ⟨h0, by omega⟩
      refine sendable_setProp fc _ _ a (by simpa [SendableVal, SendableScalar] using c) _ ?_
      exact sendable_setProp fc _ _ b (by simp [SendableVal, SendableScalar]) _ s3
  · intro d hd
    obtain ⟨d0, e0, _⟩ := readObj_append fc (.mk n t ps cs) ⟨s1, s2, s3, s4, s5⟩
    have hd0 := c2 d0 e0
    simp only [appendObj] at e0
    obtain ⟨dp, e1, e0⟩ := res_bind_ok e0
    obtain ⟨dc, e2, e0⟩ := res_bind_ok e0
    simp only [Res.pure_eq, Res.ok.injEq] at e0
    subst e0
    obtain ⟨d1, f1, g1⟩ := length_setProp fc errorCode (.scalar (.int32 code)) _ rfl ps dp e1
    obtain ⟨d2, f2, g2⟩ := length_setProp fc errorString (.scalar (.string (some text))) _ rfl _ d1 f1
    simp only [setError, appendObj, f2, e2, Res.ok_bind, Res.pure_eq, Res.ok.injEq] at hd
    subst hd
    have a1 := setString_le errorCode
    have a2 := setString_le errorString
    have a3 := setInt32_le (BitVec.ofNat 32 Ty.int32.code)
    have a4 := setInt32_le (BitVec.ofNat 32 Ty.string.code)
    have a5 := setInt32_le code
    have a6 := setBytes_le (text ++ [0])
    have a7 : errorCode.length = 10 := rfl
    have a8 : errorString.length = 12 := rfl
    have a9 := setInt32_le (BitVec.ofNat 32
      (setProp errorString (.scalar (.string (some text))) (setProp errorCode (.scalar (.int32 code)) ps)).count)
    simp only [List.length_append, Scalar.ty, List.length_cons, List.length_nil] at *
    omega

theorem lookup_ne {n : String} {k : String} (h : n ≠ k) : n.toUTF8.data.toList ≠ k.toUTF8.data.toList := by
  intro e
  apply h
  have e : n.toUTF8.data = k.toUTF8.data := Array.toList_inj.mp e
  have e : n.toUTF8 = k.toUTF8 := by
    cases hn : n.toUTF8; cases hk : k.toUTF8
    rw [hn, hk] at e
    simp only at e
    rw [e]
  exact String.toByteArray_inj.mp e

theorem setError_noted (code : BitVec 32) (text : Bytes) (o : Obj) (h : valueOf o "error_code" = none) :
    Noted code text o (setError code text o) := by
  obtain ⟨n, t, ps, cs⟩ := o
  refine ⟨rfl, rfl, rfl, fun e => absurd h e, fun _ => ?_, fun _ => ?_, fun k h1 h2 => ?_⟩
  · show (listed (setProp errorString _ (setProp errorCode _ ps))).lookup errorCode = _
    rw [lookup_setProp_other _ _ (by decide), lookup_setProp_self]
  · show (listed (setProp errorString _ (setProp errorCode _ ps))).lookup errorString = _
    rw [lookup_setProp_self]
  · show (listed (setProp errorString _ (setProp errorCode _ ps))).lookup _ = (listed ps).lookup _
    rw [lookup_setProp_other errorString _ (lookup_ne h2), lookup_setProp_other errorCode _ (lookup_ne h1)]

theorem complete_noted (code : BitVec 32) (hc : code ≠ 0) (o : Obj) :
    Noted code (errorText code) o (complete code o) := by
  obtain ⟨n, t, ps, cs⟩ := o
  have e : valueOf (.mk n t ps cs) "error_code" = getProp errorCode ps := (getProp_eq _ _).symm
  simp only [complete, if_neg hc]
  split
  · rename_i v hv
    have h : valueOf (.mk n t ps cs) "error_code" = some v := by rw [e, hv]
    exact ⟨rfl, rfl, rfl, fun _ => rfl, fun x => by simp [h] at x, fun x => by simp [h] at x, fun _ _ _ => rfl⟩
  · rename_i hv
    exact setError_noted _ _ _ (by rw [e, hv])

theorem errorText_props (code : BitVec 32) : (0 : UInt8) ∉ errorText code ∧ (errorText code).length < 100 := by
  unfold errorText
  split <;> decide

theorem complete_travels (fc : FloatConv) (code : BitVec 32) (o : Obj) (ht : Travels fc o) :
    SendableObj fc (complete code o) ∧ ∀ d, appendObj fc (complete code o) = .ok d → d.length < 2 ^ 30 + 1000 := by
  have base : SendableObj fc o ∧ ∀ d, appendObj fc o = .ok d → d.length < 2 ^ 30 + 1000 :=
    ⟨ht.1, fun d h => by have := ht.2.2 d h; omega⟩
  obtain ⟨n, t, ps, cs⟩ := o
  simp only [complete]
  split
  · exact base
  · split
    · exact base
    · exact setError_travels fc code _ _ ht (errorText_props code).1 (errorText_props code).2

theorem returned_small (code : BitVec 32) (h : code.toNat ≤ 100) : returned code = code := by
  unfold returned
  rw [if_neg (by omega)]

theorem call_delivered (fc : FloatConv) (els : Elements) (parent state name : Bytes) (inp : Option Obj)
    (hn : Name name) (hl : name.length < 2 ^ 20) (hi : ∀ o, inp = some o → Travels fc o)
    (called : Option (Bytes × Obj)) (m : Bytes) (r : Reply)
    (hh : handle fc els name (inp.getD emptyObj) = .ok ⟨called, some m⟩) (hr : receive fc (.inr m) = .ok r) :
    call fc els .delivered parent state name inp = .ok (called, r) := by
  obtain ⟨req, h1, h2⟩ := serve_request fc els parent state name inp hn hl hi
  simp only [call, h1, h2, hh, hr, Res.ok_bind, Res.pure_eq]

end Verif.Method
