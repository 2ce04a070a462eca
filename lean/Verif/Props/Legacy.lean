import Verif.Proof.Legacy

/-!
# C95: Values sent by older components
-/

namespace Verif.Props

open Verif Verif.Message Verif.Value Verif.Wire Verif.Legacy Verif.Spec.Legacy Verif.Spec.Text
open Verif.SetGet (SetRequest saysTrue)
open Verif.Method (str)

/-- A value sent by an older component, or by one of now, is what `rbus_get` gives: with success, and as a value of the
type and with the content that its text means. Missing: texts that mean no value, and the type BASE64. -/
theorem C95_get_partial {L : Libs} (g : Good L) {n : Bytes} (hn : Name n) {p : Param} (hp : p.Fit L) (ok : BitVec 32)
    (hok : ok = 0 ∨ ok = 100) :
    ∃ d w, p.bytes L = .ok d ∧ p.Is w ∧
      ∀ rest, takeGet L n (setInt32 ok ++ (setInt32 1 ++ (setString n ++ (d ++ rest)))) = .ok (0, some w) := by
  obtain ⟨d, w, h1, h2, h3⟩ := Proof.Legacy.readParam g hp
  refine ⟨d, w, h1, h2, fun rest => ?_⟩
  have hr : SetGet.readCode ok = 0 := by rcases hok with rfl | rfl <;> decide
  simp only [takeGet, Method.getCode_set, hr, if_true, Proof.Legacy.getStringP_set n hn, Res.ok_bind, h3, Res.pure_eq]

/-- The machine and library of the examples. -/
private theorem aLibs : ∃ L, Good L := by
  obtain ⟨rs, hs⟩ := FloatText.single_correct
  obtain ⟨rd, hd⟩ := FloatText.double_correct
  exact ⟨⟨64, ⟨fun _ => 0, fun _ => 0⟩, rs, rd, ⟨fun _ => (0, 0), 0⟩⟩, Or.inr rfl, hs, hd⟩

example : (∃ L, Good L) ∧ Name (str "Device.X") ∧ ∀ L, (Param.old .int (str " -7")).Fit L := by
  refine ⟨aLibs, ⟨by decide, by decide⟩, fun L => ⟨⟨by decide, by decide⟩, -7, ?_, by decide, by decide⟩⟩
  refine ⟨[32], [45], [55], 7, rfl, by simp [Blank], ?_, Or.inr ⟨rfl, rfl⟩⟩
  exact ⟨by simp, [7], by simp [digitOf], by simp, by simp [number]⟩

/-- The values of several parameters, of components old and new, arrive in order, with their names, each as what its
text means. Missing: texts that mean no value, and the type BASE64. -/
theorem C95_get_ext_partial {L : Libs} (g : Good L) {l : List (Bytes × Param)} (hl : l.length < 2 ^ 31)
    (h : ∀ x ∈ l, Name x.1 ∧ x.2.Fit L) (ok : BitVec 32) (hok : ok = 0 ∨ ok = 100) :
    ∃ d ps, listBytes L l = .ok d ∧ Same l ps ∧
      ∀ rest, takeGetExt L (setInt32 ok ++ (setInt32 (BitVec.ofNat 32 l.length) ++ (d ++ rest))) = .ok (0, ps) := by
  obtain ⟨d, ps, h1, h2, h3⟩ := Proof.Legacy.readList g l h
  refine ⟨d, ps, h1, h2, fun rest => ?_⟩
  have hr : SetGet.readCode ok = 0 := by rcases hok with rfl | rfl <;> decide
  simp only [takeGetExt, Method.getCode_set, hr, if_true, getInt32Z_set, toInt_small hl, h3, Res.ok_bind, Res.pure_eq]

example (L : Libs) : ∀ x ∈ ([(str "A.B", .old .string (str "x y")), (str "A.C", .new (.scalar (.int32 5))),
    (str "A.D", .old .boolean (str "TRUE"))] : List (Bytes × Param)), Name x.1 ∧ x.2.Fit L := by
  intro x hx
  simp only [List.mem_cons, List.not_mem_nil, or_false] at hx
  rcases hx with rfl | rfl | rfl
  · exact ⟨⟨by decide, by decide⟩, ⟨by decide, by decide⟩, trivial⟩
  · exact ⟨⟨by decide, by decide⟩, trivial⟩
  · exact ⟨⟨by decide, by decide⟩, ⟨by decide, by decide⟩, true, Or.inl (by decide +kernel)⟩

/-- A set request, of a component old or new, reaches the provider's handlers with all its parameters, each as what its
text means. Missing: texts that mean no value, and the type BASE64. -/
theorem C95_set_partial {L : Libs} (g : Good L) {l : List (Bytes × Param)} (h0 : l ≠ []) (hl : l.length < 2 ^ 31)
    (h : ∀ x ∈ l, Name x.1 ∧ x.2.Fit L) (session rollBack : BitVec 32) {requester commit : Bytes} (hr : Name requester)
    (hc : Name commit) :
    ∃ d ps, listBytes L l = .ok d ∧ Same l ps ∧
      ∀ rest, takeSet L (setInt32 session ++ (setString requester ++ (setInt32 rollBack ++
          (setInt32 (BitVec.ofNat 32 l.length) ++ (d ++ (setString commit ++ rest)))))) =
        .ok (.inr ⟨session, requester, decide (rollBack = 1), ps, saysTrue commit⟩) := by
  obtain ⟨d, ps, h1, h2, h3⟩ := Proof.Legacy.readList g l h
  refine ⟨d, ps, h1, h2, fun rest => ?_⟩
  have hpos : 0 < l.length := List.length_pos_iff.mpr h0
  have hn : (BitVec.ofNat 32 l.length).toInt.toNat = l.length := toInt_small hl
  have hp : 0 < (BitVec.ofNat 32 l.length).toInt := by omega
  simp only [takeSet, getInt32Z_set, getStringN_set requester hr, Res.ok_bind, hn, h3, getStringU_set commit hc,
    Res.pure_eq, if_true, if_pos hp]

example : Name (str "TRUE") ∧ saysTrue (str "TRUE") = true := ⟨⟨by decide, by decide⟩, by decide⟩

/-- A value of now is never taken for one of an older component: whatever `rbusValue_appendToMessage` writes is read back
as it was. -/
theorem C95_not_confused {L : Libs} {v : WVal} (hv : SendableVal L.conv v) :
    ∃ d, appendVal L.conv v = .ok d ∧ ∀ rest, Legacy.readValue L (d ++ rest) = .ok (true, v, rest) :=
  Proof.Legacy.readValue_new L v hv

example (L : Libs) : SendableVal L.conv (.scalar (.string (some (str "7")))) := ⟨by decide, by decide⟩

/-- What is read from a text that is a string, a boolean or a whole number is what the text means: nothing is made up.
Missing: numbers without sign whose text has blanks and a minus sign (`C44_blank_fails`), and the other types. -/
theorem C95_nothing_else_partial {L : Libs} (g : Good L) {k : Kind}
    (hk : k = .string ∨ k = .boolean ∨ k = .int ∨ k = .unsignedInt ∨ k = .long ∨ k = .unsignedLong ∨ k = .nothing)
    {s : Bytes}
    (hs : Name s) (hb : k = .unsignedInt ∨ k = .unsignedLong → ¬ BlankMinus s) {w : WVal} {r r' : Bytes}
    (h : Legacy.readValue L (setInt32 (BitVec.ofNat 32 k.code) ++ setString s ++ r) = .ok (true, w, r')) :
    r' = r ∧ ∃ v, w = .scalar v ∧ Means k s v := by
  rw [Proof.Legacy.readValue_old L k hs r] at h
  cases hp : parse L k.code (some s) with
  | none => rw [hp] at h; cases h
  | some v =>
    rw [hp] at h
    cases h
    refine ⟨rfl, v, rfl, ?_⟩
    have num : ∀ ty : Text.IntTy, (noSign ty = true → ¬ BlankMinus s) →
        Text.setFromString L.long (tyOf ty) s = some v → ∃ z, Denotes (prefixes ty) s z ∧ held ty v = some z := by
      intro ty hns hv
      obtain ⟨z, h1, rfl⟩ := (Text.set_iff ty).1 hv
      obtain ⟨h2, h3, h4⟩ := (Text.parse_iff g.long ty s z hns).1 h1
      exact ⟨z, h2, Text.held_put h3 h4⟩
    rcases hk with rfl | rfl | rfl | rfl | rfl | rfl | rfl
    · exact (Option.some.inj hp).symm
    · have h1 : "true".toUTF8.data.toList = [116, 114, 117, 101] := by decide +kernel
      have h2 : "false".toUTF8.data.toList = [102, 97, 108, 115, 101] := by decide +kernel
      have h3 : "1".toUTF8.data.toList = [49] := by decide +kernel
      have h4 : "0".toUTF8.data.toList = [48] := by decide +kernel
      replace hp : Text.setFromString L.long .boolean s = some v := hp
      simp only [Text.setFromString] at hp
      by_cases ht : s.map Text.lower = [116, 114, 117, 101] ∨ s = [49]
      · rw [if_pos ht] at hp
        cases hp
        exact ⟨true, by simpa only [Says, if_true, h1, h3] using ht, rfl⟩
      · rw [if_neg ht] at hp
        by_cases hf : s.map Text.lower = [102, 97, 108, 115, 101] ∨ s = [48]
        · rw [if_pos hf] at hp
          cases hp
          exact ⟨false, by simpa only [Says, Bool.false_eq_true, if_false, h2, h4] using hf, rfl⟩
        · rw [if_neg hf] at hp
          cases hp
    · exact num .int32 (fun h => by cases h) hp
    · exact num .uint32 (fun _ => hb (Or.inl rfl)) hp
    · exact num .int64 (fun h => by cases h) hp
    · exact num .uint64 (fun _ => hb (Or.inr rfl)) hp
    · cases hp

example (L : Libs) : Legacy.readValue L (setInt32 (BitVec.ofNat 32 Kind.boolean.code) ++ setString (str "True") ++ [1, 2])
    = .ok (true, .scalar (.boolean true), [1, 2]) := by
  rw [Proof.Legacy.readValue_old L .boolean ⟨by decide, by decide⟩]
  rfl

/-- A text that means nothing leaves a value without a type, and what follows is read on. -/
private theorem unreadable {L : Libs} (g : Good L) {k : Kind}
    (hk : k = .boolean ∨ k = .int ∨ k = .unsignedInt ∨ k = .long ∨ k = .unsignedLong ∨ k = .nothing) {s : Bytes}
    (hs : Name s) (hb : k = .unsignedInt ∨ k = .unsignedLong → ¬ BlankMinus s) (hm : ∀ v, ¬ Means k s v) (r : Bytes) :
    Legacy.readValue L (setInt32 (BitVec.ofNat 32 k.code) ++ setString s ++ r) = .ok (false, .scalar .none, r) := by
  have hx := Proof.Legacy.readValue_old L k hs r
  cases hp : parse L k.code (some s) with
  | none => rw [hp] at hx; exact hx
  | some v =>
    rw [hp] at hx
    obtain ⟨_, v', _, hv⟩ := C95_nothing_else_partial g (Or.inr hk) hs hb hx
    exact absurd hv (hm v')

/-- A set request whose only, or last, parameter has a text that means no whole number or boolean is refused with
RBUS_ERROR_INVALID_INPUT, and reaches no handler. Missing: a text like this before the last parameter
(`C95_set_earlier_fails`). -/
theorem C95_set_refused_partial {L : Libs} (g : Good L) {k : Kind}
    (hk : k = .boolean ∨ k = .int ∨ k = .unsignedInt ∨ k = .long ∨ k = .unsignedLong ∨ k = .nothing) {n s : Bytes}
    (hn : Name n) (hs : Name s) (hb : k = .unsignedInt ∨ k = .unsignedLong → ¬ BlankMinus s) (hm : ∀ v, ¬ Means k s v)
    {l : List (Bytes × Param)} (hl : l.length + 1 < 2 ^ 31) (h : ∀ x ∈ l, Name x.1 ∧ x.2.Fit L)
    (session rollBack : BitVec 32) {requester : Bytes} (hr : Name requester) :
    ∃ d, listBytes L (l ++ [(n, .old k s)]) = .ok d ∧
      ∀ rest, takeSet L (setInt32 session ++ (setString requester ++ (setInt32 rollBack ++
          (setInt32 (BitVec.ofNat 32 (l.length + 1)) ++ (d ++ rest))))) = .ok (.inl 2) := by
  have hbad := unreadable g hk hs hb hm
  have key : ∀ l : List (Bytes × Param), (∀ x ∈ l, Name x.1 ∧ x.2.Fit L) →
      ∃ d, listBytes L (l ++ [(n, .old k s)]) = .ok d ∧
        ∀ r, ∃ ps, readProperties L (l.length + 1) (d ++ r) = .ok (false, ps, r) := by
    intro l
    induction l with
    | nil =>
      intro _
      refine ⟨setString n ++ (setInt32 (BitVec.ofNat 32 k.code) ++ setString s ++ []), rfl, fun r => ?_⟩
      refine ⟨[(n, .scalar .none)], ?_⟩
      have hx := hbad r
      simp only [List.append_assoc] at hx
      simp only [List.length_nil, readProperties, readProperty, List.append_assoc, getStringU_set n hn,
        Res.ok_bind, List.nil_append, hx, Res.pure_eq, if_true]
    | cons x l ih =>
      intro hx
      obtain ⟨m, p⟩ := x
      obtain ⟨hm', hp⟩ := hx (m, p) (by simp)
      obtain ⟨d, w, h1, _, h3⟩ := Proof.Legacy.readParam g hp
      obtain ⟨e, h4, h5⟩ := ih (fun y hy => hx y (by simp [hy]))
      refine ⟨setString m ++ (d ++ e), ?_, fun r => ?_⟩
      · simp only [List.cons_append, listBytes, h1, h4, Res.ok_bind, Res.pure_eq]
      · obtain ⟨ps, h6⟩ := h5 r
        refine ⟨(m, w) :: ps, ?_⟩
        rw [List.length_cons, readProperties]
        simp only [readProperty, List.append_assoc, getStringU_set m hm', Res.ok_bind, h3, Res.pure_eq, h6]
        rw [if_neg (by omega)]
  obtain ⟨d, h1, h2⟩ := key l h
  refine ⟨d, h1, fun rest => ?_⟩
  obtain ⟨ps, h3⟩ := h2 rest
  have hn' : (BitVec.ofNat 32 (l.length + 1)).toInt.toNat = l.length + 1 := toInt_small hl
  have hp : 0 < (BitVec.ofNat 32 (l.length + 1)).toInt := by omega
  simp only [takeSet, getInt32Z_set, getStringN_set requester hr, Res.ok_bind, hn', h3, Res.pure_eq, if_pos hp,
    Bool.false_eq_true, if_false]

example : ∀ v, ¬ Means .boolean (str "yes") v := by
  rintro v ⟨b, h, _⟩
  cases b <;> revert h <;> simp only [Says] <;> decide +kernel

/-- `rbus_get` and `rbus_getExt` do not tell when a text means no value: they return RBUS_ERROR_SUCCESS, with a value
without a type. -/
theorem C95_get_refused_fails {L : Libs} (g : Good L) {k : Kind}
    (hk : k = .boolean ∨ k = .int ∨ k = .unsignedInt ∨ k = .long ∨ k = .unsignedLong ∨ k = .nothing) {n s : Bytes}
    (hn : Name n) (hs : Name s) (hb : k = .unsignedInt ∨ k = .unsignedLong → ¬ BlankMinus s)
    (hm : ∀ v, ¬ Means k s v) (rest : Bytes) :
    takeGet L n (setInt32 100 ++ (setInt32 1 ++ (setString n ++
      (setInt32 (BitVec.ofNat 32 k.code) ++ setString s ++ rest)))) = .ok (0, some (.scalar .none)) ∧
    takeGetExt L (setInt32 100 ++ (setInt32 1 ++ (setString n ++
      (setInt32 (BitVec.ofNat 32 k.code) ++ setString s ++ rest)))) = .ok (0, [(n, .scalar .none)]) := by
  have hr : SetGet.readCode 100 = 0 := by decide
  have h1 : (1 : BitVec 32).toInt.toNat = 1 := by decide
  constructor
  · simp only [takeGet, Method.getCode_set, hr, if_true, Proof.Legacy.getStringP_set n hn, Res.ok_bind,
      unreadable g hk hs hb hm rest, Res.pure_eq]
  · simp only [takeGetExt, Method.getCode_set, hr, if_true, getInt32Z_set, h1, readProperties, readProperty,
      getStringU_set n hn, Res.ok_bind, unreadable g hk hs hb hm rest, Res.pure_eq]

example : (∀ v, ¬ Means .nothing [] v) ∧ ∀ v, ¬ Means .int (str "x") v := by
  refine ⟨fun _ h => h, ?_⟩
  rintro v ⟨z, ⟨bl, sg, ds, n, h1, hb, hu, hs⟩, _⟩
  obtain ⟨h2, vs, h3, -⟩ := (hu : Numeral 10 ds n)
  have hx : ds = [120] := by
    have hl : (bl ++ sg ++ ds).length = 1 := by rw [← h1]; rfl
    have hd : ds.length ≠ 0 := by simpa using h2
    simp only [List.length_append] at hl
    have e1 : bl = [] := List.length_eq_zero_iff.mp (by omega)
    have e2 : sg = [] := List.length_eq_zero_iff.mp (by omega)
    subst e1; subst e2
    exact h1.symm
  subst hx
  cases vs with
  | nil => cases h3
  | cons a l => exact absurd (List.cons.inj h3).1 (by simp [digitOf])

/-- A set request of two parameters, the first with the text `12x` for a number and the second as it should be, is not
refused: the handler of the first is to be called with a value without a type. -/
theorem C95_set_earlier_fails {L : Libs} (hL : L.long = 64) (rest : Bytes) :
    takeSet L (setInt32 0 ++ (setString (str "old") ++ (setInt32 0 ++ (setInt32 2 ++
      (setString (str "A.X") ++ (setInt32 1 ++ setString (str "12x") ++
        (setString (str "A.Y") ++ (setInt32 1 ++ setString (str "7") ++ (setString (str "TRUE") ++ rest))))))))) =
      .ok (.inr ⟨0, str "old", false, [(str "A.X", .scalar .none), (str "A.Y", .scalar (.int32 7))], true⟩) := by
  have name : ∀ s : Bytes, ((0 : UInt8) ∉ s ∧ s.length + 1 < 2 ^ 32) → Name s := fun _ h => h
  have h1 : ∀ r, Legacy.readValue L (setInt32 1 ++ setString (str "12x") ++ r) = .ok (false, .scalar .none, r) := by
    intro r
    have hx := Proof.Legacy.readValue_old L .int (name (str "12x") ⟨by decide, by decide⟩) r
    have hp : parse L Kind.int.code (some (str "12x")) = none := by
      show Text.setFromString L.long .int32 (str "12x") = none
      rw [hL]
      decide +kernel
    rw [hp] at hx
    exact hx
  have h2 : ∀ r, Legacy.readValue L (setInt32 1 ++ setString (str "7") ++ r) = .ok (true, .scalar (.int32 7), r) := by
    intro r
    have hx := Proof.Legacy.readValue_old L .int (name (str "7") ⟨by decide, by decide⟩) r
    have hp : parse L Kind.int.code (some (str "7")) = some (.int32 7) := by
      show Text.setFromString L.long .int32 (str "7") = some (.int32 7)
      rw [hL]
      decide +kernel
    rw [hp] at hx
    exact hx
  have hn : (2 : BitVec 32).toInt = 2 := by decide
  simp only [takeSet, getInt32Z_set, getStringN_set (str "old") (name _ ⟨by decide, by decide⟩), Res.ok_bind, hn]
  rw [if_pos (by omega)]
  show ((do
    let (ok, ps, bs) ← readProperties L 2 _
    if ok then do
      let (c, _) ← getStringU bs
      pure (.inr ⟨0, str "old", _, ps, saysTrue c⟩)
    else pure (.inl 2)) : Res (BitVec 32 ⊕ SetRequest)) = _
  simp only [readProperties, readProperty, getStringU_set (str "A.X") (name _ ⟨by decide, by decide⟩), h1, Res.ok_bind,
    getStringU_set (str "A.Y") (name _ ⟨by decide, by decide⟩), h2, Res.pure_eq, if_true,
    getStringU_set (str "TRUE") (name _ ⟨by decide, by decide⟩)]
  rfl

/-- Data that an older component sends as BASE64 does not arrive as those data, but as the characters of the text. -/
theorem C95_base64_fails (L : Libs) (s : Bytes) (hs : Name s) (r : Bytes) :
    Legacy.readValue L (setInt32 (BitVec.ofNat 32 Kind.base64.code) ++ setString s ++ r)
      = .ok (true, .scalar (.bytes (some s)), r) := by
  rw [Proof.Legacy.readValue_old L .base64 hs r]
  rfl

/-- The text `AAEC` of the bytes 0, 1, 2. -/
example : Name (str "AAEC") := ⟨by decide, by decide⟩

end Verif.Props
