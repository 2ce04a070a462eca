import Verif.Proof.Wire
import Verif.Proof.Meta
import Verif.Spec.Filter

/-!
# C06, C09, C10, C11, C55: what is sent in a message is what is read from it
-/

namespace Verif.Props

open Verif Verif.Message Verif.Value Verif.Filter Verif.Wire

/-- Conversions satisfying the exactness IEEE 754 requires, for the examples. -/
def someConv : FloatConv := { widen := fun v => v.setWidth 64, narrow := fun v => v.setWidth 32 }

/-! ## C09 -/

/-- C09, for values. Appending a value gives bytes from which, whatever follows them, exactly this
value is read, leaving exactly what follows. (Missing: NULL text, NULL bytes and NULL objects inside
a value, see the three theorems below.) -/
theorem C09_value_round_trip_partial (fc : FloatConv) (v : WVal) (hv : SendableVal fc v) :
    ∃ d, appendVal fc v = .ok d ∧ ∀ rest, readValue fc (d ++ rest) = .ok (v, rest) := by
  obtain ⟨d, h1, _, h2⟩ := readVal_append fc v hv
  exact ⟨d, h1, fun rest => h2 _ rest (by simp)⟩

/-- C09, for objects with properties and children to any depth. -/
theorem C09_object_round_trip_partial (fc : FloatConv) (o : Obj) (ho : SendableObj fc o) :
    ∃ d, appendObj fc o = .ok d ∧ ∀ rest, readObject fc (d ++ rest) = .ok (o, rest) := by
  obtain ⟨d, h1, _, h2⟩ := readObj_append fc o ho
  exact ⟨d, h1, fun rest => h2 _ rest (by simp)⟩

/-- C09, for property lists. -/
theorem C09_property_list_round_trip_partial (fc : FloatConv) (ps : PropList)
    (hn : ps.count < 2 ^ 31) (hp : SendableProps fc ps) :
    ∃ d, appendPropList fc ps = .ok d ∧ ∀ rest, readPropList fc (d ++ rest) = .ok (ps, rest) := by
  obtain ⟨d, h1, h2⟩ := readProps_append fc ps hp
  refine ⟨_, by simp only [appendPropList, h1, Res.ok_bind, Res.pure_eq]; rfl, fun rest => ?_⟩
  simp only [readPropList, List.append_assoc, getInt32Z_set, toInt_small hn]
  exact h2 _ rest (by simp)

private def demoObj : Obj :=
  .mk [65] true
    (.cons [66] (.scalar (.int16 (-5)))
      (.cons [67] (.props (.cons [68] (.scalar (.string (some [104, 105]))) .nil))
        (.cons [69] (.obj (.mk [70] false .nil .nil)) .nil)))
    (.cons (.mk [71] false (.cons [72] (.scalar (.uint32 0xFFFFFFFF)) .nil) .nil) .nil)

example : SendableObj someConv demoObj := by
  simp [SendableObj, SendableObjs, SendableProps, SendableVal, SendableScalar, Name, demoObj,
    PropList.count, ObjList.count]

/-- C09 fails for a value holding a NULL object: what follows it is read as that object. Here a
property list of two, a NULL object and a number, is read as something else. -/
theorem C09_null_object_fails :
    ∃ ps, ps = PropList.cons [65] .nullObj (.cons [66] (.scalar (.int32 7)) .nil) ∧
      ∃ d, appendPropList someConv ps = .ok d ∧
        ∀ rest, readPropList someConv (d ++ rest) ≠ .ok (ps, rest) := by
  refine ⟨_, rfl, setInt32 (BitVec.ofNat 32 2) ++ (setString [65] ++
    (setInt32 (BitVec.ofNat 32 Ty.object.code) ++ (setString [66] ++
      (setInt32 (BitVec.ofNat 32 Ty.int32.code) ++ setInt32 7 ++ [])))), rfl, ?_⟩
  intro rest h
  have hn : Name [65] := by simp [Name]
  have hn2 : Name [66] := by simp [Name]
  simp only [readPropList, List.append_assoc, getInt32Z_set] at h
  simp only [show (BitVec.ofNat 32 2).toInt.toNat = 2 by rfl] at h
  simp only [List.length_append] at h
  have hpos := setString_pos [65]
  generalize hlen : (setString [65]).length + _ = n at h
  obtain ⟨k, hk⟩ : ∃ k, n = k + 1 := ⟨n - 1, by omega⟩
  clear hlen
  subst hk
  simp only [readProps, getStringU_set [65] hn, Res.ok_bind] at h
  cases k with
  | zero => simp [readVal] at h
  | succ k =>
    simp only [readVal, get_setInt32, orUb, Res.ok_bind, code_toNat,
      show Ty.ofCode Ty.object.code = some .object from rfl] at h
    generalize readObj someConv k _ = hr at h
    cases hr with
    | fail => simp at h
    | ub => simp at h
    | ok q =>
      simp only [Res.ok_bind, Res.pure_eq] at h
      generalize readProps someConv (k + 1) 1 q.2 = w at h
      cases w with
      | fail => simp at h
      | ub => simp at h
      | ok w => simp at h

/-- C09 fails for values set to NULL text or NULL bytes: sending them reads through NULL. -/
theorem C09_null_text_fails (fc : FloatConv) :
    appendVal fc (.scalar (.string Option.none)) = .ub ∧
    appendVal fc (.scalar (.bytes Option.none)) = .ub := ⟨rfl, rfl⟩

/-! ## C06 -/

/-- C06. Every filter that can be sent is read back as the same filter, whatever follows it in the
message, and what follows is left to be read. -/
theorem C06_filter_wire_round_trip (fc : FloatConv) (f : Filter) (hf : SendableFilter fc f) :
    ∃ d, appendFilter fc f = .ok d ∧
      ∀ rest, readFilter fc (d ++ rest).length (d ++ rest) = .ok (f, rest) := by
  obtain ⟨d, h1, _, h2⟩ := readFilter_append fc f hf
  exact ⟨d, h1, fun rest => h2 _ rest (by simp)⟩

/-- Every expression a user can build from sendable values is such a filter. -/
theorem C06_expressions_sendable (fc : FloatConv) (e : Expr)
    (h : ∀ v ∈ e.bounds, SendableScalar fc v) : SendableFilter fc e.build := by
  induction e with
  | gt v => exact ⟨by decide, h v (by simp [Expr.bounds])⟩
  | ge v => exact ⟨by decide, h v (by simp [Expr.bounds])⟩
  | lt v => exact ⟨by decide, h v (by simp [Expr.bounds])⟩
  | le v => exact ⟨by decide, h v (by simp [Expr.bounds])⟩
  | eq v => exact ⟨by decide, h v (by simp [Expr.bounds])⟩
  | ne v => exact ⟨by decide, h v (by simp [Expr.bounds])⟩
  | and l r ihl ihr =>
    exact ⟨by decide, ihl (fun v hv => h v (by simp [Expr.bounds, hv])),
      ihr (fun v hv => h v (by simp [Expr.bounds, hv])),
      fun h => absurd h (by decide)⟩
  | or l r ihl ihr =>
    exact ⟨by decide, ihl (fun v hv => h v (by simp [Expr.bounds, hv])),
      ihr (fun v hv => h v (by simp [Expr.bounds, hv])),
      fun h => absurd h (by decide)⟩
  | not e ih => exact ⟨by decide, ih (fun v hv => h v (by simpa [Expr.bounds] using hv)), trivial, fun _ => rfl⟩

example : SendableFilter someConv
    (Expr.build (.and (.gt (.int32 5)) (.not (.eq (.string (some [104, 105])))))) := by
  simp [Expr.build, SendableFilter, SendableScalar, Name, opAND, opNOT, opGT, opEQ]

/-! ## C10 -/

/-- C10. An event is read back by the consumer exactly as the provider sent it: name, type, data,
filter, and all 32 bits of interval, duration and component id. -/
theorem C10_event_round_trip (fc : FloatConv) (e : Event) (hn : Name e.name)
    (hd : ∀ o, e.data = some o → SendableObj fc o) (hf : SendableFilter fc e.filter) :
    ∃ d, appendEvent fc e = .ok d ∧ ∀ rest, readEvent fc (d ++ rest) = .ok (e, rest) :=
  readEvent_append fc e hn hd hf

example : ∃ e : Event, Name e.name ∧ (∀ o, e.data = some o → SendableObj someConv o) ∧
    SendableFilter someConv e.filter ∧ e.interval = 0xFFFFFFFF ∧ e.data ≠ none := by
  refine ⟨{ name := [65, 46, 66], type := 2, data := some demoObj,
            filter := .relation opGT (.int32 5), interval := 0xFFFFFFFF, duration := 0x80000000,
            componentId := 7 }, by simp [Name], ?_, ?_, rfl, by simp⟩
  · intro o ho
    simp only [Option.some.injEq] at ho
    subst ho
    simp [SendableObj, SendableObjs, SendableProps, SendableVal, SendableScalar, Name, demoObj,
      PropList.count, ObjList.count]
  · simp [SendableFilter, SendableScalar, opGT]

/-! ## C11 -/

/-- C11, for messages below 2 GiB - 32 KiB. The receiver reads back the method name and the trace
strings appended to any body, the read position is what it was, and the body is still what precedes
them. (Missing: larger bodies, where the trailing offset is not packed in five bytes.) -/
theorem C11_metadata_round_trip_partial (body method parent state : Bytes)
    (hb : body.length < 2 ^ 31 - 32768) (hm : Name method) (hp : Name parent) (hs : Name state)
    (readOffset : Nat) :
    getMeta (setMeta body method parent state) readOffset
      = .ok ((method, parent, state), readOffset) ∧
    (setMeta body method parent state).take body.length = body := by
  refine ⟨getMeta_setMeta body method parent state hb hm hp hs readOffset, ?_⟩
  rw [setMeta_bytes body method parent state hb, List.take_left]

/-- C11. Reading the body afterwards is unaffected: an event sent as the body is read back. -/
theorem C11_body_unaffected_partial (fc : FloatConv) (e : Event) (hn : Name e.name)
    (hd : ∀ o, e.data = some o → SendableObj fc o) (hf : SendableFilter fc e.filter)
    (body : Bytes) (hb : appendEvent fc e = .ok body) (hl : body.length < 2 ^ 31 - 32768)
    (method parent state : Bytes) :
    ∃ rest, readEvent fc (setMeta body method parent state) = .ok (e, rest) := by
  obtain ⟨d, h1, h2⟩ := readEvent_append fc e hn hd hf
  rw [hb] at h1
  simp only [Res.ok.injEq] at h1
  subst h1
  rw [setMeta_bytes body method parent state hl]
  exact ⟨_, h2 _⟩

example : Name [77, 69, 84, 72] ∧ Name [] ∧ (List.replicate 1000 (0xAA : UInt8)).length < 2 ^ 31 - 32768 := by
  refine ⟨by simp [Name], by simp [Name], ?_⟩
  rw [List.length_replicate]; decide

/-- C11 fails for larger bodies: from 2 GiB - 32 KiB on the offset takes fewer than five bytes, and the receiver takes the
end of the last trace string for it. Whatever the names, a body of that many small numbers loses its method name. -/
theorem C11_large_fails (L : Nat) (h1 : 2 ^ 31 - 32768 ≤ L) (h2 : L < 2 ^ 31 - 128) (method parent state : Bytes)
    (x : UInt8) (hx : x.toNat < 128) (readOffset : Nat) :
    getMeta (setMeta (List.replicate L 0) method parent (state ++ [x])) readOffset = .fail :=
  getMeta_large L h1 h2 method parent state x hx readOffset

example : 2 ^ 31 - 32768 ≤ 2 ^ 31 - 1000 ∧ 2 ^ 31 - 1000 < 2 ^ 31 - 128 ∧ (97 : UInt8).toNat < 128 := by decide

/-! ## C55 -/

/-- C55, at the level of message items. Whatever bytes were received, an item read from them lies
inside them, what remains is their end, and at least one byte is consumed. -/
theorem C55_items_inside_message_partial (bs : Bytes) :
    (∀ s r, getBytes bs = some (s, r) → ∃ pre, pre ≠ [] ∧ bs = pre ++ (s ++ r)) ∧
    (∀ v r, getInt32 bs = some (v, r) → ∃ pre, pre ≠ [] ∧ bs = pre ++ r) := by
  constructor
  · intro s r h
    unfold getBytes at h
    cases hu : unpackNext bs with
    | none => simp [hu] at h
    | some q =>
      obtain ⟨i, r'⟩ := q
      cases i with
      | bin x =>
        simp only [hu, Option.some.injEq, Prod.mk.injEq] at h
        rw [← h.1, ← h.2]
        exact unpack_inside hu
      | int => simp [hu] at h
      | dbl => simp [hu] at h
      | str => simp [hu] at h
  · intro v r h
    unfold getInt32 at h
    cases hu : unpackNext bs with
    | none => simp [hu] at h
    | some q =>
      obtain ⟨i, r'⟩ := q
      cases i with
      | int x =>
        simp only [hu, Option.some.injEq, Prod.mk.injEq] at h
        rw [← h.2]
        exact unpack_inside hu
      | bin => simp [hu] at h
      | dbl => simp [hu] at h
      | str => simp [hu] at h

/-- C55 fails for values: a message announcing a boolean and carrying more than 48 bytes for it
makes the receiver write past the value. -/
theorem C55_hostile_value_fails (fc : FloatConv) (data rest : Bytes) (h1 : 48 < data.length)
    (h2 : data.length < 2 ^ 32) :
    readValue fc (setInt32 (BitVec.ofNat 32 Ty.boolean.code) ++ (setBytes data ++ rest)) = .ub := by
  unfold readValue
  obtain ⟨k, hk⟩ : ∃ k, (setInt32 (BitVec.ofNat 32 Ty.boolean.code) ++ (setBytes data ++ rest)).length
      = k + 1 := by
    have := setInt32_pos (BitVec.ofNat 32 Ty.boolean.code)
    refine ⟨(setInt32 (BitVec.ofNat 32 Ty.boolean.code) ++ (setBytes data ++ rest)).length - 1, ?_⟩
    rw [List.length_append]
    omega
  rw [hk]
  simp only [readVal, get_setInt32, orUb, Res.ok_bind, code_toNat,
    show Ty.ofCode Ty.boolean.code = some .boolean from rfl, readScalar, get_setBytes data h2, setTLV,
    if_pos h1, Res.ub_bind]

/-- C55 fails for truncated messages: the type of a value that is not there is used. -/
theorem C55_truncated_value_fails (fc : FloatConv) :
    readPropList fc (setInt32 1 ++ setString [65]) = .ub := by
  have hn : Name [65] := by simp [Name]
  have h := getStringU_set [65] hn []
  rw [List.append_nil] at h
  simp only [readPropList, getInt32Z_set, show ((1 : BitVec 32).toInt).toNat = 1 by rfl,
    show (setString [65]).length = 3 by rfl, readProps, h, Res.ok_bind]
  simp [readVal, getInt32, unpackNext, orUb]

end Verif.Props
