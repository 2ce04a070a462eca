import Verif.Spec.Value
import Verif.Proof.Buffer

namespace Verif.Value

open Verif Verif.Buffer

/-- Payload of the encoding of a value that is neither NULL nor `none`. -/
def payload : Scalar → Bytes
  | .string (some s) => s ++ [0]
  | .bytes (some s) => s
  | .string Option.none | .bytes Option.none | .none => []
  | .boolean x => [if x then 1 else 0]
  | .char v | .byte v | .int8 v | .uint8 v => leBytes 1 v.toNat
  | .int16 v | .uint16 v => leBytes 2 v.toNat
  | .int32 v | .uint32 v | .single v => leBytes 4 v.toNat
  | .int64 v | .uint64 v | .double v => leBytes 8 v.toNat
  | .datetime d => d.encode

/-- Bytes of the whole encoding. -/
def image (v : Scalar) : Bytes := leBytes 2 v.ty.code ++ leBytes 2 (payload v).length ++ payload v

@[simp] theorem DateTime.encode_length (d : DateTime) : d.encode.length = 48 := by
  simp [DateTime.encode]

theorem payload_lt {v : Scalar} (h : Encodable v) : (payload v).length < 65536 := by
  cases v <;> simp only [payload] <;> try (simp; done)
  case string s => cases s <;> simp_all [Encodable]
  case bytes s => cases s <;> simp_all [Encodable]

theorem code_lt (t : Ty) : t.code < 65536 := by cases t <;> simp [Ty.code]

theorem ofCode_code (t : Ty) : Ty.ofCode t.code = some t := by cases t <;> rfl

theorem code_ofCode {n : Nat} {t : Ty} (h : Ty.ofCode n = some t) : n = t.code := by
  grind (splits := 30) [Ty.ofCode, Ty.code]

theorem encode_ok {v : Scalar} (h : Encodable v) (b : Buf) :
    encode b v = .ok (writeTLV b v.ty.code (payload v).length (payload v)) := by
  cases v <;> try (simp [encode, payload, Scalar.ty]; done)
  case string s => cases s <;> simp_all [Encodable, encode, payload, Scalar.ty]
  case bytes s => cases s <;> simp_all [Encodable, encode, payload, Scalar.ty]
  case none => simp [Encodable] at h

theorem encode_image {v : Scalar} (h : Encodable v) (b : Buf) :
    (writeTLV b v.ty.code (payload v).length (payload v)).data = b.data ++ image v := by
  simp [image, Nat.mod_eq_of_lt (payload_lt h)]

theorem image_length (v : Scalar) : (image v).length = 4 + (payload v).length := by
  simp [image]; omega

theorem cstrAt_mid {data pre s post : Bytes} {n : Nat} (hd : data = pre ++ (s ++ 0 :: post))
    (hn : pre.length = n) (hs : (0 : UInt8) ∉ s) : cstrAt data n = some s := by
  subst hn hd
  simp only [cstrAt, List.drop_left]
  rw [if_pos (by simp)]
  congr 1
  have : ∀ s : Bytes, (0 : UInt8) ∉ s → List.takeWhile (fun x => decide (x ≠ 0)) (s ++ 0 :: post) = s := by
    intro s
    induction s with
    | nil => simp
    | cons a s ih =>
      intro h
      simp only [List.mem_cons, not_or] at h
      rw [List.cons_append, List.takeWhile_cons_of_pos]
      · rw [ih h.2]
      · simpa using fun e => h.1 e.symm
  exact this s hs

theorem field_at (pre post : Bytes) (v : BitVec 32) (n : Nat) (hn : pre.length = n) :
    DateTime.field (pre ++ (leBytes 4 v.toNat ++ post)) n = v := by
  subst hn
  simp only [DateTime.field, List.drop_left]
  rw [List.take_append_of_le_length (by simp), List.take_of_length_le (by simp), leNat_leBytes]
  apply BitVec.eq_of_toNat_eq
  have := v.isLt
  simp
  omega

theorem DateTime.decode_encode (d : DateTime) : DateTime.decode d.encode = d := by
  obtain ⟨a0, a1, a2, a3, a4, a5, a6, a7, a8, a9, a10, w⟩ := d
  simp only [DateTime.decode, DateTime.mk.injEq]
  refine ⟨?_, ?_, ?_, ?_, ?_, ?_, ?_, ?_, ?_, ?_, ?_, ?_⟩
  · have := field_at [] (leBytes 4 a1.toNat ++ leBytes 4 a2.toNat ++ leBytes 4 a3.toNat ++ leBytes 4 a4.toNat ++ leBytes 4 a5.toNat ++ leBytes 4 a6.toNat ++ leBytes 4 a7.toNat ++ leBytes 4 a8.toNat ++ leBytes 4 a9.toNat ++ leBytes 4 a10.toNat ++ [if w then 1 else 0, 0, 0, 0]) a0 0 (by simp)
    simpa [DateTime.encode] using this
  · have := field_at (leBytes 4 a0.toNat) (leBytes 4 a2.toNat ++ leBytes 4 a3.toNat ++ leBytes 4 a4.toNat ++ leBytes 4 a5.toNat ++ leBytes 4 a6.toNat ++ leBytes 4 a7.toNat ++ leBytes 4 a8.toNat ++ leBytes 4 a9.toNat ++ leBytes 4 a10.toNat ++ [if w then 1 else 0, 0, 0, 0]) a1 4 (by simp)
    simpa [DateTime.encode] using this
  · have := field_at (leBytes 4 a0.toNat ++ leBytes 4 a1.toNat) (leBytes 4 a3.toNat ++ leBytes 4 a4.toNat ++ leBytes 4 a5.toNat ++ leBytes 4 a6.toNat ++ leBytes 4 a7.toNat ++ leBytes 4 a8.toNat ++ leBytes 4 a9.toNat ++ leBytes 4 a10.toNat ++ [if w then 1 else 0, 0, 0, 0]) a2 8 (by simp)
    simpa [DateTime.encode] using this
  · have := field_at (leBytes 4 a0.toNat ++ leBytes 4 a1.toNat ++ leBytes 4 a2.toNat) (leBytes 4 a4.toNat ++ leBytes 4 a5.toNat ++ leBytes 4 a6.toNat ++ leBytes 4 a7.toNat ++ leBytes 4 a8.toNat ++ leBytes 4 a9.toNat ++ leBytes 4 a10.toNat ++ [if w then 1 else 0, 0, 0, 0]) a3 12 (by simp)
    simpa [DateTime.encode] using this
  · have := field_at (leBytes 4 a0.toNat ++ leBytes 4 a1.toNat ++ leBytes 4 a2.toNat ++ leBytes 4 a3.toNat) (leBytes 4 a5.toNat ++ leBytes 4 a6.toNat ++ leBytes 4 a7.toNat ++ leBytes 4 a8.toNat ++ leBytes 4 a9.toNat ++ leBytes 4 a10.toNat ++ [if w then 1 else 0, 0, 0, 0]) a4 16 (by simp)
    simpa [DateTime.encode] using this
  · have := field_at (leBytes 4 a0.toNat ++ leBytes 4 a1.toNat ++ leBytes 4 a2.toNat ++ leBytes 4 a3.toNat ++ leBytes 4 a4.toNat) (leBytes 4 a6.toNat ++ leBytes 4 a7.toNat ++ leBytes 4 a8.toNat ++ leBytes 4 a9.toNat ++ leBytes 4 a10.toNat ++ [if w then 1 else 0, 0, 0, 0]) a5 20 (by simp)
    simpa [DateTime.encode] using this
  · have := field_at (leBytes 4 a0.toNat ++ leBytes 4 a1.toNat ++ leBytes 4 a2.toNat ++ leBytes 4 a3.toNat ++ leBytes 4 a4.toNat ++ leBytes 4 a5.toNat) (leBytes 4 a7.toNat ++ leBytes 4 a8.toNat ++ leBytes 4 a9.toNat ++ leBytes 4 a10.toNat ++ [if w then 1 else 0, 0, 0, 0]) a6 24 (by simp)
    simpa [DateTime.encode] using this
  · have := field_at (leBytes 4 a0.toNat ++ leBytes 4 a1.toNat ++ leBytes 4 a2.toNat ++ leBytes 4 a3.toNat ++ leBytes 4 a4.toNat ++ leBytes 4 a5.toNat ++ leBytes 4 a6.toNat) (leBytes 4 a8.toNat ++ leBytes 4 a9.toNat ++ leBytes 4 a10.toNat ++ [if w then 1 else 0, 0, 0, 0]) a7 28 (by simp)
    simpa [DateTime.encode] using this
  · have := field_at (leBytes 4 a0.toNat ++ leBytes 4 a1.toNat ++ leBytes 4 a2.toNat ++ leBytes 4 a3.toNat ++ leBytes 4 a4.toNat ++ leBytes 4 a5.toNat ++ leBytes 4 a6.toNat ++ leBytes 4 a7.toNat) (leBytes 4 a9.toNat ++ leBytes 4 a10.toNat ++ [if w then 1 else 0, 0, 0, 0]) a8 32 (by simp)
    simpa [DateTime.encode] using this
  · have := field_at (leBytes 4 a0.toNat ++ leBytes 4 a1.toNat ++ leBytes 4 a2.toNat ++ leBytes 4 a3.toNat ++ leBytes 4 a4.toNat ++ leBytes 4 a5.toNat ++ leBytes 4 a6.toNat ++ leBytes 4 a7.toNat ++ leBytes 4 a8.toNat) (leBytes 4 a10.toNat ++ [if w then 1 else 0, 0, 0, 0]) a9 36 (by simp)
    simpa [DateTime.encode] using this
  · have := field_at (leBytes 4 a0.toNat ++ leBytes 4 a1.toNat ++ leBytes 4 a2.toNat ++ leBytes 4 a3.toNat ++ leBytes 4 a4.toNat ++ leBytes 4 a5.toNat ++ leBytes 4 a6.toNat ++ leBytes 4 a7.toNat ++ leBytes 4 a8.toNat ++ leBytes 4 a9.toNat) ([if w then 1 else 0, 0, 0, 0]) a10 40 (by simp)
    simpa [DateTime.encode] using this
  · have : List.drop 44 (DateTime.encode ⟨a0, a1, a2, a3, a4, a5, a6, a7, a8, a9, a10, w⟩)
        = [if w then 1 else 0, 0, 0, 0] := by
      simp only [DateTime.encode]
      rw [List.drop_left' (by simp)]
    simp only [this]
    cases w <;> simp

theorem ofNat_leNat {k w : Nat} (v : BitVec w) (hk : 256 ^ k = 2 ^ w) :
    BitVec.ofNat w (leNat (leBytes k v.toNat)) = v := by
  rw [leNat_leBytes, hk]
  apply BitVec.eq_of_toNat_eq
  simp

/-- Reading a header of an encoded value. -/
theorem header_ok {b : Buf} {pre rest : Bytes} {t n : Nat}
    (hd : b.data = pre ++ (leBytes 2 t ++ leBytes 2 n ++ rest)) (hrd : b.rd = pre.length)
    (ht : t < 65536) (hn : n < 65536) (ha : pre.length + 4 < b.alloc) :
    readLE b 2 = .ok (t, { b with rd := pre.length + 2 }) ∧
    readLE { b with rd := pre.length + 2 } 2 = .ok (n, { b with rd := pre.length + 4 }) := by
  constructor
  · have := readLE_mid (b := b) (pre := pre) (mid := leBytes 2 t) (post := leBytes 2 n ++ rest)
      (k := 2) (by simp [hd]) hrd (by simp) (by omega)
    rw [this, leNat_leBytes, Nat.mod_eq_of_lt (by simpa using ht)]
  · have := readLE_mid (b := { b with rd := pre.length + 2 }) (pre := pre ++ leBytes 2 t)
      (mid := leBytes 2 n) (post := rest) (k := 2)
      (by simp [hd]) (by simp) (by simp) (by simp; omega)
    rw [this, leNat_leBytes, Nat.mod_eq_of_lt (by simpa using hn)]
    simp

/-- Decoding an encoded value in the middle of a buffer. -/
theorem decode_image {v : Scalar} (h : Encodable v) {b : Buf} {pre post : Bytes}
    (hd : b.data = pre ++ (image v ++ post)) (hrd : b.rd = pre.length)
    (ha : pre.length + (image v).length < b.alloc ∨
      (endsAnywhere v = true ∧ pre.length + (image v).length ≤ b.alloc)) :
    decode b = .ok (v, { b with rd := pre.length + (image v).length }) := by
  have hpl := payload_lt h
  have hlen := image_length v
  have h4 : pre.length + 4 < b.alloc := by
    rcases ha with ha | ⟨he, ha⟩
    · omega
    · have : 0 < (payload v).length := by
        cases v with
        | string s => cases s <;> simp_all [Encodable, payload]
        | bytes s =>
          cases s with
          | none => simp [Encodable] at h
          | some s => cases s <;> simp_all [endsAnywhere, payload]
        | _ => simp [endsAnywhere] at he
      omega
  obtain ⟨e1, e2⟩ := header_ok (b := b) (pre := pre) (t := v.ty.code) (n := (payload v).length)
    (rest := payload v ++ post) (by simp [hd, image]) hrd (code_lt _) hpl h4
  have hrest : b.data = (pre ++ leBytes 2 v.ty.code ++ leBytes 2 (payload v).length)
      ++ (payload v ++ post) := by simp [hd, image]
  have hprelen : (pre ++ leBytes 2 v.ty.code ++ leBytes 2 (payload v).length).length
      = pre.length + 4 := by simp
  generalize hP : pre ++ leBytes 2 v.ty.code ++ leBytes 2 (payload v).length = P at hrest hprelen
  have hR : ∀ k, (payload v).length = k → endsAnywhere v = false →
      read { b with rd := pre.length + 4 } k
        = .ok (payload v, { b with rd := pre.length + 4 + k }) := by
    intro k hk hne
    have := read_mid (b := { b with rd := pre.length + 4 }) (pre := P) (mid := payload v)
      (post := post) (k := k) hrest hprelen.symm hk
      (by
        rcases ha with ha | ⟨he, _⟩
        · simp only []; omega
        · simp [hne] at he)
    rw [this, hprelen]
  have hRL : ∀ k, (payload v).length = k → endsAnywhere v = false →
      readLE { b with rd := pre.length + 4 } k
        = .ok (leNat (payload v), { b with rd := pre.length + 4 + k }) := by
    intro k hk hne
    simp [readLE, hR k hk hne]
  simp only [decode, e1, e2, Res.ok_bind, ofCode_code, hlen]
  rw [← Nat.add_assoc]
  cases v with
  | string s =>
    cases s with
    | none => simp [Encodable] at h
    | some s =>
      simp only [Scalar.ty]
      rw [if_pos (by rcases ha with ha | ⟨_, ha⟩ <;> omega)]
      rw [cstrAt_mid (pre := P) (s := s) (post := post) (by rw [hrest]; simp [payload]) hprelen h.1]
  | bytes s =>
    cases s with
    | none => simp [Encodable] at h
    | some s =>
      simp only [Scalar.ty]
      rw [if_pos (by rcases ha with ha | ⟨_, ha⟩ <;> omega)]
      rw [if_pos (by rw [hrest]; simp [hprelen])]
      rw [hrest, ← hprelen, List.drop_left, List.take_left]
      rfl
  | none => simp [Encodable] at h
  | boolean x =>
    simp only [Scalar.ty]
    rw [hR 1 (by simp [payload]) rfl]
    cases x <;> simp [payload]
  | char x => simp [Scalar.ty, hRL 1 (by simp [payload]) rfl, payload, ofNat_leNat x (k := 1)]
  | byte x => simp [Scalar.ty, hRL 1 (by simp [payload]) rfl, payload, ofNat_leNat x (k := 1)]
  | int8 x => simp [Scalar.ty, hRL 1 (by simp [payload]) rfl, payload, ofNat_leNat x (k := 1)]
  | uint8 x => simp [Scalar.ty, hRL 1 (by simp [payload]) rfl, payload, ofNat_leNat x (k := 1)]
  | int16 x => simp [Scalar.ty, hRL 2 (by simp [payload]) rfl, payload, ofNat_leNat x (k := 2)]
  | uint16 x => simp [Scalar.ty, hRL 2 (by simp [payload]) rfl, payload, ofNat_leNat x (k := 2)]
  | int32 x => simp [Scalar.ty, hRL 4 (by simp [payload]) rfl, payload, ofNat_leNat x (k := 4)]
  | uint32 x => simp [Scalar.ty, hRL 4 (by simp [payload]) rfl, payload, ofNat_leNat x (k := 4)]
  | int64 x => simp [Scalar.ty, hRL 8 (by simp [payload]) rfl, payload, ofNat_leNat x (k := 8)]
  | uint64 x => simp [Scalar.ty, hRL 8 (by simp [payload]) rfl, payload, ofNat_leNat x (k := 8)]
  | single x => simp [Scalar.ty, hRL 4 (by simp [payload]) rfl, payload, ofNat_leNat x (k := 4)]
  | double x => simp [Scalar.ty, hRL 8 (by simp [payload]) rfl, payload, ofNat_leNat x (k := 8)]
  | datetime x =>
    simp [Scalar.ty, hR 48 (by simp [payload]) rfl, payload, DateTime.decode_encode x]

/-- Decoding a value that ends exactly at the end of the allocation, when it must fail. -/
theorem decode_image_full {v : Scalar} (h : Encodable v) {b : Buf} {pre : Bytes}
    (hd : b.data = pre ++ image v) (hrd : b.rd = pre.length)
    (hfull : b.data.length = b.alloc) (he : endsAnywhere v = false) :
    decode b = .fail := by
  have hpl := payload_lt h
  have hlen := image_length v
  have hal : pre.length + (image v).length = b.alloc := by rw [← hfull, hd]; simp
  by_cases hp : (payload v).length = 0
  · -- empty bytes: the second header read fails
    have e1 := readLE_mid (b := b) (pre := pre) (mid := leBytes 2 v.ty.code)
      (post := leBytes 2 (payload v).length ++ payload v)
      (k := 2) (by simp [hd, image]) hrd (by simp) (by omega)
    simp only [decode, e1, Res.ok_bind]
    have e2 : readLE { b with rd := pre.length + 2 } 2 = .fail := by
      simp only [readLE, Verif.Buffer.read]
      rw [if_neg (by omega)]
      rfl
    rw [e2]
    rfl
  · have h4 : pre.length + 4 < b.alloc := by omega
    obtain ⟨e1, e2⟩ := header_ok (b := b) (pre := pre) (t := v.ty.code) (n := (payload v).length)
      (rest := payload v) (by simp [hd, image]) hrd (code_lt _) hpl h4
    have hR : ∀ k, (payload v).length = k → read { b with rd := pre.length + 4 } k = .fail := by
      intro k hk
      simp only [Verif.Buffer.read]
      rw [if_neg (by omega)]
    have hRL : ∀ k, (payload v).length = k → readLE { b with rd := pre.length + 4 } k = .fail := by
      intro k hk
      simp [readLE, hR k hk]
    simp only [decode, e1, e2, Res.ok_bind, ofCode_code]
    cases v with
    | string s => simp [endsAnywhere] at he
    | bytes s =>
      cases s with
      | none => simp [Encodable] at h
      | some s => cases s <;> simp_all [endsAnywhere, payload]
    | none => simp [Encodable] at h
    | boolean x => simp [Scalar.ty, hR 1 (by simp [payload])]
    | datetime x => simp [Scalar.ty, hR 48 (by simp [payload])]
    | char x => simp [Scalar.ty, hRL 1 (by simp [payload])]
    | byte x => simp [Scalar.ty, hRL 1 (by simp [payload])]
    | int8 x => simp [Scalar.ty, hRL 1 (by simp [payload])]
    | uint8 x => simp [Scalar.ty, hRL 1 (by simp [payload])]
    | int16 x => simp [Scalar.ty, hRL 2 (by simp [payload])]
    | uint16 x => simp [Scalar.ty, hRL 2 (by simp [payload])]
    | int32 x => simp [Scalar.ty, hRL 4 (by simp [payload])]
    | uint32 x => simp [Scalar.ty, hRL 4 (by simp [payload])]
    | single x => simp [Scalar.ty, hRL 4 (by simp [payload])]
    | int64 x => simp [Scalar.ty, hRL 8 (by simp [payload])]
    | uint64 x => simp [Scalar.ty, hRL 8 (by simp [payload])]
    | double x => simp [Scalar.ty, hRL 8 (by simp [payload])]

theorem encodeAll_ok {vs : List Scalar} (h : ∀ v ∈ vs, Encodable v) {b : Buf} (hb : Inv b) :
    ∃ b', encodeAll b vs = .ok b' ∧ b'.data = b.data ++ (vs.map image).flatten ∧ Inv b'
      ∧ b'.rd = b.rd := by
  induction vs generalizing b with
  | nil => exact ⟨b, rfl, by simp, hb, rfl⟩
  | cons v vs ih =>
    have hv := h v List.mem_cons_self
    obtain ⟨b', h1, h2, h3, h4⟩ := ih (fun w hw => h w (List.mem_cons_of_mem _ hw))
      (inv_writeTLV hb v.ty.code (payload v).length (payload v))
    refine ⟨b', ?_, ?_, h3, ?_⟩
    · simp [encodeAll, encode_ok hv, h1]
    · rw [h2, encode_image hv]; simp
    · simpa using h4

theorem image_pos (v : Scalar) : 0 < (image v).length := by rw [image_length]; omega

theorem decodeAll_images {vs : List Scalar} (h : ∀ v ∈ vs, Encodable v) {b : Buf} {pre : Bytes}
    (hd : b.data = pre ++ (vs.map image).flatten) (hrd : b.rd = pre.length)
    (ha : b.data.length < b.alloc ∨
      (b.data.length = b.alloc ∧ ∀ v, vs.getLast? = some v → endsAnywhere v = true)) :
    decodeAll b vs.length = .ok (vs, { b with rd := b.data.length }) := by
  induction vs generalizing b pre with
  | nil =>
    simp only [decodeAll, List.length_nil]
    have : b.data.length = b.rd := by rw [hd, hrd]; simp
    rw [this]
  | cons v vs ih =>
    have hv := h v List.mem_cons_self
    have hsz : b.data.length = pre.length + (image v).length + (vs.map image).flatten.length := by
      rw [hd]; simp only [List.map_cons, List.flatten_cons, List.length_append]; omega
    simp only [List.length_cons, decodeAll]
    have hdv := decode_image hv (pre := pre) (post := (vs.map image).flatten) (b := b)
      (by simpa using hd) hrd
      (by
        rcases ha with ha | ⟨ha, hl⟩
        · left; omega
        · by_cases hvs : vs = []
          · subst hvs
            right
            exact ⟨hl v rfl, by omega⟩
          · left
            obtain ⟨w, ws, rfl⟩ := List.exists_cons_of_ne_nil hvs
            have := image_pos w
            simp only [List.map_cons, List.flatten_cons, List.length_append] at hsz
            omega)
    rw [hdv]
    simp only [Res.ok_bind]
    rw [ih (fun w hw => h w (List.mem_cons_of_mem _ hw))
      (b := { b with rd := pre.length + (image v).length }) (pre := pre ++ image v)
      (by simpa using hd) (by simp)
      (by
        rcases ha with ha | ⟨ha, hl⟩
        · exact Or.inl ha
        · right
          refine ⟨ha, fun w hw => hl w ?_⟩
          cases vs with
          | nil => simp at hw
          | cons x xs => simpa [List.getLast?_cons_cons] using hw)]
    rfl

theorem decodeAll_images_full {vs : List Scalar} (h : ∀ v ∈ vs, Encodable v) {b : Buf} {pre : Bytes}
    (hd : b.data = pre ++ (vs.map image).flatten) (hrd : b.rd = pre.length)
    (ha : b.data.length = b.alloc) {l : Scalar} (hl : vs.getLast? = some l)
    (he : endsAnywhere l = false) :
    decodeAll b vs.length = .fail := by
  induction vs generalizing b pre with
  | nil => simp at hl
  | cons v vs ih =>
    have hv := h v List.mem_cons_self
    have hsz : b.data.length = pre.length + (image v).length + (vs.map image).flatten.length := by
      rw [hd]; simp only [List.map_cons, List.flatten_cons, List.length_append]; omega
    simp only [List.length_cons, decodeAll]
    cases vs with
    | nil =>
      simp only [List.getLast?_singleton, Option.some.injEq] at hl
      subst hl
      rw [decode_image_full hv (pre := pre) (by simpa using hd) hrd ha he]
      rfl
    | cons w ws =>
      have hw := image_pos w
      simp only [List.map_cons, List.flatten_cons, List.length_append] at hsz
      rw [decode_image hv (pre := pre) (post := ((w :: ws).map image).flatten) (b := b)
        (by simpa using hd) hrd (by left; omega)]
      simp only [Res.ok_bind]
      rw [ih (fun u hu => h u (List.mem_cons_of_mem _ hu))
        (b := { b with rd := pre.length + (image v).length }) (pre := pre ++ image v)
        (by simpa using hd) (by simp) ha (by simpa [List.getLast?_cons_cons] using hl)]
      rfl

end Verif.Value
