import Verif.Proof.Value

/-!
# C03, C04: encoding and decoding values
-/

namespace Verif.Props

open Verif Verif.Buffer Verif.Value

/-! ## C03 -/

/-- C03 (part that holds). Any list of encodable values (not NULL, not `none`, strings without NUL,
payload below 65536 bytes) encodes into a new buffer, and decoding as many values returns exactly
that list and consumes the buffer, unless the encoding fills the allocation exactly and the last
value is of a fixed-size type or is an empty byte string.
Missing: that exact-fill case and payloads of 65536 bytes and more, in which the code fails. -/
theorem C03_encode_decode_partial (vs : List Scalar) (h : ∀ v ∈ vs, Encodable v) :
    ∃ b, encodeAll create vs = .ok b ∧
      ((b.data.length = b.alloc → ∀ v, vs.getLast? = some v → endsAnywhere v = true) →
        ∃ b', decodeAll b vs.length = .ok (vs, b') ∧ b'.rd = b.data.length) := by
  obtain ⟨b, h1, h2, h3, h4⟩ := encodeAll_ok h inv_create
  refine ⟨b, h1, fun hfull => ⟨_, decodeAll_images h (pre := []) (by simpa [create] using h2)
    (by simpa [create] using h4) ?_, rfl⟩⟩
  by_cases hf : b.data.length = b.alloc
  · exact Or.inr ⟨hf, hfull hf⟩
  · exact Or.inl (Nat.lt_of_le_of_ne h3.fits hf)

/-- C03, the exact-fill case in general: decoding then always fails. -/
theorem C03_exactly_full_always_fails (vs : List Scalar) (h : ∀ v ∈ vs, Encodable v) (b : Buf)
    (hb : encodeAll create vs = .ok b) (hfull : b.data.length = b.alloc) (l : Scalar)
    (hl : vs.getLast? = some l) (he : endsAnywhere l = false) :
    decodeAll b vs.length = .fail := by
  obtain ⟨b', h1, h2, h3, h4⟩ := encodeAll_ok h inv_create
  rw [hb] at h1
  cases h1
  exact decodeAll_images_full h (pre := []) (by simpa [create] using h2)
    (by simpa [create] using h4) hfull hl he

private def demo : List Scalar :=
  [.string (some [104, 105]), .int16 0xfffe, .bytes (some [0, 0, 7]), .boolean true,
   .datetime ⟨1, 2, 3, 4, 5, 6, 7, 8, 9, 10, 11, true⟩, .string (some [])]

example : (∀ v ∈ demo, Encodable v) ∧
    (do let b ← encodeAll create demo; pure (b.data.length, b.alloc)) = Res.ok (82, 128) := by
  refine ⟨?_, by decide⟩
  intro v hv
  simp only [demo, List.mem_cons, List.not_mem_nil, or_false] at hv
  rcases hv with rfl | rfl | rfl | rfl | rfl | rfl <;> simp [Encodable]

/-- Eight 32-bit integers: the exact-fill case. -/
private def eight : List Scalar := List.replicate 8 (.int32 5)

/-- C03 fails: there are values, all encodable, which decoding does not return. -/
theorem C03_exact_fill_fails :
    ∃ vs : List Scalar, (∀ v ∈ vs, Encodable v) ∧
      ∃ b, encodeAll create vs = .ok b ∧ decodeAll b vs.length = .fail := by
  refine ⟨eight, ?_, ?_⟩
  · intro v hv
    rw [eight, List.mem_replicate] at hv
    rw [hv.2]
    simp [Encodable]
  · have hv : ∀ v ∈ eight, Encodable v := by
      intro v hv
      rw [eight, List.mem_replicate] at hv
      rw [hv.2]
      simp [Encodable]
    obtain ⟨b, h1, _⟩ := encodeAll_ok hv inv_create
    have : (encodeAll create eight >>= fun b => decodeAll b eight.length) = .fail := by decide
    rw [h1] at this
    exact ⟨b, h1, this⟩

/-- C03 fails for long payloads: every byte string of 65536 + n bytes (n < 50) encodes without
error and decodes without error to just its first n bytes. -/
theorem C03_long_payload_fails (s : Bytes) (n : Nat) (hs : s.length = 65536 + n) (hn : n < 50) :
    ∃ b b', encode create (.bytes (some s)) = .ok b ∧
      decode b = .ok (.bytes (some (s.take n)), b') := by
  have hlt : (s.take n).length = n := by simp [hs]
  have henc : Encodable (.bytes (some (s.take n))) := by simp only [Encodable]; omega
  have hdata : (writeTLV create Ty.bytes.code s.length s).data
      = image (.bytes (some (s.take n))) := by
    simp only [writeTLV_data, image, payload, hlt, Scalar.ty, hs, create]
    rw [show (65536 + n) % 65536 = n by omega]
    simp
  refine ⟨_, _, rfl, decode_image henc (pre := []) (post := []) (by simpa using hdata) (by simp [create])
    (Or.inl ?_)⟩
  have hinv := inv_writeTLV inv_create Ty.bytes.code s.length s
  have := hinv.min
  rw [image_length]
  simp only [payload, hlt, List.length_nil]
  omega

example : ∃ s : Bytes, s.length = 65536 + 3 := ⟨List.replicate (65536 + 3) 1, List.length_replicate⟩

/-! ## C04: decoding arbitrary bytes -/

/-- The little-endian 16-bit number at offset `i`. -/
def u16At (data : Bytes) (i : Nat) : Nat := leNat ((data.drop i).take 2)

private theorem readLE_cases (b : Buf) (hinit : b.data.length = b.alloc) (k : Nat) :
    (b.rd + k < b.alloc ∧ readLE b k = .ok (leNat ((b.data.drop b.rd).take k), { b with rd := b.rd + k }))
    ∨ (b.alloc ≤ b.rd + k ∧ readLE b k = .fail) := by
  simp only [readLE, Verif.Buffer.read]
  by_cases h : b.rd + k < b.alloc
  · left
    refine ⟨h, ?_⟩
    rw [if_pos h, if_pos (by omega)]
    rfl
  · right
    refine ⟨by omega, ?_⟩
    rw [if_neg h]
    rfl

private theorem read_cases (b : Buf) (hinit : b.data.length = b.alloc) (k : Nat) :
    (b.rd + k < b.alloc ∧ Verif.Buffer.read b k = .ok ((b.data.drop b.rd).take k, { b with rd := b.rd + k }))
    ∨ (b.alloc ≤ b.rd + k ∧ Verif.Buffer.read b k = .fail) := by
  simp only [Verif.Buffer.read]
  by_cases h : b.rd + k < b.alloc
  · left
    refine ⟨h, ?_⟩
    rw [if_pos h, if_pos (by omega)]
  · right
    refine ⟨by omega, ?_⟩
    rw [if_neg h]

/-- C04 (part that holds). For every content of a fully initialised buffer and every read
position, decoding one value reads out of bounds exactly when the header names a string, its
length fits, and no NUL follows before the end of the buffer. In all other cases it fails or
returns a value, and then it has moved forward by at least the 4-byte header and not past the end.
Missing: freedom from out-of-bounds reads for strings, which the code does not have. -/
theorem C04_decode_hostile_partial (b : Buf) (hinit : b.data.length = b.alloc) :
    (decode b = .ub ↔
      b.rd + 4 < b.alloc ∧ u16At b.data b.rd = 0x50e ∧
      b.rd + 4 + u16At b.data (b.rd + 2) ≤ b.alloc ∧ (0 : UInt8) ∉ b.data.drop (b.rd + 4)) ∧
    (∀ v b', decode b = .ok (v, b') →
      b'.data = b.data ∧ b'.alloc = b.alloc ∧ b.rd + 4 ≤ b'.rd ∧ b'.rd ≤ b.alloc) := by
  rcases readLE_cases b hinit 2 with ⟨h1, e1⟩ | ⟨h1, e1⟩
  case inr =>
    simp only [decode, e1, Res.fail_bind]
    refine ⟨⟨by simp, fun h => by omega⟩, by simp⟩
  have hi2 : ({ b with rd := b.rd + 2 } : Buf).data.length = ({ b with rd := b.rd + 2 } : Buf).alloc :=
    hinit
  rcases readLE_cases { b with rd := b.rd + 2 } hi2 2 with ⟨h2, e2⟩ | ⟨h2, e2⟩
  case inr =>
    simp only [] at h2 e2
    simp only [decode, e1, e2, Res.ok_bind, Res.fail_bind]
    refine ⟨⟨by simp, fun h => by omega⟩, by simp⟩
  simp only [] at h2 e2
  simp only [decode, e1, e2, Res.ok_bind]
  have ht : leNat ((b.data.drop b.rd).take 2) = u16At b.data b.rd := rfl
  have hn : leNat ((b.data.drop (b.rd + 2)).take 2) = u16At b.data (b.rd + 2) := rfl
  rw [ht, hn]
  generalize hty : u16At b.data b.rd = t
  generalize hnn : u16At b.data (b.rd + 2) = n
  have hR : ∀ k, (b.rd + 4 + k < b.alloc ∧
      Verif.Buffer.read { b with rd := b.rd + 2 + 2 } k
        = .ok ((b.data.drop (b.rd + 4)).take k, { b with rd := b.rd + 4 + k })) ∨
      Verif.Buffer.read { b with rd := b.rd + 2 + 2 } k = .fail := by
    intro k
    rcases read_cases { b with rd := b.rd + 2 + 2 } hinit k with h | h
    · exact Or.inl h
    · exact Or.inr h.2
  have hRL : ∀ k, (b.rd + 4 + k < b.alloc ∧
      readLE { b with rd := b.rd + 2 + 2 } k
        = .ok (leNat ((b.data.drop (b.rd + 4)).take k), { b with rd := b.rd + 4 + k })) ∨
      readLE { b with rd := b.rd + 2 + 2 } k = .fail := by
    intro k
    rcases hR k with ⟨h, e⟩ | e
    · left; exact ⟨h, by simp [readLE, e]⟩
    · right; simp [readLE, e]
  by_cases hstr : t = 0x50e
  · subst hstr
    have : Ty.ofCode 0x50e = some .string := rfl
    rw [this]
    simp only []
    by_cases hfit : b.rd + 2 + 2 + n ≤ b.alloc
    · rw [if_pos hfit]
      by_cases hz : (0 : UInt8) ∈ b.data.drop (b.rd + 4)
      · simp only [cstrAt]
        rw [if_pos (by simpa using hz)]
        simp only []
        refine ⟨⟨by simp, fun h => absurd hz h.2.2.2⟩, ?_⟩
        intro v b' hh
        simp only [Res.ok.injEq, Prod.mk.injEq] at hh
        obtain ⟨_, rfl⟩ := hh
        exact ⟨rfl, rfl, by simp only []; omega, by simp only []; omega⟩
      · simp only [cstrAt]
        rw [if_neg (by simpa using hz)]
        simp only []
        refine ⟨⟨fun _ => ⟨by omega, trivial, by omega, hz⟩, by simp⟩, by simp⟩
    · rw [if_neg hfit]
      exact ⟨⟨by simp, fun h => by omega⟩, by simp⟩
  · have hne : ∀ x, Ty.ofCode t = some x → x ≠ .string := by
      intro x hx hxs
      subst hxs
      exact hstr (code_ofCode hx)
    refine ⟨⟨?_, fun h => absurd h.2.1 hstr⟩, ?_⟩
    · cases hx : Ty.ofCode t with
      | none => simp
      | some x =>
        have := hne x hx
        cases x <;> simp only [ne_eq, reduceCtorEq, not_false_eq_true, not_true_eq_false] at this ⊢
        case bytes =>
          split
          · rw [if_pos (by omega)]; simp
          · simp
        case boolean => rcases hR 1 with ⟨_, e⟩ | e <;> simp [e]
        case datetime => rcases hR 48 with ⟨_, e⟩ | e <;> simp [e]
        case char => rcases hRL 1 with ⟨_, e⟩ | e <;> simp [e]
        case byte => rcases hRL 1 with ⟨_, e⟩ | e <;> simp [e]
        case int8 => rcases hRL 1 with ⟨_, e⟩ | e <;> simp [e]
        case uint8 => rcases hRL 1 with ⟨_, e⟩ | e <;> simp [e]
        case int16 => rcases hRL 2 with ⟨_, e⟩ | e <;> simp [e]
        case uint16 => rcases hRL 2 with ⟨_, e⟩ | e <;> simp [e]
        case int32 => rcases hRL 4 with ⟨_, e⟩ | e <;> simp [e]
        case uint32 => rcases hRL 4 with ⟨_, e⟩ | e <;> simp [e]
        case single => rcases hRL 4 with ⟨_, e⟩ | e <;> simp [e]
        case int64 => rcases hRL 8 with ⟨_, e⟩ | e <;> simp [e]
        case uint64 => rcases hRL 8 with ⟨_, e⟩ | e <;> simp [e]
        case double => rcases hRL 8 with ⟨_, e⟩ | e <;> simp [e]
        all_goals simp
    · intro v b'
      cases hx : Ty.ofCode t with
      | none => simp
      | some x =>
        have := hne x hx
        have fin : ∀ k (w : Scalar), b.rd + 4 + k < b.alloc →
            Res.ok (w, ({ b with rd := b.rd + 4 + k } : Buf)) = Res.ok (v, b') →
            b'.data = b.data ∧ b'.alloc = b.alloc ∧ b.rd + 4 ≤ b'.rd ∧ b'.rd ≤ b.alloc := by
          intro k w hk hh
          simp only [Res.ok.injEq, Prod.mk.injEq] at hh
          obtain ⟨_, rfl⟩ := hh
          exact ⟨rfl, rfl, by simp only []; omega, by simp only []; omega⟩
        cases x <;> simp only [ne_eq, reduceCtorEq, not_false_eq_true, not_true_eq_false] at this ⊢
        case bytes =>
          split
          · rw [if_pos (by omega)]
            intro hh
            simp only [Res.ok.injEq, Prod.mk.injEq] at hh
            obtain ⟨_, rfl⟩ := hh
            exact ⟨rfl, rfl, by simp only []; omega, by simp only []; omega⟩
          · simp
        case boolean =>
          rcases hR 1 with ⟨hk, e⟩ | e <;> simp only [e, Res.ok_bind, Res.fail_bind, Res.pure_eq]
          · exact fin 1 _ hk
          · simp
        case datetime =>
          rcases hR 48 with ⟨hk, e⟩ | e <;> simp only [e, Res.ok_bind, Res.fail_bind, Res.pure_eq]
          · exact fin 48 _ hk
          · simp
        case char | byte | int8 | uint8 =>
          rcases hRL 1 with ⟨hk, e⟩ | e <;> simp only [e, Res.ok_bind, Res.fail_bind, Res.pure_eq]
          · exact fin 1 _ hk
          · simp
        case int16 | uint16 =>
          rcases hRL 2 with ⟨hk, e⟩ | e <;> simp only [e, Res.ok_bind, Res.fail_bind, Res.pure_eq]
          · exact fin 2 _ hk
          · simp
        case int32 | uint32 | single =>
          rcases hRL 4 with ⟨hk, e⟩ | e <;> simp only [e, Res.ok_bind, Res.fail_bind, Res.pure_eq]
          · exact fin 4 _ hk
          · simp
        case int64 | uint64 | double =>
          rcases hRL 8 with ⟨hk, e⟩ | e <;> simp only [e, Res.ok_bind, Res.fail_bind, Res.pure_eq]
          · exact fin 8 _ hk
          · simp
        all_goals simp

example : decode ⟨[0x0e, 5, 3, 0, 65, 66, 0, 9], 8, 0⟩
    = .ok (.string (some [65, 66]), ⟨[0x0e, 5, 3, 0, 65, 66, 0, 9], 8, 7⟩) := by decide

/-- C04 fails: a string without terminating NUL makes the decoder read past the buffer. -/
theorem C04_decode_hostile_fails :
    ∃ b : Buf, b.data.length = b.alloc ∧ decode b = .ub :=
  ⟨⟨[0x0e, 5, 2, 0, 65, 66], 6, 0⟩, rfl, by decide⟩

end Verif.Props
