import Verif.Model.Filter
import Verif.Spec.Filter
import Verif.Proof.Value

namespace Verif.Filter

open Verif Verif.Buffer Verif.Value

/-- Encoded 32-bit number. -/
def u32 (n : Nat) : Bytes := leBytes 2 Ty.uint32.code ++ leBytes 2 4 ++ leBytes 4 n

@[simp] theorem u32_length (n : Nat) : (u32 n).length = 8 := by simp [u32]

@[simp] theorem writeU32_data (b : Buf) (n : Nat) : (writeU32 b n).data = b.data ++ u32 n := by
  simp only [writeU32, u32, writeTLV_data]
  rw [Nat.mod_eq_of_lt (by decide), List.take_of_length_le (by simp)]

@[simp] theorem writeU32_rd (b : Buf) (n : Nat) : (writeU32 b n).rd = b.rd := by simp [writeU32]

theorem inv_writeU32 {b : Buf} (h : Inv b) (n : Nat) : Inv (writeU32 b n) := inv_writeTLV h _ _ _

/-- Encoded filter. -/
def image : Filter → Bytes
  | .null => []
  | .relation op v => u32 0 ++ (u32 op ++ Value.image v)
  | .logic op l r => u32 1 ++ (u32 op ++ (image l ++ image r))

theorem encode_ok {f : Filter} (h : Storable f) {b : Buf} (hb : Inv b) :
    ∃ b', encode b f = .ok b' ∧ b'.data = b.data ++ image f ∧ Inv b' ∧ b'.rd = b.rd := by
  induction f generalizing b with
  | null => exact h.elim
  | relation op v =>
    have hb2 := inv_writeU32 (inv_writeU32 hb 0) op
    refine ⟨_, Value.encode_ok h.2 _, ?_, inv_writeTLV hb2 _ _ _, by simp⟩
    rw [Value.encode_image h.2]
    simp [image]
  | logic op l r ihl ihr =>
    obtain ⟨_, _, hl, hr⟩ := h
    obtain ⟨b1, e1, d1, i1, r1⟩ := ihl hl (inv_writeU32 (inv_writeU32 hb 1) op)
    obtain ⟨b2, e2, d2, i2, r2⟩ := ihr hr i1
    refine ⟨b2, ?_, ?_, i2, ?_⟩
    · simp [encode, e1, e2]
    · rw [d2, d1]; simp [image]
    · rw [r2, r1]; simp

theorem readU32_mid {b : Buf} {pre post : Bytes} {n : Nat} (hn : n < 2 ^ 32)
    (hd : b.data = pre ++ (u32 n ++ post)) (hrd : b.rd = pre.length)
    (ha : pre.length + 8 < b.alloc) :
    readU32 b = .ok (n, { b with rd := pre.length + 8 }) := by
  obtain ⟨e1, e2⟩ := header_ok (b := b) (pre := pre) (t := Ty.uint32.code) (n := 4)
    (rest := leBytes 4 n ++ post) (by rw [hd]; simp [u32]) hrd (by simp [Ty.code]) (by decide) (by omega)
  have e3 := readLE_mid (b := { b with rd := pre.length + 4 })
    (pre := pre ++ leBytes 2 Ty.uint32.code ++ leBytes 2 4) (mid := leBytes 4 n) (post := post)
    (k := 4) (by rw [hd]; simp [u32]) (by simp) (by simp) (by simp; omega)
  simp only [readU32, e1, e2, Res.ok_bind]
  rw [if_pos (by simp), e3, leNat_leBytes, Nat.mod_eq_of_lt (by simpa using hn)]
  simp

theorem image_ge {f : Filter} (h : Storable f) : 16 < (image f).length := by
  induction f with
  | null => exact h.elim
  | relation op v => simp [image, Value.image_length]; omega
  | logic op l r ihl ihr =>
    have := ihl h.2.2.1
    simp [image]
    omega

theorem decodeF_image {f : Filter} (h : Storable f) : ∀ {fuel : Nat} {b : Buf} {pre post : Bytes},
    b.data = pre ++ (image f ++ post) → b.rd = pre.length → (image f).length ≤ fuel →
    (pre.length + (image f).length < b.alloc ∨
      (endsAnywhere (lastValue f) = true ∧ pre.length + (image f).length ≤ b.alloc)) →
    decodeF fuel b = .ok (f, { b with rd := pre.length + (image f).length }) := by
  induction f with
  | null => exact h.elim
  | relation op v =>
    intro fuel b pre post hd hrd hfuel ha
    obtain ⟨hop, hv⟩ := h
    have hlen : (image (.relation op v)).length = 16 + (Value.image v).length := by
      simp [image]; omega
    have hvp := Value.image_pos v
    rw [hlen] at ha hfuel
    cases fuel with
    | zero => omega
    | succ fuel =>
      have e1 := readU32_mid (b := b) (pre := pre) (n := 0) (post := u32 op ++ Value.image v ++ post)
        (by decide) (by rw [hd]; simp [image]) hrd (by omega)
      have e2 := readU32_mid (b := { b with rd := pre.length + 8 }) (pre := pre ++ u32 0) (n := op)
        (post := Value.image v ++ post) hop (by rw [hd]; simp [image]) (by simp)
        (by simp; omega)
      have e3 := Value.decode_image hv (b := { b with rd := pre.length + 16 })
        (pre := pre ++ u32 0 ++ u32 op) (post := post) (by rw [hd]; simp [image]) (by simp)
        (by simpa [lastValue, Nat.add_assoc] using ha)
      simp only [List.length_append, u32_length, Nat.add_assoc] at e2 e3
      simp only [decodeF, e1, Res.ok_bind, if_pos, e2, e3, Res.pure_eq, hlen, Nat.reduceAdd,
        show ∀ x : Nat, 8 + (8 + x) = 16 + x by intro x; omega]
  | logic op l r ihl ihr =>
    intro fuel b pre post hd hrd hfuel ha
    obtain ⟨hop, hne, hl, hr⟩ := h
    have hlen : (image (.logic op l r)).length = 16 + ((image l).length + (image r).length) := by
      simp [image]; omega
    have gl := image_ge hl
    have gr := image_ge hr
    rw [hlen] at ha hfuel
    cases fuel with
    | zero => omega
    | succ fuel =>
      have e1 := readU32_mid (b := b) (pre := pre) (n := 1)
        (post := u32 op ++ (image l ++ image r) ++ post)
        (by decide) (by rw [hd]; simp [image]) hrd (by omega)
      have e2 := readU32_mid (b := { b with rd := pre.length + 8 }) (pre := pre ++ u32 1) (n := op)
        (post := image l ++ image r ++ post) (by omega) (by rw [hd]; simp [image]) (by simp)
        (by simp; omega)
      have e3 := ihl hl (fuel := fuel) (b := { b with rd := pre.length + 16 })
        (pre := pre ++ u32 1 ++ u32 op) (post := image r ++ post) (by rw [hd]; simp [image]) (by simp)
        (by omega) (by left; simp; omega)
      have e4 := ihr hr (fuel := fuel) (b := { b with rd := pre.length + (16 + (image l).length) })
        (pre := pre ++ u32 1 ++ u32 op ++ image l) (post := post) (by rw [hd]; simp [image])
        (by simp; omega) (by omega)
        (by
          simp only [lastValue] at ha
          simp only [List.length_append, u32_length]
          rcases ha with ha | ⟨he, ha⟩
          · left; omega
          · right; exact ⟨he, by omega⟩)
      simp only [List.length_append, u32_length, Nat.add_assoc, Nat.reduceAdd] at e2 e3 e4
      simp only [decodeF, e1, Res.ok_bind, e2, e3, e4, Res.pure_eq, hlen]
      simp

end Verif.Filter
