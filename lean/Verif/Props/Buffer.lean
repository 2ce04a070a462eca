import Verif.Proof.Buffer

/-!
# C01, C02: the rbus buffer
-/

namespace Verif.Props.Buf

open Verif Verif.Buffer

/-! ## C02: writes stay inside the allocation and only append -/

/-- C02. After writing any list of byte strings to a new buffer, the contents are their
concatenation, they fit the allocation, and the allocation is a positive multiple of 64. -/
theorem C02_writes_append_within_allocation (ws : List Bytes) :
    let b := ws.foldl write create
    b.data = ws.flatten ∧ b.data.length ≤ b.alloc ∧ 64 ≤ b.alloc ∧ 64 ∣ b.alloc ∧ b.rd = 0 := by
  have gen : ∀ (b : Buf), Inv b →
      (ws.foldl write b).data = b.data ++ ws.flatten ∧ Inv (ws.foldl write b)
        ∧ (ws.foldl write b).rd = b.rd := by
    induction ws with
    | nil => intro b h; simp [h]
    | cons w ws ih =>
      intro b h
      have := ih (write b w) (inv_write h w)
      simpa using this
  have h := gen create inv_create
  exact ⟨by simpa [create] using h.1, h.2.1.fits, h.2.1.min, h.2.1.mult, by simpa [create] using h.2.2⟩

example : ([[1, 2], List.replicate 70 7, []].foldl write create).alloc = 128 := by decide

/-! ## C01: typed fields read back -/

/-- A fixed-size field as a user of the buffer API sees it: a type code, a size in bytes and the
number stored in that many bytes. -/
structure Field where
  type : Nat
  size : Nat
  val : Nat
  deriving DecidableEq, Repr

/-- The number fits its size; sizes are those of the C scalar types (at least one byte, well below
the 16-bit limit); type codes are 16-bit. -/
def Field.Valid (f : Field) : Prop :=
  f.type < 65536 ∧ 1 ≤ f.size ∧ f.size < 65536 ∧ f.val < 256 ^ f.size

/-- Writing one field with the typed write functions. -/
def writeField (b : Buf) (f : Field) : Buf :=
  writeTLV b f.type f.size (leBytes f.size f.val)

/-- Reading one field back: 16-bit type, 16-bit length, then `size` bytes. -/
def readField (b : Buf) (size : Nat) : Res (Field × Buf) := do
  let (t, b) ← readLE b 2
  let (n, b) ← readLE b 2
  let (v, b) ← readLE b size
  pure ({ type := t, size := n, val := v }, b)

/-- Reading fields of the given sizes in order. -/
def readFields (b : Buf) : List Nat → Res (List Field)
  | [] => .ok []
  | s :: ss => do
    let (f, b) ← readField b s
    let fs ← readFields b ss
    pure (f :: fs)

/-- The encoding of a valid field. -/
private def image (f : Field) : Bytes := leBytes 2 f.type ++ leBytes 2 f.size ++ leBytes f.size f.val

private theorem writeField_data {f : Field} (h : f.Valid) (b : Buf) :
    (writeField b f).data = b.data ++ image f := by
  obtain ⟨_, _, h2, _⟩ := h
  simp only [writeField, image, writeTLV_data, Nat.mod_eq_of_lt h2]
  rw [List.take_of_length_le (by simp)]

private theorem writeFields_data {fs : List Field} (h : ∀ f ∈ fs, f.Valid) (b : Buf) :
    (fs.foldl writeField b).data = b.data ++ (fs.map image).flatten := by
  induction fs generalizing b with
  | nil => simp
  | cons f fs ih =>
    simp only [List.foldl_cons, List.map_cons, List.flatten_cons]
    rw [ih (fun g hg => h g (List.mem_cons_of_mem _ hg)), writeField_data (h f List.mem_cons_self)]
    simp

private theorem writeFields_inv {fs : List Field} {b : Buf} (hb : Inv b) :
    Inv (fs.foldl writeField b) ∧ (fs.foldl writeField b).rd = b.rd := by
  induction fs generalizing b with
  | nil => exact ⟨hb, rfl⟩
  | cons f fs ih =>
    have := ih (b := writeField b f) (inv_writeTLV hb _ _ _)
    simpa [writeField] using this

private theorem readField_image {f : Field} (h : f.Valid) {b : Buf} {pre post : Bytes}
    (hd : b.data = pre ++ (image f ++ post)) (hrd : b.rd = pre.length)
    (ha : pre.length + (image f).length < b.alloc) :
    readField b f.size = .ok (f, { b with rd := pre.length + (image f).length }) := by
  obtain ⟨h1, h2, h3, h4⟩ := h
  have hlen : (image f).length = 4 + f.size := by simp [image]; omega
  rw [hlen] at ha
  have e1 : readLE b 2 = .ok (leNat (leBytes 2 f.type), { b with rd := pre.length + 2 }) := by
    apply readLE_mid (pre := pre) (post := leBytes 2 f.size ++ leBytes f.size f.val ++ post) _ hrd
    · simp
    · omega
    · simp [hd, image]
  have e2 : readLE { b with rd := pre.length + 2 } 2
      = .ok (leNat (leBytes 2 f.size), { b with rd := pre.length + 4 }) := by
    have := readLE_mid (b := { b with rd := pre.length + 2 }) (pre := pre ++ leBytes 2 f.type)
      (mid := leBytes 2 f.size) (post := leBytes f.size f.val ++ post) (k := 2)
      (by simp [hd, image]) (by simp) (by simp) (by simp; omega)
    simpa using this
  have e3 : readLE { b with rd := pre.length + 4 } f.size
      = .ok (leNat (leBytes f.size f.val), { b with rd := pre.length + 4 + f.size }) := by
    have := readLE_mid (b := { b with rd := pre.length + 4 })
      (pre := pre ++ leBytes 2 f.type ++ leBytes 2 f.size)
      (mid := leBytes f.size f.val) (post := post) (k := f.size)
      (by simp [hd, image]) (by simp) (by simp) (by simp; omega)
    simpa using this
  simp only [readField, e1, e2, e3, Res.ok_bind, leNat_leBytes, Res.pure_eq, hlen]
  rw [Nat.mod_eq_of_lt h4, Nat.mod_eq_of_lt (by simpa using h1), Nat.mod_eq_of_lt (by simpa using h3)]
  simp [Nat.add_assoc]

private theorem readFields_images {fs : List Field} (h : ∀ f ∈ fs, f.Valid) {b : Buf} {pre : Bytes}
    (hd : b.data = pre ++ (fs.map image).flatten) (hrd : b.rd = pre.length)
    (ha : b.data.length < b.alloc) :
    readFields b (fs.map Field.size) = .ok fs := by
  induction fs generalizing b pre with
  | nil => rfl
  | cons f fs ih =>
    have hf := h f List.mem_cons_self
    simp only [List.map_cons, readFields]
    rw [readField_image hf (pre := pre) (post := (fs.map image).flatten) (by simpa using hd) hrd
      (by rw [hd] at ha; simp at ha; omega)]
    simp only [Res.ok_bind]
    rw [ih (fun g hg => h g (List.mem_cons_of_mem _ hg))
      (b := { b with rd := pre.length + (image f).length }) (pre := pre ++ image f)
      (by simpa using hd) (by simp) ha]
    rfl

/-- C01 (part that holds). If the fields written to a new buffer do not fill its allocation
exactly, reading the same sizes returns exactly the fields written, in order.
Missing: the exactly-full case, in which the code fails (next two theorems). -/
theorem C01_fields_read_back_partial (fs : List Field) (h : ∀ f ∈ fs, f.Valid)
    (hfull : (fs.foldl writeField create).data.length ≠ (fs.foldl writeField create).alloc) :
    readFields (fs.foldl writeField create) (fs.map Field.size) = .ok fs := by
  have hi := writeFields_inv (fs := fs) inv_create
  have hlt : (fs.foldl writeField create).data.length < (fs.foldl writeField create).alloc :=
    Nat.lt_of_le_of_ne hi.1.fits hfull
  refine readFields_images h (pre := []) ?_ (by simpa [create] using hi.2) hlt
  rw [writeFields_data h]
  simp [create]

private def demo : List Field := [⟨0x505, 2, 513⟩, ⟨0x509, 8, 2 ^ 63 + 5⟩, ⟨0x500, 1, 1⟩]

example : (∀ f ∈ demo, f.Valid) ∧
    (demo.foldl writeField create).data.length ≠ (demo.foldl writeField create).alloc := by
  refine ⟨?_, by decide⟩
  intro f hf
  simp only [demo, List.mem_cons, List.not_mem_nil, or_false] at hf
  rcases hf with rfl | rfl | rfl <;> simp [Field.Valid]

/-- C01, the failing case in general: whenever the fields fill the allocation exactly, reading them
back fails. -/
theorem C01_exactly_full_always_fails (fs : List Field) (hne : fs ≠ [])
    (h : ∀ f ∈ fs, f.Valid)
    (hfull : (fs.foldl writeField create).data.length = (fs.foldl writeField create).alloc) :
    readFields (fs.foldl writeField create) (fs.map Field.size) = .fail := by
  have gen : ∀ (fs : List Field) (b : Buf) (pre : Bytes), fs ≠ [] → (∀ f ∈ fs, f.Valid) →
      b.data = pre ++ (fs.map image).flatten → b.rd = pre.length → b.data.length = b.alloc →
      readFields b (fs.map Field.size) = .fail := by
    intro fs
    induction fs with
    | nil => intro b pre hne; exact absurd rfl hne
    | cons f fs ih =>
      intro b pre _ hv hd hrd hal
      have hf := hv f List.mem_cons_self
      simp only [List.map_cons, readFields]
      by_cases hfs : fs = []
      · subst hfs
        obtain ⟨h1, h2, h3, h4⟩ := hf
        have hlen : (image f).length = 4 + f.size := by simp [image]; omega
        have hal' : pre.length + (4 + f.size) = b.alloc := by
          rw [← hal, hd]; simp [hlen]
        have e1 : readLE b 2 = .ok (leNat (leBytes 2 f.type), { b with rd := pre.length + 2 }) := by
          apply readLE_mid (pre := pre) (post := leBytes 2 f.size ++ leBytes f.size f.val) _ hrd
          · simp
          · omega
          · simp [hd, image]
        have e2 : readLE { b with rd := pre.length + 2 } 2
            = .ok (leNat (leBytes 2 f.size), { b with rd := pre.length + 4 }) := by
          have := readLE_mid (b := { b with rd := pre.length + 2 })
            (pre := pre ++ leBytes 2 f.type) (mid := leBytes 2 f.size)
            (post := leBytes f.size f.val) (k := 2)
            (by simp [hd, image]) (by simp) (by simp) (by simp; omega)
          simpa using this
        have e3 : readLE { b with rd := pre.length + 4 } f.size = .fail := by
          simp only [readLE, Verif.Buffer.read]
          rw [if_neg (by omega)]
          rfl
        simp [readField, e1, e2, e3]
      · have hpos : 0 < ((fs.map image).flatten).length := by
          obtain ⟨g, gs, rfl⟩ := List.exists_cons_of_ne_nil hfs
          simp [image]
          omega
        rw [readField_image hf (pre := pre) (post := (fs.map image).flatten) (by simpa using hd) hrd
          (by rw [← hal, hd]; simp at hpos ⊢; omega)]
        simp only [Res.ok_bind]
        rw [ih { b with rd := pre.length + (image f).length } (pre ++ image f) hfs (fun g hg => hv g (List.mem_cons_of_mem _ hg))
          (by simpa using hd) (by simp) hal]
        rfl
  have hi := writeFields_inv (fs := fs) inv_create
  refine gen fs _ [] hne h ?_ (by simpa [create] using hi.2) hfull
  rw [writeFields_data h]
  simp [create]

/-- Eight 32-bit integers occupy exactly 64 bytes. -/
private def eight : List Field := List.replicate 8 ⟨0x507, 4, 42⟩

/-- C01 fails: eight 32-bit integers written to a new buffer cannot all be read back. -/
theorem C01_fields_read_back_fails :
    ∃ fs : List Field, (∀ f ∈ fs, f.Valid) ∧
      readFields (fs.foldl writeField create) (fs.map Field.size) = .fail := by
  refine ⟨eight, ?_, by decide⟩
  intro f hf
  rw [eight, List.mem_replicate] at hf
  rw [hf.2]
  simp [Field.Valid]

end Verif.Props.Buf
