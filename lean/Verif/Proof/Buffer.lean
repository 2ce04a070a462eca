import Verif.Model.Buffer

namespace Verif.Buffer

open Verif

/-- What every reachable buffer satisfies. -/
structure Inv (b : Buf) : Prop where
  fits : b.data.length ≤ b.alloc
  min : 64 ≤ b.alloc
  mult : 64 ∣ b.alloc

theorem inv_create : Inv create := ⟨by simp [create, blockSize], by simp [create, blockSize],
  by simp [create, blockSize]⟩

theorem reserve_alloc_ge (b : Buf) (n : Nat) : b.alloc ≤ (reserve b n).alloc := by
  unfold reserve blockSize
  simp only []
  split <;> (try simp only []) <;> omega

theorem reserve_fits (b : Buf) (n : Nat) : b.data.length + n ≤ (reserve b n).alloc := by
  unfold reserve blockSize
  simp only []
  split <;> (try simp only []) <;> omega

@[simp] theorem reserve_data (b : Buf) (n : Nat) : (reserve b n).data = b.data := by
  unfold reserve
  simp only []
  split <;> rfl

@[simp] theorem reserve_rd (b : Buf) (n : Nat) : (reserve b n).rd = b.rd := by
  unfold reserve
  simp only []
  split <;> rfl

theorem reserve_mult (b : Buf) (n : Nat) (h : 64 ∣ b.alloc) : 64 ∣ (reserve b n).alloc := by
  unfold reserve blockSize
  simp only []
  split <;> (try simp only []) <;> omega

@[simp] theorem write_data (b : Buf) (bs : Bytes) : (write b bs).data = b.data ++ bs := by
  simp [write]

@[simp] theorem write_rd (b : Buf) (bs : Bytes) : (write b bs).rd = b.rd := by
  simp [write]

theorem write_alloc (b : Buf) (bs : Bytes) : (write b bs).alloc = (reserve b bs.length).alloc := by
  simp [write]

theorem inv_write {b : Buf} (h : Inv b) (bs : Bytes) : Inv (write b bs) := by
  constructor
  · rw [write_alloc]
    have := reserve_fits b bs.length
    simpa using this
  · rw [write_alloc]
    have := reserve_alloc_ge b bs.length
    have := h.min
    omega
  · rw [write_alloc]
    exact reserve_mult b _ h.mult

@[simp] theorem writeTLV_data (b : Buf) (t n : Nat) (v : Bytes) :
    (writeTLV b t n v).data =
      b.data ++ (leBytes 2 t ++ leBytes 2 (n % 65536) ++ v.take (n % 65536)) := by
  simp [writeTLV]

@[simp] theorem writeTLV_rd (b : Buf) (t n : Nat) (v : Bytes) : (writeTLV b t n v).rd = b.rd := by
  simp [writeTLV]

theorem inv_writeTLV {b : Buf} (h : Inv b) (t n : Nat) (v : Bytes) : Inv (writeTLV b t n v) := by
  simp only [writeTLV]
  exact inv_write (inv_write (inv_write h _) _) _

/-- Reading the middle part of a buffer. -/
theorem read_mid {b : Buf} {pre mid post : Bytes} {k : Nat} (hd : b.data = pre ++ (mid ++ post))
    (hrd : b.rd = pre.length) (hk : mid.length = k) (ha : pre.length + k < b.alloc) :
    read b k = .ok (mid, { b with rd := pre.length + k }) := by
  subst hk
  unfold read
  have h1 : b.rd + mid.length < b.alloc := by omega
  have h2 : b.rd + mid.length ≤ b.data.length := by simp [hd, hrd]
  rw [if_pos h1, if_pos h2]
  simp [hd, hrd]

theorem readLE_mid {b : Buf} {pre mid post : Bytes} {k : Nat} (hd : b.data = pre ++ (mid ++ post))
    (hrd : b.rd = pre.length) (hk : mid.length = k) (ha : pre.length + k < b.alloc) :
    readLE b k = .ok (leNat mid, { b with rd := pre.length + k }) := by
  simp [readLE, read_mid hd hrd hk ha]

end Verif.Buffer
