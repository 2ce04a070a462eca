/-!
# Shared vocabulary of the model

Bytes are `UInt8`. A C function that can misbehave returns a `Res`: `ok` for a normal return,
`fail` for an error code, and `ub` for undefined behaviour (reading outside an allocation, reading
an uninitialised object, dereferencing NULL).
-/

namespace Verif

/-- Byte strings. C strings are byte strings without the terminating NUL. -/
abbrev Bytes := List UInt8

/-- Outcome of a modelled C function: normal return, error return, undefined behaviour. -/
inductive Res (α : Type) where
  | ok (a : α)
  | fail
  | ub
  deriving DecidableEq, Repr

namespace Res

/-- Sequencing of C statements: stop at the first error return or undefined behaviour. -/
def bind {α β : Type} : Res α → (α → Res β) → Res β
  | ok a, f => f a
  | fail, _ => fail
  | ub, _ => ub

instance : Monad Res where
  pure := ok
  bind := bind

@[simp] theorem ok_bind {α β : Type} (a : α) (f : α → Res β) : (ok a >>= f) = f a := rfl
@[simp] theorem fail_bind {α β : Type} (f : α → Res β) : ((fail : Res α) >>= f) = fail := rfl
@[simp] theorem ub_bind {α β : Type} (f : α → Res β) : ((ub : Res α) >>= f) = ub := rfl
@[simp] theorem pure_eq {α : Type} (a : α) : (pure a : Res α) = ok a := rfl

end Res

/-- `k` bytes of `n`, least significant first (`htole16/32/64`, then memory order). -/
def leBytes : Nat → Nat → Bytes
  | 0, _ => []
  | k + 1, n => UInt8.ofNat n :: leBytes k (n / 256)

/-- The number whose little-endian bytes are given (`le16toh` etc.). -/
def leNat : Bytes → Nat
  | [] => 0
  | b :: bs => b.toNat + 256 * leNat bs

/-- `k` bytes of `n`, most significant first (`htons`, `htonl`, then memory order). -/
def beBytes (k n : Nat) : Bytes := (leBytes k n).reverse

/-- The number whose big-endian bytes are given. -/
def beNat (bs : Bytes) : Nat := leNat bs.reverse

@[simp] theorem leBytes_length (k n : Nat) : (leBytes k n).length = k := by
  induction k generalizing n with
  | zero => rfl
  | succ k ih => simp [leBytes, ih]

@[simp] theorem beBytes_length (k n : Nat) : (beBytes k n).length = k := by
  simp [beBytes]

theorem leNat_leBytes (k n : Nat) : leNat (leBytes k n) = n % 256 ^ k := by
  induction k generalizing n with
  | zero => simp [leBytes, leNat, Nat.mod_one]
  | succ k ih =>
    simp only [leBytes, leNat, ih]
    have h1 : (UInt8.ofNat n).toNat = n % 256 := by simp
    rw [h1, Nat.pow_succ, Nat.mul_comm (256 ^ k) 256, Nat.mod_mul]

theorem beNat_beBytes (k n : Nat) : beNat (beBytes k n) = n % 256 ^ k := by
  simp [beNat, beBytes, leNat_leBytes]

theorem leNat_lt (bs : Bytes) : leNat bs < 256 ^ bs.length := by
  induction bs with
  | nil => simp [leNat]
  | cons b bs ih =>
    simp only [leNat, List.length_cons, Nat.pow_succ]
    have := UInt8.toNat_lt b
    omega

theorem beNat_lt (bs : Bytes) : beNat bs < 256 ^ bs.length := by
  have := leNat_lt bs.reverse
  simpa [beNat] using this

theorem leBytes_leNat (bs : Bytes) : leBytes bs.length (leNat bs) = bs := by
  induction bs with
  | nil => rfl
  | cons b bs ih =>
    simp only [List.length_cons, leBytes, leNat]
    have hb := UInt8.toNat_lt b
    have h1 : (b.toNat + 256 * leNat bs) / 256 = leNat bs := by omega
    have h2 : UInt8.ofNat (b.toNat + 256 * leNat bs) = b := by
      apply UInt8.toNat_inj.mp
      simp
    rw [h1, h2, ih]

theorem beBytes_beNat (bs : Bytes) : beBytes bs.length (beNat bs) = bs := by
  have := leBytes_leNat bs.reverse
  simp only [List.length_reverse] at this
  simp [beBytes, beNat, this]

end Verif
