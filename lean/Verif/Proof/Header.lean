import Verif.Model.Header

namespace Verif.Header

open Verif

theorem takeN_append {k : Nat} (x rest : Bytes) (h : x.length = k) :
    takeN (x ++ rest) k = .ok (x, rest) := by
  subst h
  simp [takeN]

theorem takeBE_append {k n : Nat} (rest : Bytes) (h : n < 256 ^ k) :
    takeBE (beBytes k n ++ rest) k = .ok (n, rest) := by
  simp [takeBE, takeN_append, beNat_beBytes, Nat.mod_eq_of_lt h]

theorem cstr_clean {s : Bytes} (h : (0 : UInt8) ∉ s) : cstr s = s := by
  unfold cstr
  induction s with
  | nil => rfl
  | cons a s ih =>
    simp only [List.mem_cons, not_or] at h
    rw [List.takeWhile_cons_of_pos (by simpa using fun e => h.1 e.symm), ih h.2]

theorem takeN_cases (bs : Bytes) (k : Nat) (h : k ≤ bs.length) :
    takeN bs k = .ok (bs.take k, bs.drop k) := by simp [takeN, h]

theorem takeBE_cases (bs : Bytes) (k : Nat) (h : k ≤ bs.length) :
    takeBE bs k = .ok (beNat (bs.take k), bs.drop k) := by simp [takeBE, takeN, h]

theorem takeN_inv {bs x rest : Bytes} {k : Nat} (h : takeN bs k = .ok (x, rest)) :
    bs = x ++ rest ∧ x.length = k := by
  unfold takeN at h
  split at h
  · simp only [Res.ok.injEq, Prod.mk.injEq] at h
    obtain ⟨rfl, rfl⟩ := h
    exact ⟨(List.take_append_drop _ _).symm, by simp; omega⟩
  · exact absurd h (by simp)

theorem takeBE_inv {bs rest : Bytes} {k n : Nat} (h : takeBE bs k = .ok (n, rest)) :
    bs = beBytes k n ++ rest ∧ n < 256 ^ k := by
  unfold takeBE at h
  cases ht : takeN bs k with
  | ok p =>
    obtain ⟨x, r⟩ := p
    rw [ht] at h
    simp only [Res.ok_bind, Res.pure_eq, Res.ok.injEq, Prod.mk.injEq] at h
    obtain ⟨rfl, rfl⟩ := h
    obtain ⟨e, hl⟩ := takeN_inv ht
    subst hl
    exact ⟨by rw [beBytes_beNat]; exact e, beNat_lt x⟩
  | fail => rw [ht] at h; exact absurd h (by simp)
  | ub => rw [ht] at h; exact absurd h (by simp)

theorem bind_inv {α β : Type} {x : Res α} {f : α → Res β} {b : β} (h : (x >>= f) = .ok b) :
    ∃ a, x = .ok a ∧ f a = .ok b := by
  cases x with
  | ok a => exact ⟨a, rfl, h⟩
  | fail => exact absurd h (by simp)
  | ub => exact absurd h (by simp)

end Verif.Header
