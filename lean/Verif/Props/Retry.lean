import Verif.Spec.Retry

/-!
# C51: a synchronous subscribe waits no longer than asked
-/

namespace Verif.Props

open Verif Verif.Retry

private theorem nextSleep_eq (k : Nat) :
    nextSleep (1000 * min (2 ^ k) 60) = 1000 * min (2 ^ (k + 1)) 60 := by
  rw [Nat.pow_succ]
  generalize 2 ^ k = x
  unfold nextSleep maxWait
  by_cases h : 1000 * min x 60 * 2 > 60000
  · rw [if_pos h]; omega
  · rw [if_neg h]; omega

/-- The number of waits before the first attempt that is not answered by "no provider", if `waits`
is all there is. -/
def before (answer : Nat → Answer) (k : Nat) : List Nat → List Nat
  | [] => []
  | w :: ws => if answer k = .notFound then w :: before answer (k + 1) ws else []

private theorem loop_schedule (answer : Nat → Answer) (k : Nat) (left : Nat) :
    (loop answer k (left * 1000 : Nat) (1000 * min (2 ^ k) 60)) =
      (before answer k (schedule k left),
        answer (k + (before answer k (schedule k left)).length)) := by
  induction left using Nat.strongRecOn generalizing k with
  | ind left ih =>
    rw [loop, schedule]
    by_cases h0 : left = 0
    · subst h0
      rw [if_neg (by omega), dif_pos rfl]
      rfl
    · have hp : 0 < 2 ^ k := Nat.two_pow_pos k
      rw [dif_neg h0]
      by_cases ha : answer k = .notFound
      · rw [if_pos ⟨ha, by omega, by omega⟩]
        simp only [before, ha, if_true, List.length_cons, sleepTime]
        rw [nextSleep_eq]
        by_cases hl : min (2 ^ k) 60 ≤ left
        · rw [show ((left * 1000 : Nat) : Int) - (1000 * min (2 ^ k) 60 : Nat) =
            ((left - min (2 ^ k) 60) * 1000 : Nat) by omega]
          rw [ih _ (by omega), if_neg (by omega), show min (min (2 ^ k) 60) left = min (2 ^ k) 60 by omega]
          rw [Nat.mul_div_cancel_left _ (by omega)]
          simp only [Prod.mk.injEq, true_and]
          congr 1; omega
        · have hm : min (min (2 ^ k) 60) left = left := by omega
          rw [if_pos (by omega), hm, Nat.sub_self]
          rw [loop, if_neg (by omega), schedule, dif_pos rfl]
          rw [Int.toNat_natCast, Nat.mul_div_cancel _ (by omega)]
          simp [before]
      · rw [if_neg (fun h => ha h.1)]
        simp [before, ha]

private theorem schedule_sum (k left : Nat) : (schedule k left).sum = left := by
  induction left using Nat.strongRecOn generalizing k with
  | ind left ih =>
    rw [schedule]
    by_cases h0 : left = 0
    · rw [dif_pos h0]; simp [h0]
    · have hp : 0 < 2 ^ k := Nat.two_pow_pos k
      rw [dif_neg h0]
      simp only [List.sum_cons]
      rw [ih _ (by omega)]
      omega

private theorem before_notFound (answer : Nat → Answer) (ws : List Nat) (k : Nat)
    (h : ∀ j, k ≤ j → j < k + ws.length → answer j = .notFound) : before answer k ws = ws := by
  induction ws generalizing k with
  | nil => rfl
  | cons w ws ih =>
    simp only [List.length_cons] at h
    rw [before, if_pos (h k (by omega) (by omega)), ih (k + 1) (fun j h1 h2 => h j (by omega) (by omega))]

private theorem before_sum (answer : Nat → Answer) (ws : List Nat) (k : Nat) :
    (before answer k ws).sum ≤ ws.sum := by
  induction ws generalizing k with
  | nil => simp [before]
  | cons w ws ih =>
    rw [before]
    split
    · simp only [List.sum_cons]; have := ih (k + 1); omega
    · simp

private theorem before_take (answer : Nat → Answer) (ws : List Nat) (n k : Nat) (hn : n ≤ ws.length)
    (h : ∀ j, k ≤ j → j < k + n → answer j = .notFound) (hs : answer (k + n) ≠ .notFound) :
    before answer k ws = ws.take n := by
  induction ws generalizing k n with
  | nil => simp [before]
  | cons w ws ih =>
    cases n with
    | zero => rw [before, if_neg (by simpa using hs)]; rfl
    | succ n =>
      rw [before, if_pos (h k (by omega) (by omega)), List.take_succ_cons,
        ih n (k + 1) (by simpa using hn) (fun j h1 h2 => h j (by omega) (by omega))
          (by rw [show k + 1 + n = k + (n + 1) by omega]; exact hs)]

/-- **C51.** With no provider, a synchronous subscribe with a timeout of `t` seconds terminates after
finitely many attempts, waits 1, 2, 4, ... up to 60 seconds in between, and `t` seconds in all; then
it reports that there is no provider. -/
theorem C51_waits_as_asked_partial (handleTimeout : Int) (t : Nat) (ht : t * 1000 < 2 ^ 31) :
    subscribe handleTimeout t (fun _ => .notFound) = .ok (schedule 0 t, .notFound) ∧
    (schedule 0 t).sum = t := by
  refine ⟨?_, schedule_sum 0 t⟩
  have := loop_schedule (fun _ => .notFound) 0 t
  rw [before_notFound _ _ _ (fun _ _ _ => rfl)] at this
  simp only [subscribe, timeoutMs]
  rw [if_neg (by omega), if_pos (by omega)]
  simp only [Res.ok_bind, Res.pure_eq]
  rw [← this]
  rfl

/-- **C51.** A provider that shows up in time is found: if the attempts before number `n` find none
and `n` is within the schedule, then exactly the first `n` waits are made and the answer to attempt
`n` is the result. -/
theorem C51_finds_provider_partial (handleTimeout : Int) (t : Nat) (ht : t * 1000 < 2 ^ 31)
    (answer : Nat → Answer) (n : Nat) (hn : n ≤ (schedule 0 t).length)
    (h : ∀ j, j < n → answer j = .notFound) (hs : answer n ≠ .notFound) :
    subscribe handleTimeout t answer = .ok ((schedule 0 t).take n, answer n) := by
  have := loop_schedule answer 0 t
  rw [before_take answer _ n 0 hn (fun j _ h2 => h j (by omega)) (by simpa using hs)] at this
  simp only [subscribe, timeoutMs]
  rw [if_neg (by omega), if_pos (by omega)]
  simp only [Res.ok_bind, Res.pure_eq]
  rw [List.length_take, Nat.min_eq_left hn, Nat.zero_add] at this
  rw [← this]
  rfl

private theorem sum_bound' {left : Int} {sleep a b z : Nat} (h1 : (z : Int) ≤ left)
    (h2 : ¬ (sleep : Int) > left → z = sleep) (hd : a ≤ z)
    (i : (b : Int) ≤ max (left - sleep) 0) :
    ((a + b : Nat) : Int) ≤ max left 0 := by
  omega

private theorem sum_bound {left : Int} {sleep x y z : Nat} (h1 : (z : Int) ≤ left)
    (h2 : ¬ (sleep : Int) > left → z = sleep) (hd : y * 1000 ≤ z)
    (i : ((x * 1000 : Nat) : Int) ≤ max (left - sleep) 0) :
    (((y + x) * 1000 : Nat) : Int) ≤ max left 0 := by
  rw [Nat.add_mul]
  exact sum_bound' h1 h2 hd i

private theorem loop_le (answer : Nat → Answer) (k : Nat) (left : Int) (sleep : Nat) :
    (((loop answer k left sleep).1.sum * 1000 : Nat) : Int) ≤ max left 0 ∧
    ∀ w ∈ (loop answer k left sleep).1, sleep ≤ maxWait → w ≤ 60 := by
  fun_induction loop answer k left sleep with
  | case1 k left sleep h rest ih =>
    obtain ⟨h1, h2, h3⟩ := h
    obtain ⟨i1, i2⟩ := ih
    have hst : (sleepTime left sleep : Int) ≤ left ∧ sleepTime left sleep ≤ sleep ∧
        (¬ (sleep : Int) > left → sleepTime left sleep = sleep) := by
      simp only [sleepTime]; split <;> omega
    have hd : sleepTime left sleep / 1000 * 1000 ≤ sleepTime left sleep := Nat.div_mul_le_self _ _
    constructor
    · simp only [List.sum_cons, rest]
      exact sum_bound hst.1 hst.2.2 hd i1
    · intro w hw hs
      rcases List.mem_cons.mp hw with rfl | hw
      · simp only [maxWait] at hs; omega
      · apply i2 w hw
        simp only [nextSleep]; split <;> omega
  | case2 => simp; omega

/-- **C51.** Whatever timeout applies (also the one configured for the handle, in milliseconds) and
whatever the bus answers, the loop terminates, the waits together are at most the timeout, and none is
longer than a minute. -/
theorem C51_waits_bounded (handleTimeout timeout : Int) (answer : Nat → Answer)
    (ws : List Nat) (a : Answer) (h : subscribe handleTimeout timeout answer = .ok (ws, a)) :
    ((ws.sum * 1000 : Nat) : Int) ≤ max 0 (if timeout = -1 then handleTimeout else timeout * 1000) ∧
    (∀ w ∈ ws, w ≤ 60) ∧ a = answer ws.length := by
  have hlen : ∀ k left sleep, (loop answer k left sleep).2 =
      answer (k + (loop answer k left sleep).1.length) := by
    intro k left sleep
    fun_induction loop answer k left sleep with
    | case1 k left sleep h rest ih =>
      simp only [List.length_cons, rest]
      rw [ih]; congr 1; omega
    | case2 => rfl
  simp only [subscribe, timeoutMs] at h
  split at h
  · rename_i hm
    simp only [Res.ok_bind, Res.pure_eq, Res.ok.injEq] at h
    have h1 := loop_le answer 0 handleTimeout 1000
    have h2 := hlen 0 handleTimeout 1000
    rw [h] at h1 h2
    rw [if_pos hm]
    exact ⟨by have := h1.1; simp only at this; omega, fun w hw => h1.2 w hw (by decide), by simpa using h2⟩
  · rename_i hm
    split at h
    · simp only [Res.ok_bind, Res.pure_eq, Res.ok.injEq] at h
      have h1 := loop_le answer 0 (timeout * 1000) 1000
      have h2 := hlen 0 (timeout * 1000) 1000
      rw [h] at h1 h2
      rw [if_neg hm]
      exact ⟨by have := h1.1; simp only at this; omega, fun w hw => h1.2 w hw (by decide), by simpa using h2⟩
    · cases h

/-- **C51 fails** for a timeout of 2147484 seconds (25 days) or more: converting it to milliseconds
overflows. -/
theorem C51_long_timeout_fails (handleTimeout : Int) (t : Nat) (ht : 2 ^ 31 ≤ t * 1000)
    (answer : Nat → Answer) : subscribe handleTimeout t answer = .ub := by
  simp only [subscribe, timeoutMs]
  rw [if_neg (by omega), if_neg (by omega)]
  rfl

example : 600 * 1000 < 2 ^ 31 := by decide
example : schedule 0 10 = [1, 2, 4, 3] := by decide +kernel
example : 3 ≤ (schedule 0 100).length ∧
    (fun n => if n < 3 then Answer.notFound else .success) 3 ≠ .notFound := by decide +kernel
example : 2 ^ 31 ≤ 2147484 * 1000 := by decide
example : subscribe 15500 (-1) (fun _ => .notFound) = .ok ([1, 2, 4, 8, 0], .notFound) := by
  decide +kernel

end Verif.Props
