import Verif.Model.Base

/-!
# Model of `src/rtmessage/rtTime.c`

`time_t` and `long` are 64 bits wide and taken as unbounded integers. NULL arguments, which stand for
the current time, are left to the caller.
-/

namespace Verif.Time

/-- `rtTime_t`, a `struct timespec` (rtTime.h). -/
structure Time where
  sec : Int
  nsec : Int
  deriving DecidableEq, Repr

/-- Conversion of a `long` to `int`, keeping the low 32 bits. -/
def toInt32 (n : Int) : Int := (BitVec.ofInt 32 n).toInt

/-- `rtTime_Later` (rtTime.c:45-63); `ms` is an `unsigned int`, and `(ms % 1000) * 1000000` fits one. -/
def later (t : Time) (ms : BitVec 32) : Time :=
  let sec := t.sec + (ms.toNat / 1000 : Nat)
  let nsec := t.nsec + (ms.toNat % 1000 * 1000000 : Nat)
  if nsec ≥ 1000000000 then { sec := sec + 1, nsec := nsec - 1000000000 } else { sec, nsec }

/-- `rtTime_Elapsed` (rtTime.c:65-88). C division truncates towards zero. -/
def elapsed (start stop : Time) : Int :=
  if stop.nsec ≥ start.nsec then
    toInt32 ((stop.sec - start.sec) * 1000 + (stop.nsec - start.nsec).tdiv 1000000)
  else
    toInt32 ((stop.sec - start.sec - 1) * 1000 +
      (1000000000 + stop.nsec - start.nsec).tdiv 1000000)

/-- `rtTime_Compare` (rtTime.c:90-119). -/
def compare (l r : Time) : Int :=
  if l.sec < r.sec ∨ (l.sec = r.sec ∧ l.nsec < r.nsec) then -1
  else if l.sec > r.sec ∨ (l.sec = r.sec ∧ l.nsec > r.nsec) then 1
  else 0

end Verif.Time
