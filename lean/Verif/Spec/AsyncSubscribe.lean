import Verif.Model.AsyncSubscribe
import Verif.Proof.Exec
import Verif.Spec.Time

/-!
# Vocabulary for asynchronous subscriptions

A history lists what happened with what was seen of it. Times are compared in nanoseconds; a handle's timeout is
in milliseconds.
-/

namespace Verif.Spec.Async

open Verif Verif.Async Verif.Time
open Verif.Spec.Time (Normal nanos)

/-- What happened and what was seen. -/
abbrev History := List (Op × Out)

/-- `h` leads from the start to `s`. -/
def Leads (sc : Bool) (timeout : Nat → Nat) (h : History) (s : State) : Prop :=
  Exec (step sc timeout) State.init h s

/-- Request number `id` was made through a handle at a time. -/
def Accepted (h : History) (id handle : Nat) (t : Time) : Prop :=
  ∃ e f, (Op.request handle e f t, Out.accepted id) ∈ h

/-- The callback of request `id` was called with a code. -/
def Completed (h : History) (id : Nat) (code : Int) : Prop := ∃ e, (e, Out.done id code) ∈ h

/-- The application took request `id` back, or closed its handle. -/
def Withdrawn (h : History) (id : Nat) : Prop :=
  ∃ e, (e, Out.cancelled id) ∈ h ∨ (e, Out.closed (some id)) ∈ h

/-- The requests whose callbacks were called, in order. -/
def completions (h : History) : List Nat :=
  h.filterMap fun e => match e.2 with | .done id _ => some id | _ => none

/-- How often request `id` was put off. -/
def retries (h : History) (id : Nat) : Nat :=
  h.countP fun e => match e.2 with | .retry i _ => i = id | _ => false

/-- The delay in milliseconds after `k` earlier ones: one second, doubled each time, at most a minute. -/
def delay (k : Nat) : Nat := min (1000 * 2 ^ k) 60000

/-- When request `id` is due next. -/
def dueTime (h : History) (id : Nat) : Option Time :=
  h.foldl (fun d e =>
    match e with
    | (.request _ _ _ t, .accepted i) => if i = id then some t else d
    | (_, .retry i t) => if i = id then some t else d
    | _ => d) none

/-- The time the worker read last. -/
def workerTime (h : History) : Option Time :=
  h.foldl (fun d e =>
    match e with
    | (.check _ t, .sending) => some t
    | (.answer _ t, _) => some t
    | _ => d) none

/-- The times an event carries. -/
def times : Op → List Time
  | .request _ _ _ t => [t]
  | .check t t' => [t, t']
  | .answer _ t => [t]
  | _ => []

/-- The answers to requests come after these, and within 2^32 milliseconds (49 days); timeouts are a minute
shorter than that. -/
structure Clock (timeout : Nat → Nat) (h : History) : Prop where
  timeouts : ∀ n, timeout n + 60000 < 2 ^ 32
  normal : ∀ x ∈ h, ∀ t ∈ times x.1, Normal t
  order : h.Pairwise fun x y => ∀ n e f t a t', x.1 = .request n e f t → y.1 = .answer a t' →
    nanos t ≤ nanos t' ∧ nanos t' < nanos t + 2 ^ 32 * 1000000

end Verif.Spec.Async
