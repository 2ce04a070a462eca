import Verif.Model.Pending

/-!
# Specification of requests and responses
-/

namespace Verif.Pending

abbrev History := List (Event × Obs)

/-- Request `r` was sent with number `q`, later message `m` arrived, and `r` had not returned before. -/
def AnsweredBy (h : History) (r q : Nat) (m : Resp) : Prop :=
  ∃ a b c e f, h = a ++ (e, .sent r q) :: b ++ (f, .arrived m) :: c ∧
    ∀ g res, (g, Obs.returned r res) ∉ a ++ (e, .sent r q) :: b

/-- The number of sequence numbers taken. -/
def numbers (es : List Event) : Nat :=
  es.countP (fun e => match e with
    | .push _ | .other => true
    | _ => false)

/-- The thread that reads or changes the list of pending requests, or an entry reachable from it, or
unlocks the mutex, in a step. -/
def uses : Event → Option Thread
  | .push r | .sendOk r | .sendFail r | .take r | .finish r | .giveUp r => some (.request r)
  | .readerScan | .readerUnlock => some .reader
  | _ => none

end Verif.Pending
