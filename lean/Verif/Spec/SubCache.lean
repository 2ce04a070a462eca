import Verif.Model.SubCache
import Verif.Spec.Filter

/-!
# What the subscription cache should do
-/

namespace Verif.Spec.SubCache

open Verif Verif.SubCache Verif.Filter

/-- The number some decimal digits denote. -/
def number (ds : Bytes) : Nat := ds.foldl (fun n c => n * 10 + (c.toNat - 48)) 0

/-- The listener is the inbox of process `pid`: its name ends with a dot and the process number. -/
def Inbox (listener : Bytes) (pid : Nat) : Prop :=
  0 < pid ∧ 0 ∉ listener ∧
    ∃ base ds, listener = base ++ 46 :: ds ∧ (∀ c ∈ ds, 48 ≤ c ∧ c ≤ 57) ∧ number ds = pid

/-- The process and the component that made the subscription still run. -/
def Alive (env : Env) (r : Rec) : Prop :=
  ∃ pid, Inbox r.listener pid ∧ env.running pid = true ∧ env.present pid r.componentId = true

/-- Subscriptions as consumers make them: names of less than 255 characters, and no filter or one that can be
stored. -/
structure Ordinary (r : Rec) : Prop where
  inbox : ∃ pid, Inbox r.listener pid
  listener : r.listener.length < 255
  event : r.eventName.length < 255
  eventText : 0 ∉ r.eventName
  filter : r.filter = .null ∨ Storable r.filter

/-- The names and numbers of a record stand in the file one after the other, each after four bytes telling its
type and length: the two names with a NUL behind them, and seven numbers, the last of which tells whether a
filter follows. -/
def Stands (file : Bytes) (r : Rec) : Prop :=
  ∃ (pre post x y h₁ h₂ h₃ h₄ h₅ h₆ h₇ h₈ h₉ auto raw flag : Bytes),
    (∀ h ∈ [h₁, h₂, h₃, h₄, h₅, h₆, h₇, h₈, h₉, auto, raw, flag], h.length = 4) ∧
    file = pre ++ (h₁ ++ (r.listener ++ 0 :: x)) ++ (h₂ ++ (r.eventName ++ 0 :: y))
      ++ (h₃ ++ leBytes 4 r.componentId.toNat) ++ (h₄ ++ leBytes 4 r.interval.toNat)
      ++ (h₅ ++ leBytes 4 r.duration.toNat) ++ (h₆ ++ auto) ++ (h₇ ++ leBytes 4 r.subscriptionId.toNat)
      ++ (h₈ ++ raw) ++ (h₉ ++ flag) ++ post ∧
    r.autoPublish = (auto.head? != some 0) ∧ r.rawData = (raw.head? != some 0) ∧
    0 ∉ r.listener ∧ 0 ∉ r.eventName ∧ (flag = [0, 0, 0, 0] → r.filter = .null)

end Verif.Spec.SubCache
