import Verif.Model.Dispatch

/-!
# Specification of listeners and message callbacks

A history pairs what the threads did with what was seen of it.
-/

namespace Verif.Dispatch

abbrev History := List (Event × Obs)

/-- The listeners that were added and not removed since. -/
def live (h : History) : List Listener :=
  h.foldl (fun L x => match x with
    | (.addWithId _ e cb, .added id) | (.add e cb, .added id) => L ++ [⟨id, e, cb⟩]
    | (_, .removed id) => L.filter (fun l => l.id ≠ id)
    | _ => L) []

/-- Every listener was added under an id no listener had at that time. -/
def FreshIds (h : History) : Prop :=
  ∀ a e id b, h = a ++ (e, Obs.added id) :: b → ∀ l ∈ live a, l.id ≠ id

/-- The messages put in the queue, in order of arrival. -/
def accepted (h : History) : List Msg :=
  h.filterMap (fun x => match x with
    | (.receive m, .queued) => some m
    | _ => none)

/-- The messages given to callbacks, in the order of the calls. -/
def calls (h : History) : List (Msg × Nat) :=
  h.filterMap (fun x => match x with
    | (_, .called m cb) => some (m, cb)
    | _ => none)

/-- The messages a listener was looked up for, with the callback found. -/
def lookups (h : History) : List (Msg × Option Nat) :=
  h.filterMap (fun x => match x with
    | (_, .looked m cb) => some (m, cb)
    | _ => none)

/-- The messages released after their callback returned. -/
def released (h : History) : List Msg :=
  h.filterMap (fun x => match x with
    | (_, .released m) => some m
    | _ => none)

/-- The messages that wait: accepted and not released, the one whose callback runs included. -/
def waiting (h : History) : Nat := (accepted h).length - (released h).length

/-- The ids the application chooses itself are below 10000 and not in use when chosen. -/
def GoodIds (h : History) : Prop :=
  ∀ a id e cb b, h = a ++ (.addWithId id e cb, Obs.added id) :: b →
    id < 10000 ∧ ∀ l ∈ live a, l.id ≠ id

/-- How often the library chose the id. -/
def adds (es : List Event) : Nat :=
  es.countP (fun e => match e with
    | .add _ _ => true
    | _ => false)

end Verif.Dispatch
