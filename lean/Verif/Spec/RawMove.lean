import Verif.Model.RawMove

/-!
# Specification of data sent as is while private connections come and go

What a reader of the history knows: who has subscribed to what, and by which way an event comes.
-/

namespace Verif.Spec.RawMove

open Verif Verif.RawMove

abbrev History := List (Event × Out)

/-- The way an event comes to the subscriber: not at all, through the router, over the private connection,
or through the router for the handle of a private connection that is being closed or is closed. -/
inductive Way where
  | nowhere
  | router
  | direct
  | lent (handle : Nat)
  deriving DecidableEq, Repr

/-- Handler and user data of the subscription to each event; its way; the events with a private connection;
the handles closed; whether the consumer's thread is in the middle of opening or closing. -/
structure Sheet where
  sub : Nat → Option (Nat × Nat)
  way : Nat → Way
  isOpen : Nat → Bool
  closed : List Nat
  busy : Bool

/-- The function with one value changed. -/
def upd {α : Type} (f : Nat → α) (e : Nat) (a : α) : Nat → α := fun x => if x = e then a else f x

/-- What is known after another step. -/
def note (v : Sheet) : Event × Out → Sheet
  | (.subscribe e h u, .subscribed) =>
    { v with sub := upd v.sub e (some (h, u)), way := upd v.way e (if v.isOpen e then .direct else .router) }
  | (.unsubscribe e, .unsubscribed) => { v with sub := upd v.sub e none, way := upd v.way e .nowhere }
  | (_, .connected e _) => { v with isOpen := upd v.isOpen e true, busy := true }
  | (_, .leftRouter e) => { v with way := upd v.way e .nowhere }
  | (_, .opened e) =>
    { v with way := upd v.way e (if (v.sub e).isSome then .direct else .nowhere), busy := false }
  | (_, .leftPrivate e) => { v with way := upd v.way e .nowhere, busy := true }
  | (_, .nothingHeard _) => { v with busy := true }
  | (_, .returned e k) => { v with way := upd v.way e (.lent k) }
  | (_, .closed e k) => { v with isOpen := upd v.isOpen e false, closed := k :: v.closed, busy := false }
  | _ => v

/-- At the beginning. -/
def blank : Sheet := ⟨fun _ => none, fun _ => .nowhere, fun _ => false, [], false⟩

/-- What is known after a history. -/
def sheet (h : History) : Sheet := h.foldl note blank

/-- What publishing an event leads to: the calls of handlers, or undefined behaviour. -/
def due (v : Sheet) (e : Nat) : Res (List Call) :=
  match v.sub e with
  | none => .ok []
  | some (h, u) =>
    match v.way e with
    | .nowhere => .ok []
    | .router => .ok [⟨h, u, 0, .raw e⟩]
    | .direct => .ok [⟨h, u, 0, .inbox⟩]
    | .lent k => if k ∈ v.closed then .ub else .ok [⟨h, u, k, .raw e⟩]

/-- The contexts that no listener refers to. -/
def orphans (s : State) : Nat :=
  (s.ctxs.filter (fun c => !(s.main ++ s.priv).any (fun l => l.ctx == c.addr))).length

end Verif.Spec.RawMove
