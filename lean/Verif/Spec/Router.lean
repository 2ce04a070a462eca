import Verif.Spec.Routing

/-!
# What the router is meant to keep

A table of routes and of the names registered for them; unlike the router's tree it is flat.
-/

namespace Verif.Spec.Router

open Verif Verif.Spec.Routing

/-- A route: whose it is, the id the client gave it and the name it was made with. -/
structure Route where
  uid : Nat
  client : Nat
  id : Int
  main : Name
  deriving DecidableEq, Repr

/-- The routes, the names registered (with the route each leads to), and the next free number. -/
structure Table where
  routes : List Route
  regs : List (Name × Nat)
  next : Nat
  deriving DecidableEq, Repr

/-- A client subscribes to a name under an id: to a new route, or, under an id in use, as a further
name of that route, if the router accepts it. -/
def Table.subscribe (T : Table) (c : Nat) (n : Name) (i : Int) (accepted : Bool) : Table :=
  match T.routes.find? (fun r => r.client = c ∧ r.id = i) with
  | some r => if accepted then { T with regs := T.regs ++ [(n, r.uid)] } else T
  | none =>
    { routes := T.routes ++ [⟨T.next, c, i, n⟩], regs := T.regs ++ [(n, T.next)], next := T.next + 1 }

/-- A route goes with all its names. -/
def Table.drop (T : Table) (u : Nat) : Table :=
  { T with routes := T.routes.filter (fun r => r.uid ≠ u), regs := T.regs.filter (fun x => x.2 ≠ u) }

/-- A client unsubscribes from a name: the route it made with it goes, or else every registration of
this name and of those below it. -/
def Table.unsubscribe (T : Table) (c : Nat) (n : Name) : Table :=
  match T.routes.find? (fun r => r.main = n ∧ r.client = c) with
  | some r => T.drop r.uid
  | none => { T with regs := T.regs.filter (fun x => ¬ n <+: x.1) }

/-- A client leaves with all its routes. -/
def Table.leave (T : Table) (c : Nat) : Table :=
  let gone := (T.routes.filter (fun r => r.client = c)).map (·.uid)
  { T with routes := T.routes.filter (fun r => r.client ≠ c), regs := T.regs.filter (fun x => x.2 ∉ gone) }

/-- The routes a message to a name is for, as client and id. -/
def Table.receivers (T : Table) (q : Name) : List (Nat × Int) :=
  (owners T.regs q).filterMap (fun u => (T.routes.find? (fun r => r.uid = u)).map (fun r => (r.client, r.id)))

/-- The names the routes for a name were made with. -/
def Table.mains (T : Table) (q : Name) : List Name :=
  (owners T.regs q).filterMap (fun u => (T.routes.find? (fun r => r.uid = u)).map (·.main))

end Verif.Spec.Router
