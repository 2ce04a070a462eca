import Verif.Model.Publish
import Verif.Spec.EventName

/-!
# A provider in orderly use
-/

namespace Verif.Spec.Provider

open Verif Verif.Element Verif.Subs

/-- An element as the application declares it. -/
structure Decl where
  name : Bytes
  type : Nat
  cb : Cb

/-- Text cut at the dots. -/
def cut : Bytes → List Bytes
  | [] => [[]]
  | c :: cs =>
    if c = 46 then [] :: cut cs
    else match cut cs with
      | [] => [[c]]
      | w :: ws => (c :: w) :: ws

/-- The components of a name; empty ones do not count. -/
def pieces (s : Bytes) : List Bytes := (cut s).filter (· ≠ [])

/-- A table name without the `.{i}.` or `.{i}` at its end. -/
def stem (s : Bytes) : Bytes :=
  if [46, 123, 105, 125, 46] <:+ s then s.take (s.length - 5)
  else if [46, 123, 105, 125] <:+ s ∧ 4 < s.length then s.take (s.length - 4)
  else s

/-- The path of the element: a table declared as `T.{i}.` is the table `T`. -/
def Decl.path (d : Decl) : Path := pieces (if d.type = tTable then stem d.name else d.name)

/-- A path can be declared after `D`: it is not declared already, nothing below it is, nothing above it is
apart from tables, and `{i}` stands exactly below declared tables. -/
structure Fits (D : List Decl) (p : Path) : Prop where
  nonempty : p ≠ []
  fresh : ∀ d ∈ D, ¬ p <+: d.path
  above : ∀ d ∈ D, d.path <+: p → d.type = tTable ∧ ∃ r, r ≠ [] ∧ p = d.path ++ template :: r
  rows : ∀ a r, p = a ++ template :: r → ∃ d ∈ D, d.path = a ∧ d.type = tTable

/-- Elements are declared in order: each one fits those before it. -/
def Orderly (D : List Decl) : Prop := ∀ D1 d D2, D = D1 ++ d :: D2 → Fits D1 d.path

/-- The tree after declaring elements. -/
def declare (D : List Decl) : Tree := D.foldl (fun T d => Element.insert T d.name d.type d.cb) Tree.init

/-- The name under which a path is asked for: below tables any row will do. -/
inductive Names (D : List Decl) : Path → Path → Path → Prop where
  | nil {pre : Path} : Names D pre [] []
  | row {pre ts us : Path} {t : Element.Token} : (∃ d ∈ D, d.path = pre ∧ d.type = tTable) →
      Names D (pre ++ [template]) ts us → Names D pre (t :: ts) (template :: us)
  | step {pre ts us : Path} {t : Element.Token} : (∀ d ∈ D, d.path = pre → d.type ≠ tTable) →
      Names D (pre ++ [t]) ts us → Names D pre (t :: ts) (t :: us)

/-- A node, given with the nodes above it, is a row template or below one. -/
def inTemplate : List Info → Bool
  | i :: p :: up => (p.type = tTable && i.name = template) || inTemplate (p :: up)
  | _ => false

/-- The rows asked for are rows: rows are added to tables and deleted from them, outside row templates. -/
def Sane (s : State) : Op → Prop
  | .addRow t _ _ => ∀ up n, locate s.tree t = some (up, n) → n.info.type = tTable ∧ inTemplate up = false
  | .delRow r => ∀ up n, locate s.tree r = some (up, n) →
      (∃ i p u, up = i :: p :: u ∧ p.type = tTable) ∧ inTemplate up = false
  | .register _ _ _ => False
  | _ => True

/-- A provider that has declared elements in order and then served requests, rows being added and
deleted properly. -/
inductive Life (sc : Bool) (D : List Decl) : State → Prop where
  | start : Orderly D → Life sc D { State.init with tree := declare D }
  | step {s s' : State} {op : Op} {env : Env} {o : Option Nat} : Life sc D s → Sane s op →
      Subs.step sc s (op, env) = .ok (s', o) → Life sc D s'

/-- A subscriber with a filter is to be told of an event: always, except that a change of value concerns it
only if the filter's answer changes. -/
def Wants (sc : Bool) : EventKind → Filter.Filter → Prop
  | .valueChanged (some new) (some old), f =>
    f = .null ∨ ∃ a b, Filter.apply sc f new = .ok a ∧ Filter.apply sc f old = .ok b ∧ a ≠ b
  | _, _ => True

end Verif.Spec.Provider
