import Verif.Model.PrivateServer

/-!
# Specification of private connections, provider's side

Read off what consumers asked for and did: what is open for which consumer, and the connection over which
a consumer was last heard to be there.
-/

namespace Verif.PrivateServer

abbrev History := List (Event × Out)

/-- What is open: consumer, parameter and the address the consumer was told. -/
abbrev Opened := List (Nat × Nat × Nat)

/-- The first of a consumer's entries for a parameter is taken off. -/
def dropFirst (l : Opened) (consumer param : Nat) : Opened :=
  l.eraseP fun x => x.2.1 == param && x.1 == consumer

/-- What is open after one more step. -/
def openedAfter (l : Opened) : Event × Out → Opened
  | (.open c p a, _) => l ++ [(c, p, a)]
  | (.close c p, _) => dropFirst l c p
  | (_, .ended a) => l.filter (·.2.2 ≠ a)
  | _ => l

def opened (h : History) : Opened := h.foldl openedAfter []

/-- A parameter is open for a consumer. -/
def IsOpen (h : History) (consumer param : Nat) : Prop := ∃ a, (consumer, param, a) ∈ opened h

/-- The connection of a consumer after one more step: the one it last registered on; none when it has
nothing open. -/
def channelAfter (c : Nat) (l : Opened × Option Nat) (x : Event × Out) : Opened × Option Nat :=
  let l' := openedAfter l.1 x
  (l', if l'.all (·.1 != c) then none else
    match x with
    | (.register _ c', .registered fd) => if c' = c then some fd else l.2
    | _ => l.2)

/-- The connection of a consumer. -/
def channel (h : History) (c : Nat) : Option Nat := (h.foldl (channelAfter c) ([], none)).2

/-- Addresses are made of consumers' names, as on a bus over local sockets. -/
def Local (h : History) : Prop := ∀ c p a o, (Event.open c p a, o) ∈ h → a = c

/-- No entry goes in this history: nothing is closed and no listening thread ends. -/
def Quiet (h : History) : Prop := ∀ x ∈ h, (∀ c p, x.1 ≠ .close c p) ∧ ∀ a, x.2 ≠ .ended a

end Verif.PrivateServer
