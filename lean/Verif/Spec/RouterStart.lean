import Verif.Model.RouterStart

/-!
# Where the router should listen
-/

namespace Verif.RouterStart

open Verif

/-- An address begins with a text. -/
def Begins (t : String) (a : Bytes) : Bool := t.toUTF8.data.toList.isPrefixOf a

/-- The system lets the router listen at an address: a socket file at once, others before the 18th attempt has
failed. -/
def Free (env : Bytes → Fate) (a : Bytes) : Prop :=
  ∃ n, env a = .after n true ∧ if Begins "unix://" a then n = 0 else n < 18

/-- The system never lets it: the address cannot be bound, or not be listened at. -/
def Taken (env : Bytes → Fate) (a : Bytes) : Prop := env a = .bad ∨ env a = .never ∨ ∃ n, env a = .after n false

/-- The router runs and listens at these addresses, in this order, and accepts whoever connects to one of them. -/
def Serves (r : Res Start) (as : List Bytes) : Prop :=
  ∃ places, r = .ok (.runs places) ∧ places.map (·.1) = as.map some ∧
    (∀ a ∈ as, client places a = .ok 1) ∧ ∀ a, a ∉ as → client places a = .ok 0

end Verif.RouterStart
