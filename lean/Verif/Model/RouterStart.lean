import Verif.Model.Base

/-!
# Model of where the router listens (src/rtmessage/rtrouted.c, rtrouteBase.c)

The router takes addresses from its options or from its configuration file, binds a socket to each, and
then waits for clients. What becomes of binding to an address is up to the system (`Fate`); how addresses are
read is in `Verif.Model.Socket`. Left out are running out of memory, the options that do not concern
addresses, and the lock on the file with the process number.
-/

namespace Verif.RouterStart

open Verif

/-- What the system does with an address. -/
inductive Fate where
  /-- it is not understood, or there is no socket for it (rtrouteBase.c:70-85) -/
  | bad
  /-- so many attempts fail, the next succeeds; then whether `listen` succeeds (rtrouteBase.c:138) -/
  | after (failures : Nat) (listens : Bool)
  /-- no attempt succeeds -/
  | never
  deriving DecidableEq, Repr

/-- `unix://`, the addresses that are socket files (rtSocket.c:175). -/
def socketFile (a : Bytes) : Bool := a.take 7 == [117, 110, 105, 120, 58, 47, 47]

/-- `num_retries` (rtrouteBase.c:61, 89-108). -/
def tries (a : Bytes) (indefinite : Bool) : Nat :=
  if socketFile a then 1 else if indefinite then 2 ^ 32 - 1 else 18

/-- `rtRouteBase_BindListener` (rtrouteBase.c:54-149): whether there is a listener, and how often the router
slept for ten seconds. -/
def bindListener (f : Fate) (a : Bytes) (indefinite : Bool) : Bool × Nat :=
  match f with
  | .bad => (false, 0)
  | .never => (false, tries a indefinite - 1)
  | .after n l => if n < tries a indefinite then (l, n) else (false, tries a indefinite - 1)

/-- The loops at rtrouted.c:276-290 and 1892-1900: every address is given a place in `gListeners`, which is
NULL if there is no listener. An address bound before is in use. With each the sleeps. -/
def bindAll (env : Bytes → Fate) (indefinite : Bool) (bound : List Bytes) :
    List Bytes → List (Option Bytes × Nat)
  | [] => []
  | a :: as =>
    let r := bindListener (if a ∈ bound then .never else env a) a indefinite
    (if r.1 then some a else none, r.2) :: bindAll env true (if r.1 then a :: bound else bound) as

/-- The configuration file (rtrouted.c:238-275, 1877): not there, not to be read or no JSON, or the items of
`listeners`: without `uri`, with one that is not a text, or with a text. -/
inductive File where
  | absent
  | broken
  | listeners (items : List (Option (Option Bytes)))
  deriving DecidableEq, Repr

/-- Whether an address begins with `unix` (rtrouted.c:1853). -/
def saysUnix (a : Bytes) : Bool := a.take 4 == [117, 110, 105, 120]

/-- The first address that begins with `unix` changes places with the first of all (rtrouted.c:1850-1860). -/
def unixFirst (as : List Bytes) : List Bytes :=
  match as.findIdx? saysUnix, as with
  | some (i + 1), a :: rest => rest.getD i a :: rest.set i a
  | _, _ => as

/-- The address used when none is given: `unix:///tmp/rtrouted` (rtrouted.c:1886-1890). -/
def defaultAddress : Bytes := "unix:///tmp/rtrouted".toUTF8.data.toList

/-- The texts among the items. A `uri` that is not a text is NULL for `strncmp` (rtrouted.c:281-284,
rtSocket.c:175). That earlier addresses are bound before is left out. -/
def uris : List (Option (Option Bytes)) → Res (List Bytes)
  | [] => .ok []
  | none :: r => uris r
  | some none :: _ => .ub
  | some (some a) :: r => do
    let as ← uris r
    pure (a :: as)

inductive Start where
  | exits
  /-- the places in `gListeners`, and how long each took -/
  | runs (places : List (Option Bytes × Nat))
  deriving DecidableEq, Repr

/-- `main` up to its loop (rtrouted.c:1724-1905). There is room for `RTMSG_MAX_LISTENING_SOCKETS`, five,
addresses in the options (rtrouteBase.h:29, rtrouted.c:1728, 1818). -/
def start (env : Bytes → Fate) (file : File) (options : List Bytes) : Res Start :=
  if 5 < options.length then .ub else
  match file with
  | .absent =>
    .ok (.runs (bindAll env false [] (if options = [] then [defaultAddress] else unixFirst options)))
  | .broken => .ok .exits
  | .listeners items => do
    let as ← uris items
    pure (.runs (bindAll env false [] as))

/-- The loop over the listeners once something has happened (rtrouted.c:1950-1955): how many clients are
accepted when one has come to an address. A place that is NULL is read. -/
def accept (a : Bytes) : List (Option Bytes) → Res Nat
  | [] => .ok 0
  | none :: _ => .ub
  | some b :: r => do
    let n ← accept a r
    pure (if b = a then n + 1 else n)

/-- A client connects to an address: it is refused unless somebody listens there, and then the router goes on
to sleep (rtrouted.c:1920-1948). -/
def client (places : List (Option Bytes × Nat)) (a : Bytes) : Res Nat :=
  if some a ∈ places.map (·.1) then accept a (places.map (·.1)) else .ok 0

end Verif.RouterStart
