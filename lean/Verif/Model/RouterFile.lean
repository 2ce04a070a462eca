import Verif.Model.Base

/-!
# Model of where a process finds the broker: src/core/rbuscore.c:321-322 and 548-587
-/

namespace Verif.RouterFile

open Verif

/-- `MAX_DAEMON_ADDRESS_LEN` (rbuscore.c:321). -/
def size : Nat := 256

/-- `g_daemon_address` at the start (rbuscore.c:322). -/
def initial : Bytes := "unix:///tmp/rtrouted".toUTF8.data.toList

/-- `isspace` in the C locale. For bytes over 127 the argument is negative where `char` has a sign; glibc gives 0. -/
def isspace (b : UInt8) : Bool := b == 32 || (9 ≤ b && b ≤ 13)

/-- `fgets` with room for `n` bytes and the NUL: what is read, with the newline, and what is left. -/
def chunk : Nat → Bytes → Bytes × Bytes
  | 0, s => ([], s)
  | _ + 1, [] => ([], [])
  | n + 1, b :: s =>
    if b = 10 then ([b], s)
    else
      let c := chunk n s
      (b :: c.1, c.2)

theorem chunk_left (n : Nat) (s : Bytes) : (chunk n s).2.length ≤ s.length := by
  fun_induction chunk n s with
  | case1 => exact Nat.le_refl _
  | case2 => exact Nat.le_refl _
  | case3 n s => simp
  | case4 n b s hb c ih =>
    simp only [List.length_cons]
    have h : c.2.length ≤ s.length := ih
    omega

/-- Looking for a word in what was read (rbuscore.c:559-583): `strlen`, past the spaces, to the end of the word. -/
def word (buff : Bytes) : Option Bytes :=
  match (buff.takeWhile (· ≠ 0)).dropWhile isspace with
  | [] => none
  | b :: s => some (b :: s.takeWhile fun b => !isspace b)

/-- The loop in `configure_router_address` (rbuscore.c:557-584): the first word found. Errors in reading are left out. -/
def scan (file : Bytes) : Option Bytes :=
  match file with
  | [] => none
  | b :: s =>
    match word (chunk (size - 1) (b :: s)).1 with
    | some w => some w
    | none => scan (chunk (size - 1) (b :: s)).2
  termination_by file.length
  decreasing_by
    simp only [size, chunk]
    split
    · simp
    · have := chunk_left 254 s
      simp only [List.length_cons]
      omega

/-- `configure_router_address` (rbuscore.c:548-587): `g_daemon_address` after it. `none`: `/etc/rbus_client.conf` cannot be opened. -/
def configure (file : Option Bytes) (address : Bytes) : Bytes :=
  match file with
  | none => address
  | some f => (scan f).getD address

end Verif.RouterFile
