import Verif.Proof.RouterStart

/-!
# C113: where the router listens
-/

namespace Verif.Props

open Verif Verif.RouterStart

private def rsText (s : String) : Bytes := s.toUTF8.data.toList
private def rsFile : Bytes := rsText "unix:///tmp/rtrouted"
private def rsTcp : Bytes := rsText "tcp://10.0.0.1:10001"
private def rsTcp2 : Bytes := rsText "tcp://10.0.0.2:10001"

/-- C113, options. Without a configuration file the router listens exactly at the addresses given as options, and
accepts who connects to them; the first that begins with `unix` comes first.

Partial: for at most five different addresses (`C113_many_fails`), at all of which the system lets the router listen
(`C113_crash_fails`, `C113_nowhere_fails`). -/
theorem C113_options_partial {env : Bytes → Fate} {options : List Bytes} (hl : options.length ≤ 5)
    (h0 : options ≠ []) (hn : options.Nodup) (hf : ∀ a ∈ options, Free env a) :
    ∃ as, as.Perm options ∧ Serves (start env .absent options) as ∧
      ∀ a, options.find? (Begins "unix") = some a → as.head? = some a := by
  have hp := unixFirst_perm options
  refine ⟨unixFirst options, hp, serves_of ?_ (hp.nodup_iff.mpr hn) (fun a ha => hf a (hp.mem_iff.mp ha)), ?_⟩
  · have : ¬ 5 < options.length := by omega
    simp only [start, this, if_false, h0]
  · intro a ha
    rw [begins_unix] at ha
    obtain ⟨b, rest, h1, h2⟩ := unixFirst_head ⟨a, List.mem_of_find?_eq_some ha, List.find?_some ha⟩
    rw [ha] at h2
    cases h2
    rw [h1]; rfl

example : start (fun a => if a = rsTcp then .after 17 true else .after 0 true) .absent [rsTcp, rsTcp2, rsFile] =
    .ok (.runs [(some rsFile, 0), (some rsTcp2, 0), (some rsTcp, 17)]) := by decide +kernel

/-- C113, default. Without a configuration file and without addresses the router listens at
`unix:///tmp/rtrouted`. -/
theorem C113_default {env : Bytes → Fate} (hf : Free env (rsText "unix:///tmp/rtrouted")) :
    Serves (start env .absent []) [rsText "unix:///tmp/rtrouted"] :=
  serves_of rfl (by simp) (by simpa using hf)

example : start (fun _ => .after 0 true) .absent [] = .ok (.runs [(some rsFile, 0)]) := by decide +kernel

/-- C113, file. With a configuration file the router listens exactly at the addresses in it, in their order.

Partial: for different addresses at all of which the system lets it listen, all texts (`C113_text_fails`). -/
theorem C113_file_partial {env : Bytes → Fate} {options as : List Bytes} (hl : options.length ≤ 5)
    (hn : as.Nodup) (hf : ∀ a ∈ as, Free env a) :
    Serves (start env (.listeners (as.map fun a => some (some a))) options) as := by
  refine serves_of ?_ hn hf
  have : ¬ 5 < options.length := by omega
  simp only [start, this, if_false, uris_text, Res.ok_bind, Res.pure_eq]

example : start (fun _ => .after 0 true) (.listeners [some (some rsTcp), none, some (some rsFile)]) [] =
    .ok (.runs [(some rsTcp, 0), (some rsFile, 0)]) := by decide +kernel

/-- C113, a file that is no JSON ends the router, whatever the options. -/
theorem C113_broken (env : Bytes → Fate) {options : List Bytes} (hl : options.length ≤ 5) :
    start env .broken options = .ok .exits := by
  have : ¬ 5 < options.length := by omega
  simp only [start, this, if_false]

example : start (fun _ => .never) .broken [rsTcp] = .ok .exits := C113_broken _ (by decide)

/-- C113 (failure). If the router cannot listen at one of its addresses, the first client that connects to
another of them makes it read through NULL. -/
theorem C113_crash_fails {env : Bytes → Fate} {options : List Bytes} (hl : options.length ≤ 5) {a b : Bytes}
    (ha : a ∈ options) (ht : Taken env a) (hb : b ∈ options) (hf : Free env b) :
    ∃ places, start env .absent options = .ok (.runs places) ∧ client places b = .ub := by
  have h5 : ¬ 5 < options.length := by omega
  have h0 : options ≠ [] := by rintro rfl; cases ha
  have hp := unixFirst_perm options
  refine ⟨bindAll env false [] (unixFirst options), by simp only [start, h5, if_false, h0], ?_⟩
  have h1 := bindAll_some (i := false) (bound := []) (hp.mem_iff.mpr hb) (by simp) hf
  have h2 := bindAll_taken (i := false) (bound := []) (hp.mem_iff.mpr ha) ht
  simp only [client, h1, if_true, accept_null b _ h2]

example : ∃ places, start (fun a => if a = rsTcp then .bad else .after 0 true) .absent [rsFile, rsTcp] =
    .ok (.runs places) ∧ client places rsFile = .ub :=
  C113_crash_fails (by decide) (a := rsTcp) (by simp) (.inl (by decide +kernel)) (by simp) ⟨0, by decide +kernel⟩

/-- C113 (failure). If the router can listen at none of its addresses, it runs all the same and nobody can
connect. So it is when it is started again with the socket file of the last time, which is never removed, still
there. -/
theorem C113_nowhere_fails {env : Bytes → Fate} {options : List Bytes} (hl : options.length ≤ 5)
    (ht : ∀ a ∈ if options = [] then [rsText "unix:///tmp/rtrouted"] else options, Taken env a) :
    ∃ places, start env .absent options = .ok (.runs places) ∧ ∀ a, client places a = .ok 0 := by
  have h5 : ¬ 5 < options.length := by omega
  refine ⟨bindAll env false [] (if options = [] then [defaultAddress] else unixFirst options),
    by simp only [start, h5, if_false], ?_⟩
  intro a
  have h : ∀ b ∈ (if options = [] then [defaultAddress] else unixFirst options), Taken env b := by
    intro b hb
    refine ht b ?_
    split at hb
    · rename_i h0; rw [if_pos h0]; exact hb
    · rename_i h0; rw [if_neg h0]; exact (unixFirst_perm options).mem_iff.mp hb
  have hn := bindAll_none (i := false) (bound := []) h
  unfold client
  rw [if_neg]
  intro hm
  cases hn _ hm

example : start (fun _ => .never) .absent [] = .ok (.runs [(none, 0)]) := by decide +kernel

/-- C113 (failure). When the configuration file exists, the addresses given as options are ignored, without
a word. -/
theorem C113_ignored_fails (env : Bytes → Fate) {file : File} (hf : file ≠ .absent) {options : List Bytes}
    (hl : options.length ≤ 5) : start env file options = start env file [] := by
  have h5 : ¬ 5 < options.length := by omega
  cases file with
  | absent => exact absurd rfl hf
  | broken => simp [start, h5]
  | listeners items => simp [start, h5]

example : start (fun _ => .after 0 true) (.listeners []) [rsTcp] = .ok (.runs []) := by decide +kernel

/-- C113 (failure). A sixth address among the options is written behind the array of addresses. -/
theorem C113_many_fails (env : Bytes → Fate) (file : File) {options : List Bytes} (hl : 5 < options.length) :
    start env file options = .ub := by
  simp only [start, hl, if_true]

example : start (fun _ => .after 0 true) .absent (List.replicate 6 rsTcp) = .ub := C113_many_fails _ _ (by decide)

/-- C113 (failure). An address in the file that is not a text, such as a port number, is read through NULL. -/
theorem C113_text_fails : start (fun _ => .after 0 true) (.listeners [some (some rsFile), some none]) [] = .ub := by
  decide +kernel

/-- C113 (failure). The file's order is kept: with an address of the network first that cannot be bound, the socket
file is opened after 17 sleeps of ten seconds, and clients connecting to it crash the router; with a second one
before it, it takes more than a thousand years. -/
theorem C113_wait_fails : start (fun a => if a = rsFile then .after 0 true else .never)
    (.listeners [some (some rsTcp), some (some rsTcp2), some (some rsFile)]) [] =
    .ok (.runs [(none, 17), (none, 4294967294), (some rsFile, 0)]) := by decide +kernel

end Verif.Props
