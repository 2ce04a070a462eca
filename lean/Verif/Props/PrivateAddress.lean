import Verif.Proof.PrivateAddress

/-!
# Agreeing on a private connection (C109)
-/

namespace Verif.Props

open Verif Verif.PrivateAddress Verif.Socket

private def pText (s : String) : Bytes := s.toUTF8.data.toList

private def pServer : PrivateAddress.Provider :=
  ⟨pText "wifi", pText "rbus.wifi.INBOX.7", fun n => n == pText "Device.X" || n == pText "Device.Y"⟩

private def pAsk (consumer param : String) : PrivateAddress.Ask :=
  ⟨pText consumer, 4711, pText param, pText "unix:///tmp/rtrouted"⟩

private def pNowhere : Socket.Env := ⟨fun _ => .error 19, fun _ => none⟩

private theorem pSent {s : Bytes} (h : s.all (· ≠ 0) = true ∧ s.length < 1000) : PrivateAddress.Sent s := by
  refine ⟨fun h0 => ?_, by omega⟩
  have := List.all_eq_true.1 h.1 0 h0
  simp at this

private theorem pLocal : PrivateAddress.Local (pText "unix:///tmp/rtrouted") := ⟨pText "/tmp/rtrouted", by decide +kernel⟩

private theorem pProper (c p : String) (hc : (pText c).all (· ≠ 0) = true ∧ (pText c).length < 1000)
    (hp : (pText p).all (· ≠ 0) = true ∧ (pText p).length < 1000) : (pAsk c p).Proper :=
  ⟨pSent hc, pSent hp, pSent (s := pText "unix:///tmp/rtrouted") (by decide +kernel)⟩

/-- C109, meeting. With a broker in the file system, and names short enough for a socket, the provider answers every request for an
element it has, and the consumer gets from the response the provider's name and an address that stands for the file
`/tmp/.direct_<program>_<consumer>`. If a thread was started for the request, it listens at that address. (Missing: brokers over
TCP, `C109_tcp_fails`; long names, `C109_long_fails`.) -/
theorem C109_meet_partial (p : Provider) (hi : Sent p.inbox) (hp : (0 : UInt8) ∉ p.prog) (l : List Entry) (t : Bool) (a : Ask)
    (ha : a.Proper) (hh : p.has a.param = true) (hb : Local a.broker) (hf : Fits p.prog a.consumer) (e : Socket.Env) :
    ∃ l' o address, step p l ⟨t, a.message⟩ = .ok (l', o) ∧ receive o.response = .ok (.ok (p.inbox, address)) ∧
      endpoint e address = .ok (.socket (.unix (socketPath p.prog a.consumer)) 110) ∧
      ∀ s, o.started = some s → s = address := by
  refine ⟨_, _, unixText p.prog a.consumer, step_local p l t ha hh hb, receive_set hi (sent_text hp ha.1.1), ?_, ?_⟩
  · rw [fits_text hf, endpoint_unix]
    unfold Fits at hf
    rw [List.take_of_length_le hf]
  · intro s hs
    have : s = copied (unixText p.prog a.consumer) := by
      simp only [listen] at hs
      repeat' split at hs
      all_goals first
        | cases hs; rfl
        | cases hs
    rw [this, fits_copied hf, fits_text hf]

example : ∃ l' o address, step pServer [] ⟨true, (pAsk "rbus.app.INBOX.12" "Device.X").message⟩ = .ok (l', o) ∧
    receive o.response = .ok (.ok (pText "rbus.wifi.INBOX.7", address)) ∧
    endpoint pNowhere address = .ok (.socket (.unix (socketPath (pText "wifi") (pText "rbus.app.INBOX.12"))) 110) ∧
    ∀ s, o.started = some s → s = address :=
  C109_meet_partial pServer (pSent (by decide +kernel)) (by decide +kernel) [] true (pAsk "rbus.app.INBOX.12" "Device.X")
    (pProper _ _ (by decide +kernel) (by decide +kernel)) (by decide +kernel) pLocal (by unfold Fits; decide +kernel) pNowhere

/-- C109, one socket for both. Whatever the names, with a broker in the file system a thread started for a request listens at the
very socket the consumer connects to. -/
theorem C109_same_socket (p : Provider) (hi : Sent p.inbox) (hp : (0 : UInt8) ∉ p.prog) (l : List Entry) (t : Bool) (a : Ask)
    (ha : a.Proper) (hh : p.has a.param = true) (hb : Local a.broker) (e : Socket.Env) :
    ∃ l' o address path, step p l ⟨t, a.message⟩ = .ok (l', o) ∧ receive o.response = .ok (.ok (p.inbox, address)) ∧
      endpoint e address = .ok (.socket (.unix path) 110) ∧
      ∀ s, o.started = some s → endpoint e s = .ok (.socket (.unix path) 110) := by
  refine ⟨_, _, unixText p.prog a.consumer, (socketPath p.prog a.consumer).take 107, step_local p l t ha hh hb,
    receive_set hi (sent_text hp ha.1.1), ?_, ?_⟩
  · rw [unixText_eq, endpoint_unix, List.take_take]
    rfl
  · intro s hs
    have : s = copied (unixText p.prog a.consumer) := by
      simp only [listen] at hs
      repeat' split at hs
      all_goals first
        | cases hs; rfl
        | cases hs
    rw [this, unixText_eq, copied_unix, endpoint_unix, List.take_take, List.take_take]
    rfl

example : ∃ l' o address path, step pServer [] ⟨true, (⟨List.replicate 120 97, 1, pText "Device.X", pText "unix:///x"⟩ : Ask).message⟩ =
      .ok (l', o) ∧ receive o.response = .ok (.ok (pText "rbus.wifi.INBOX.7", address)) ∧
    endpoint pNowhere address = .ok (.socket (.unix path) 110) ∧
    ∀ s, o.started = some s → endpoint pNowhere s = .ok (.socket (.unix path) 110) :=
  C109_same_socket pServer (pSent (by decide +kernel)) (by decide +kernel) [] true
    ⟨List.replicate 120 97, 1, pText "Device.X", pText "unix:///x"⟩
    ⟨pSent (by decide +kernel), pSent (by decide +kernel), pSent (by decide +kernel)⟩ (by decide +kernel)
    ⟨pText "/x", by decide +kernel⟩ pNowhere

/-- C109, once for each consumer. However many requests come, as long as threads can be started and names are short, the provider
starts one thread for each consumer that asked and no second one: no address twice, and just those of the consumers. It keeps every
request: the address, the consumer, and the first 127 bytes of the element's name. (Missing: long
names, `C109_second_fails`; closing, see `PrivateServer`.) -/
theorem C109_once_partial (p : Provider) (asks : List Ask) (ha : ∀ a ∈ asks, a.Proper ∧ p.has a.param = true ∧ Local a.broker ∧
      Fits p.prog a.consumer) :
    ∃ l os, run p [] (asks.map fun a => ⟨true, a.message⟩) = .ok (l, os) ∧ (startedAt os).Nodup ∧
      (∀ s, s ∈ startedAt os ↔ ∃ a ∈ asks, s = unixAddress (socketPath p.prog a.consumer)) ∧
      l = asks.map fun a => ⟨unixAddress (socketPath p.prog a.consumer), a.consumer, a.param.take 127⟩ := by
  obtain ⟨l, os, hr, hi⟩ := run_inv p asks ha
  exact ⟨l, os, hr, hi.nodup, hi.mem, hi.whole⟩

example : ∃ l os, run pServer [] (([pAsk "a" "Device.X", pAsk "b" "Device.X", pAsk "a" "Device.Y"] : List Ask).map
      fun a => ⟨true, a.message⟩) = .ok (l, os) ∧ (startedAt os).Nodup ∧
    (∀ s, s ∈ startedAt os ↔ ∃ a ∈ [pAsk "a" "Device.X", pAsk "b" "Device.X", pAsk "a" "Device.Y"],
      s = unixAddress (socketPath (pText "wifi") a.consumer)) ∧
    l = [pAsk "a" "Device.X", pAsk "b" "Device.X", pAsk "a" "Device.Y"].map fun a =>
      ⟨unixAddress (socketPath (pText "wifi") a.consumer), a.consumer, a.param.take 127⟩ := by
  refine C109_once_partial pServer _ fun a ha => ?_
  simp only [List.mem_cons, List.not_mem_nil, or_false] at ha
  rcases ha with rfl | rfl | rfl <;>
    exact ⟨pProper _ _ (by decide +kernel) (by decide +kernel), by decide +kernel, pLocal, by unfold Fits; decide +kernel⟩

/-- C109, apart. A provider has different sockets for consumers with different names, if the names are short enough for a socket.
(Missing: long names, `C109_long_fails`.) -/
theorem C109_apart_partial (e : Socket.Env) (prog x y : Bytes) (hx : Fits prog x) (hy : Fits prog y) (h : x ≠ y) :
    endpoint e (unixText prog x) ≠ endpoint e (unixText prog y) := by
  rw [fits_text hx, fits_text hy, endpoint_unix, endpoint_unix]
  unfold Fits at hx hy
  rw [List.take_of_length_le hx, List.take_of_length_le hy]
  intro he
  simp only [Res.ok.injEq, Endpoint.socket.injEq, Addr.unix.injEq, and_true] at he
  exact h (path_inj he)

example : endpoint pNowhere (unixText (pText "wifi") (pText "rbus.app.INBOX.12")) ≠
    endpoint pNowhere (unixText (pText "wifi") (pText "rbus.app.INBOX.13")) :=
  C109_apart_partial _ _ _ _ (by unfold Fits; decide +kernel) (by unfold Fits; decide +kernel) (by decide +kernel)

/-- C109, refusing. A request for an element the provider does not have changes nothing, starts nothing, and the consumer gets the
code for an unknown entry, 17; this is so for every broker. A broker that is neither in the file system nor has a port is refused
with the code 2. -/
theorem C109_refused (p : Provider) (l : List Entry) (t : Bool) (a : Ask) (ha : a.Proper) :
    (p.has a.param = false → ∃ r, step p l ⟨t, a.message⟩ = .ok (l, ⟨none, r⟩) ∧ receive r = .ok (.error 17)) ∧
    (p.has a.param = true → (∀ r, a.broker ≠ pText "unix" ++ r) → 6 ≤ a.broker.length → (58 : UInt8) ∉ a.broker.drop 6 →
      ∃ r, step p l ⟨t, a.message⟩ = .ok (l, ⟨none, r⟩) ∧ receive r = .ok (.error 2)) := by
  constructor
  · intro h
    refine ⟨_, ?_, receive_code (code := 17) (by decide)⟩
    rw [step_ask p l t ha, if_neg (by simp [h])]
    rfl
  · intro h hu h6 hc
    refine ⟨_, ?_, receive_code (code := 2) (by decide)⟩
    have hn : ¬ a.broker.take 4 = "unix".toUTF8.data.toList := by
      intro he
      exact hu (a.broker.drop 4) (by rw [show pText "unix" = a.broker.take 4 from he.symm, List.take_append_drop])
    rw [step_ask p l t ha, if_pos h]
    simp only [choose, if_neg hn, if_neg (Nat.not_lt.2 h6), cut_none 58 _ hc, Res.ok_bind]
    rfl

example : ∃ r, step pServer [] ⟨true, (pAsk "a" "Device.Z").message⟩ = .ok ([], ⟨none, r⟩) ∧ receive r = .ok (.error 17) :=
  (C109_refused pServer [] true (pAsk "a" "Device.Z") (pProper _ _ (by decide +kernel) (by decide +kernel))).1 (by decide +kernel)

/-- C109: with a broker reached over TCP, every request for a private connection to an element the provider has is undefined: the
host of the broker is copied without its end and then printed. -/
theorem C109_tcp_fails (p : Provider) (l : List Entry) (t : Bool) (consumer param host port : Bytes) (pid : BitVec 32)
    (hc : Sent consumer) (hq : Sent param) (hb : Sent (tcpAddress host port)) (hh : p.has param = true) :
    step p l ⟨t, (⟨consumer, pid, param, tcpAddress host port⟩ : Ask).message⟩ = .ub := by
  rw [step_ask p l t (a := ⟨consumer, pid, param, tcpAddress host port⟩) ⟨hc, hq, hb⟩, if_pos hh]
  have h6 : (tcpAddress host port).drop 6 = host ++ 58 :: port := by
    rw [tcpAddress, scheme_tcp]
    simp [tcpScheme]
  have hn : ¬ (tcpAddress host port).take 4 = "unix".toUTF8.data.toList := by
    rw [tcpAddress, scheme_tcp, show "unix".toUTF8.data.toList = [117, 110, 105, 120] by decide +kernel]
    simp [tcpScheme]
  have hl : ¬ (tcpAddress host port).length < 6 := by
    rw [tcpAddress, scheme_tcp]
    simp [tcpScheme]
  simp only [choose, if_neg hn, if_neg hl, h6]
  cases hcut : cut 58 (host ++ 58 :: port) with
  | some x => rfl
  | none =>
    exfalso
    have hm : (58 : UInt8) ∈ host ++ 58 :: port := by simp
    exact cut_none_iff hcut hm

example : step pServer [] ⟨true, (⟨pText "a", 1, pText "Device.X", pText "tcp://127.0.0.1:10001"⟩ : Ask).message⟩ = .ub := by
  have : pText "tcp://127.0.0.1:10001" = tcpAddress (pText "127.0.0.1") (pText "10001") := by decide +kernel
  rw [this]
  exact C109_tcp_fails pServer [] true (pText "a") (pText "Device.X") _ _ 1 (pSent (by decide +kernel)) (pSent (by decide +kernel))
    (pSent (by decide +kernel)) (by decide +kernel)

/-- C109: a broker's address of less than 6 bytes that does not begin with `unix` is not refused but read from behind its end. -/
theorem C109_short_fails (p : Provider) (l : List Entry) (t : Bool) (a : Ask) (ha : a.Proper) (hh : p.has a.param = true)
    (hu : ∀ r, a.broker ≠ pText "unix" ++ r) (hs : a.broker.length < 6) : step p l ⟨t, a.message⟩ = .ub := by
  have hn : ¬ a.broker.take 4 = "unix".toUTF8.data.toList := by
    intro he
    exact hu (a.broker.drop 4) (by rw [show pText "unix" = a.broker.take 4 from he.symm, List.take_append_drop])
  rw [step_ask p l t ha, if_pos hh]
  simp only [choose, if_neg hn, if_pos hs, Res.ub_bind]

example : step pServer [] ⟨true, (⟨pText "a", 1, pText "Device.X", []⟩ : Ask).message⟩ = .ub := by
  refine C109_short_fails pServer [] true ⟨pText "a", 1, pText "Device.X", []⟩
    ⟨pSent (by decide +kernel), pSent (by decide +kernel), pSent (by decide)⟩ (by decide +kernel) ?_ (by decide)
  intro r h
  have := congrArg List.length h
  have h4 : (pText "unix").length = 4 := by decide +kernel
  simp only [List.length_append, List.length_nil, h4] at this
  omega

/-- C109, poor responses. A response without anything in it, or with a code of success only, gives the consumer the code 2; so does
one that has another item where the address should be. -/
theorem C109_poor (inbox : Bytes) (hi : Sent inbox) (v : BitVec 32) :
    receive [] = .ok (.error 2) ∧ receive (Message.setInt32 0) = .ok (.error 2) ∧
      receive (Message.setInt32 0 ++ Message.setString inbox) = .ok (.error 2) ∧
      receive (Message.setInt32 0 ++ Message.setString inbox ++ Message.setInt32 v) = .ok (.error 2) := by
  have he : nextString [] = .ok (none, []) := rfl
  have hs : (success : BitVec 32) = 0 := rfl
  refine ⟨rfl, ?_, ?_, ?_⟩
  · simp only [receive, nextInt_end, Option.getD_some, hs, ne_eq, not_true_eq_false, if_false, he, Res.ok_bind]
    rfl
  · simp only [receive, nextInt_set, Option.getD_some, hs, ne_eq, not_true_eq_false, if_false, nextString_end hi, he, Res.ok_bind]
    rfl
  · simp only [receive, List.append_assoc, nextInt_set, Option.getD_some, hs, ne_eq, not_true_eq_false, if_false,
      nextString_set hi, nextString_int_end, Res.ok_bind]
    rfl

example : receive (Message.setInt32 0 ++ Message.setString (pText "rbus.wifi.INBOX.7")) = .ok (.error 2) :=
  (C109_poor _ (pSent (by decide +kernel)) 0).2.2.1

/-- C109: a response of success that has a number where the provider's name should be, and an address, is undefined. -/
theorem C109_nameless_fails (address : Bytes) (ha : Sent address) (v : BitVec 32) :
    receive (Message.setInt32 0 ++ Message.setInt32 v ++ Message.setString address) = .ub := by
  have hs : (success : BitVec 32) = 0 := rfl
  simp only [receive, List.append_assoc, nextInt_set, Option.getD_some, hs, ne_eq, not_true_eq_false, if_false,
    nextString_int, nextString_end ha, Res.ok_bind]

example : receive (Message.setInt32 0 ++ Message.setInt32 3 ++ Message.setString (pText "unix:///tmp/x")) = .ub :=
  C109_nameless_fails _ (pSent (by decide +kernel)) 3

/-- C109: a request that lacks a field is not refused. An empty one is undefined for every provider, and so is one without a broker
for an element the provider has. -/
theorem C109_missing_fails (p : Provider) (l : List Entry) (t : Bool) :
    step p l ⟨t, []⟩ = .ub ∧
    ∀ (consumer param : Bytes) (pid : BitVec 32), Sent consumer → Sent param → p.has param = true →
      step p l ⟨t, Message.setString consumer ++ Message.setInt32 pid ++ Message.setString param⟩ = .ub := by
  constructor
  · rfl
  · intro consumer param pid hc hp hh
    have he : nextString [] = .ok (none, []) := rfl
    simp only [step, List.append_assoc, nextString_set hc, nextInt_set, nextString_end hp, he, Res.ok_bind, if_pos hh]

example : step pServer [] ⟨true, Message.setString (pText "a") ++ Message.setInt32 1 ++ Message.setString (pText "Device.X")⟩ = .ub :=
  (C109_missing_fails pServer [] true).2 _ _ 1 (pSent (by decide +kernel)) (pSent (by decide +kernel)) (by decide +kernel)

/-- C109: the socket does not tell processes of the same program apart. Two providers that run the same program give a consumer the
same socket, although they are different providers. -/
theorem C109_twins_fails (p q : Provider) (h : p.prog = q.prog) (l m : List Entry) (t u : Bool) (a b : Ask) (ha : a.Proper)
    (hb : b.Proper) (hc : a.consumer = b.consumer) (hp : p.has a.param = true) (hq : q.has b.param = true)
    (hla : Local a.broker) (hlb : Local b.broker) (hz : (0 : UInt8) ∉ p.prog) (hi : Sent p.inbox) (hj : Sent q.inbox) :
    ∃ l' m' o r address, step p l ⟨t, a.message⟩ = .ok (l', o) ∧ step q m ⟨u, b.message⟩ = .ok (m', r) ∧
      receive o.response = .ok (.ok (p.inbox, address)) ∧ receive r.response = .ok (.ok (q.inbox, address)) := by
  refine ⟨_, _, _, _, unixText p.prog a.consumer, step_local p l t ha hp hla, step_local q m u hb hq hlb,
    receive_set hi (sent_text hz ha.1.1), ?_⟩
  rw [h, hc]
  exact receive_set hj (sent_text (h ▸ hz) hb.1.1)

private def pTwin : PrivateAddress.Provider := ⟨pText "wifi", pText "rbus.wifi.INBOX.8", fun n => n == pText "Device.Z"⟩

example : ∃ l' m' o r address, step pServer [] ⟨true, (pAsk "a" "Device.X").message⟩ = .ok (l', o) ∧
    step pTwin [] ⟨true, (pAsk "a" "Device.Z").message⟩ = .ok (m', r) ∧
    receive o.response = .ok (.ok (pText "rbus.wifi.INBOX.7", address)) ∧
    receive r.response = .ok (.ok (pText "rbus.wifi.INBOX.8", address)) :=
  C109_twins_fails pServer pTwin rfl [] [] true true (pAsk "a" "Device.X") (pAsk "a" "Device.Z")
    (pProper _ _ (by decide +kernel) (by decide +kernel)) (pProper _ _ (by decide +kernel) (by decide +kernel)) rfl
    (by decide +kernel) (by decide +kernel) pLocal pLocal (by decide +kernel) (pSent (by decide +kernel)) (pSent (by decide +kernel))

/-- C109: nor does it tell where the name of the program ends. The programs `x` and `x_y`, for the consumers `y_z` and `z`, use the
same socket, whatever `x`, `y` and `z` are. -/
theorem C109_seam_fails (x y z : Bytes) : unixText x (y ++ [95] ++ z) = unixText (x ++ [95] ++ y) z := by
  simp only [unixText, List.append_assoc]

example : unixText (pText "wifi") (pText "agent_app") = unixText (pText "wifi_agent") (pText "app") := by
  have h1 : pText "agent_app" = pText "agent" ++ [95] ++ pText "app" := by decide +kernel
  have h2 : pText "wifi_agent" = pText "wifi" ++ [95] ++ pText "agent" := by decide +kernel
  rw [h1, h2]
  exact C109_seam_fails _ _ _

/-- C109: consumers whose names agree up to the 107th byte of the socket's file share the socket, whatever follows in them. -/
theorem C109_long_fails (e : Socket.Env) (prog c x y : Bytes) (h : 107 ≤ (socketPath prog c).length) :
    endpoint e (unixText prog (c ++ x)) = endpoint e (unixText prog (c ++ y)) := by
  have hs : ∀ z, (socketPath prog (c ++ z)).take 107 = (socketPath prog c).take 107 := by
    intro z
    have : socketPath prog (c ++ z) = socketPath prog c ++ z := by simp only [socketPath, List.append_assoc]
    rw [this, List.take_append_of_le_length h]
  rw [unixText_eq, unixText_eq, endpoint_unix, endpoint_unix, List.take_take, List.take_take,
    show min 107 248 = 107 from rfl, hs x, hs y]

example : endpoint pNowhere (unixText (List.replicate 50 112) (List.replicate 50 99 ++ pText "1")) =
    endpoint pNowhere (unixText (List.replicate 50 112) (List.replicate 50 99 ++ pText "2")) :=
  C109_long_fails _ _ _ _ _ (by decide +kernel)

/-- C109: if the file has more than 120 bytes, the provider never finds that it listens there already: every request starts another
thread for the same socket. -/
theorem C109_second_fails (p : Provider) (asks : List Ask) (ha : ∀ a ∈ asks, a.Proper ∧ p.has a.param = true ∧ Local a.broker ∧
      120 < (socketPath p.prog a.consumer).length) :
    ∃ l os, run p [] (asks.map fun a => ⟨true, a.message⟩) = .ok (l, os) ∧
      startedAt os = asks.map fun a => unixAddress ((socketPath p.prog a.consumer).take 120) := by
  have key : ∀ asks : List Ask, (∀ a ∈ asks, a.Proper ∧ p.has a.param = true ∧ Local a.broker ∧
      120 < (socketPath p.prog a.consumer).length) → ∀ l : List Entry, (∀ e ∈ l, e.address.length ≤ 127) →
      ∃ l' os, run p l (asks.map fun a => ⟨true, a.message⟩) = .ok (l', os) ∧
        startedAt os = asks.map fun a => unixAddress ((socketPath p.prog a.consumer).take 120) := by
    intro asks
    induction asks with
    | nil => intro _ l _; exact ⟨l, [], rfl, rfl⟩
    | cons a asks ih =>
      intro ha l hl
      obtain ⟨h1, h2, h3, h4⟩ := ha a (List.mem_cons_self ..)
      have hlong : 127 < (unixText p.prog a.consumer).length := by
        rw [unixText_eq, unixAddress, scheme_unix, List.length_append, List.length_take]
        have : unixScheme.length = 7 := rfl
        omega
      have hany : l.any (sameServer (unixText p.prog a.consumer)) = false := by
        rw [List.any_eq_false]
        intro x hx he
        simp only [sameServer, beq_iff_eq] at he
        have h5 := congrArg List.length he
        have h6 := hl x hx
        simp only [List.length_take] at h5
        omega
      have hcop : copied (unixText p.prog a.consumer) = unixAddress ((socketPath p.prog a.consumer).take 120) := by
        rw [unixText_eq, copied_unix, List.take_take]
        rfl
      obtain ⟨l', os, hr, hs⟩ := ih (fun b hb => ha b (List.mem_cons_of_mem _ hb))
        (l ++ [⟨copied (unixText p.prog a.consumer), copied a.consumer, copied a.param⟩]) (by
          intro x hx
          rcases List.mem_append.1 hx with hx | hx
          · exact hl x hx
          · rw [List.mem_singleton.1 hx]
            exact List.length_take_le ..)
      refine ⟨l', ⟨some (copied (unixText p.prog a.consumer)), Message.setInt32 success ++ Message.setString p.inbox ++
        Message.setString (unixText p.prog a.consumer)⟩ :: os, ?_, ?_⟩
      · simp only [List.map_cons, run, step_local p l true h1 h2 h3, listen, hany, Bool.false_eq_true, if_false, if_true,
          Res.ok_bind, hr, Res.pure_eq]
      · simp only [startedAt, List.filterMap_cons, List.map_cons] at hs ⊢
        rw [hs, hcop]
  exact key asks ha [] (by simp)

private def pLong (param : String) : PrivateAddress.Ask :=
  ⟨List.replicate 110 99, 4711, pText param, pText "unix:///tmp/rtrouted"⟩

example : ∃ l os, run pServer [] (([pLong "Device.X", pLong "Device.Y"] : List Ask).map fun a => ⟨true, a.message⟩) = .ok (l, os) ∧
    startedAt os = [pLong "Device.X", pLong "Device.Y"].map fun a => unixAddress ((socketPath (pText "wifi") a.consumer).take 120) := by
  refine C109_second_fails pServer _ fun a ha => ?_
  simp only [List.mem_cons, List.not_mem_nil, or_false] at ha
  rcases ha with rfl | rfl <;>
    exact ⟨⟨pSent (by decide +kernel), pSent (by decide +kernel), pSent (by decide +kernel)⟩, by decide +kernel, pLocal, by decide +kernel⟩

/-- C109: if no thread can be started, the provider answers that all is well, and keeps nothing: the consumer is sent to a socket
where nobody listens. -/
theorem C109_thread_fails (p : Provider) (hi : Sent p.inbox) (hp : (0 : UInt8) ∉ p.prog) (a : Ask) (ha : a.Proper)
    (hh : p.has a.param = true) (hb : Local a.broker) :
    ∃ r address, step p [] ⟨false, a.message⟩ = .ok ([], ⟨none, r⟩) ∧ receive r = .ok (.ok (p.inbox, address)) :=
  ⟨_, _, step_local p [] false ha hh hb, receive_set hi (sent_text hp ha.1.1)⟩

example : ∃ r address, step pServer [] ⟨false, (pAsk "a" "Device.X").message⟩ = .ok ([], ⟨none, r⟩) ∧
    receive r = .ok (.ok (pText "rbus.wifi.INBOX.7", address)) :=
  C109_thread_fails pServer (pSent (by decide +kernel)) (by decide +kernel) (pAsk "a" "Device.X")
    (pProper _ _ (by decide +kernel) (by decide +kernel)) (by decide +kernel) pLocal

end Verif.Props
