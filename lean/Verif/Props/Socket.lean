import Verif.Proof.Socket

/-!
# Addresses of sockets (C88)
-/

namespace Verif.Props

open Verif Verif.Socket Verif.Spec.Text

private def txt (s : String) : Bytes := s.toUTF8.data.toList

private def oneInterface : Socket.Env :=
  ⟨fun n => if n = txt "eth0" then .ok (10, 0, 0, 1) else .error 19,
   fun s => if s = txt "2001:db8::1" ∨ s = txt "fe80::1" then some [1] else none⟩

/-- C88, paths. A path of at most 107 bytes is the address of the socket, as written, and printing the address gives the text back.
(Missing: longer paths, `C88_long_path_fails`.) -/
theorem C88_unix_partial (e : Socket.Env) (path : Bytes) (h : path.length ≤ 107) :
    endpoint e (unixAddress path) = .ok (.socket (.unix path) 110) ∧
      ∀ n, path.length + 7 < n → Socket.toString (.unix path) n = (some (unixAddress path), some 0) := by
  constructor
  · simp only [endpoint, fromString_unix, List.take_of_length_le h, ne_eq, not_true_eq_false, if_false, getLength]
  · intro n hn
    have h0 : n ≠ 0 := by omega
    have hl : (unixScheme ++ path).length ≤ n - 1 := by
      simp only [unixScheme, List.length_append, List.length_cons, List.length_nil]; omega
    simp only [Socket.toString, h0, if_false, List.take_of_length_le hl, unixAddress, scheme_unix]

example : endpoint oneInterface (txt "unix:///tmp/rtrouted") = .ok (.socket (.unix (txt "/tmp/rtrouted")) 110) :=
  (C88_unix_partial oneInterface (txt "/tmp/rtrouted") (by decide)).1

/-- C88, numbers. An IPv4 address and a decimal port below 65536 are the address of the socket, and printing gives them back.
(Missing: other hosts and ports, below.) -/
theorem C88_tcp_partial (e : Socket.Env) (a b c d : UInt8) (t : Bytes) (p : Nat) (ht : Numeral 10 t p) (hp : p < 65536) :
    endpoint e (tcpAddress (dottedText a b c d) t) = .ok (.socket (.inet (a, b, c, d) (BitVec.ofNat 16 p)) 16) ∧
      ∀ n, 16 ≤ n → Socket.toString (.inet (a, b, c, d) (BitVec.ofNat 16 p)) n =
        (some (dottedText a b c d), some (BitVec.ofNat 16 p)) := by
  have hl := dottedText_length a b c d
  constructor
  · have h128 : ¬ 128 ≤ (dottedText a b c d).length := by omega
    simp only [endpoint, fromString_tcp e _ _ (numeral_nocolon ht), resolve, h128, if_false, isNumeric_dotted, if_true,
      pton4_text, strtol_numeral ht (by omega), ne_eq, not_true_eq_false, getLength, BitVec.ofInt_natCast]
  · intro n hn
    have : (dottedText a b c d).length < n := by omega
    simp only [Socket.toString, dotted_eq, this, if_true]

example : endpoint oneInterface (txt "tcp://127.0.0.1:10001") = .ok (.socket (.inet (127, 0, 0, 1) 10001) 16) := by
  decide +kernel

example : endpoint oneInterface (tcpAddress (dottedText 192 168 0 255) (decimalText 80)) =
    .ok (.socket (.inet (192, 168, 0, 255) 80) 16) :=
  (C88_tcp_partial oneInterface 192 168 0 255 (decimalText 80) 80 (Text.decimal_numeral 80) (by decide)).1

/-- C88, interfaces. The name of an interface, of at most 15 bytes and not beginning with a digit, is replaced by the address of
the interface; if the interface has none, the address is refused with the system's code. (Missing: longer names,
`C88_interface_fails`.) -/
theorem C88_interface_partial (e : Socket.Env) (name t : Bytes) (p : Nat) (hn : InterfaceName name) (hl : name.length ≤ 15)
    (ht : Numeral 10 t p) (hp : p < 65536) :
    (∀ q, e.iface name = .ok q → endpoint e (tcpAddress name t) = .ok (.socket (.inet q (BitVec.ofNat 16 p)) 16)) ∧
      ∀ c, c ≠ 0 → e.iface name = .error c → endpoint e (tcpAddress name t) = .ok (.refused c) := by
  have h128 : ¬ 128 ≤ name.length := by omega
  have hi := (isNumeric_iff name).2 hn
  constructor
  · rintro ⟨a, b, c, d⟩ hq
    simp only [endpoint, fromString_tcp e _ _ (numeral_nocolon ht), resolve, h128, if_false, hi, Bool.false_eq_true,
      interfaceAddress, List.take_of_length_le hl, hq, Except.map, dotted_eq, pton4_text, strtol_numeral ht (by omega), ne_eq,
      not_true_eq_false, getLength, BitVec.ofInt_natCast]
  · intro c hc hq
    simp only [endpoint, fromString_tcp e _ _ (numeral_nocolon ht), resolve, h128, if_false, hi, Bool.false_eq_true,
      interfaceAddress, List.take_of_length_le hl, hq, Except.map, ne_eq, hc, not_false_eq_true, if_true]

example : endpoint oneInterface (txt "tcp://eth0:10001") = .ok (.socket (.inet (10, 0, 0, 1) 10001) 16) := by decide +kernel
example : endpoint oneInterface (txt "tcp://lo:10001") = .ok (.refused 19) := by decide +kernel

/-- C88, refusing. An address that begins neither with `unix://` nor with `tcp://`, and a `tcp://` address without a port, are
refused with the code 3. -/
theorem C88_refused (e : Socket.Env) (addr : Bytes)
    (h : ((∀ r, addr ≠ txt "unix://" ++ r) ∧ ∀ r, addr ≠ txt "tcp://" ++ r) ∨
      ∃ r, addr = txt "tcp://" ++ r ∧ (58 : UInt8) ∉ r) :
    endpoint e addr = .ok (.refused 3) := by
  rcases fromString_cases e addr with ⟨path, hp⟩ | ⟨host, port, hp, hc⟩ | hr
  · rcases h with h | ⟨r, hr, _⟩
    · exact absurd hp (h.1 path)
    · rw [hp] at hr
      have := congrArg List.head? hr
      rw [unixAddress, scheme_unix, txt, scheme_tcp] at this
      simp [unixScheme, tcpScheme] at this
  · rcases h with h | ⟨r, hr, hcr⟩
    · exact absurd (by rw [hp, tcpAddress, txt]; simp only [List.append_assoc]) (h.2 (host ++ ([58] ++ port)))
    · rw [hp, tcpAddress, txt, List.append_assoc, List.append_assoc] at hr
      rw [← List.append_cancel_left hr] at hcr
      simp at hcr
  · simp [endpoint, hr]

example : endpoint oneInterface (txt "udp://127.0.0.1:1") = .ok (.refused 3) ∧
    endpoint oneInterface (txt "tcp://127.0.0.1") = .ok (.refused 3) ∧ endpoint oneInterface [] = .ok (.refused 3) := by
  decide +kernel

/-- C88, meaning. Whenever a socket is made for an address, the address said so: the path is the beginning of the one written; an
IPv4 address is written there or is that of the interface named by the first 15 bytes; an IPv6 address is written there; and a
decimal port has the value of the port written, up to a multiple of 65536. A socket is never made for nothing. -/
theorem C88_meaning (e : Socket.Env) (addr : Bytes) (a : Addr) (len : Nat) (h : endpoint e addr = .ok (.socket a len)) :
    (∃ path, addr = unixAddress path ∧ a = .unix (path.take 107) ∧ len = 110) ∨
      ∃ host port p, addr = tcpAddress host port ∧ (∀ n, Numeral 10 port n → n < 2 ^ 63 → p = BitVec.ofNat 16 n) ∧
        ((∃ w x y z, host = dottedText w x y z ∧ a = .inet (w, x, y, z) p ∧ len = 16) ∨
          (∃ q, InterfaceName host ∧ e.iface (host.take 15) = .ok q ∧ a = .inet q p ∧ len = 16) ∨
          ∃ x, e.pton6 host = some x ∧ a = .inet6 x p ∧ len = 28) := by
  rcases fromString_cases e addr with ⟨path, hp⟩ | ⟨host, port, hp, hc⟩ | hr
  · left
    simp only [endpoint, hp, fromString_unix, ne_eq, not_true_eq_false, if_false, getLength, Res.ok.injEq,
      Endpoint.socket.injEq] at h
    exact ⟨path, hp, h.1.symm, h.2.symm⟩
  · right
    refine ⟨host, port, BitVec.ofInt 16 (strtol port), hp, ?_, ?_⟩
    · intro n h1 h2
      rw [strtol_numeral h1 h2, BitVec.ofInt_natCast]
    · simp only [endpoint, hp, fromString_tcp e _ _ hc, resolve] at h
      by_cases h128 : 128 ≤ host.length
      · simp only [h128, if_true] at h; cases h
      · simp only [h128, if_false] at h
        cases hi : isNumeric host with
        | true =>
          simp only [hi, if_true] at h
          cases h4 : pton4 host with
          | some q =>
            simp only [h4, ne_eq, not_true_eq_false, if_false, getLength, Res.ok.injEq, Endpoint.socket.injEq] at h
            exact Or.inl ⟨_, _, _, _, pton4_some h4, h.1.symm, h.2.symm⟩
          | none =>
            cases h6 : e.pton6 host with
            | some x =>
              simp only [h4, h6, ne_eq, not_true_eq_false, if_false, getLength, Res.ok.injEq, Endpoint.socket.injEq] at h
              exact Or.inr (Or.inr ⟨x, rfl, h.1.symm, h.2.symm⟩)
            | none => simp [h4, h6, getLength] at h
        | false =>
          simp only [hi, Bool.false_eq_true, if_false, interfaceAddress] at h
          cases hq : e.iface (host.take 15) with
          | error c =>
            simp only [hq, Except.map] at h
            by_cases hc : c = 0
            · simp [hc, getLength] at h
            · simp [hc] at h
          | ok q =>
            obtain ⟨w, x, y, z⟩ := q
            simp only [hq, Except.map, dotted_eq, pton4_text, ne_eq, not_true_eq_false, if_false, getLength, Res.ok.injEq,
              Endpoint.socket.injEq] at h
            exact Or.inr (Or.inl ⟨_, (isNumeric_iff host).1 hi, rfl, h.1.symm, h.2.symm⟩)
  · simp [endpoint, hr] at h

example : endpoint oneInterface (txt "tcp://2001:db8::1:80") = .ok (.socket (.inet6 [1] 80) 28) := by decide +kernel

/-- C88, memory. Reading an address keeps within its memory exactly if the host has fewer than 128 bytes. -/
theorem C88_memory (e : Socket.Env) (addr : Bytes) :
    endpoint e addr = .ub ↔ ∃ host port, addr = tcpAddress host port ∧ (58 : UInt8) ∉ port ∧ 128 ≤ host.length := by
  constructor
  · intro h
    rcases fromString_cases e addr with ⟨path, hp⟩ | ⟨host, port, hp, hc⟩ | hr
    · simp [endpoint, hp, fromString_unix, getLength] at h
    · refine ⟨host, port, hp, hc, ?_⟩
      by_cases h128 : 128 ≤ host.length
      · exact h128
      · exfalso
        have : fromString e addr ≠ .ub := by
          rw [hp, fromString_tcp e _ _ hc]
          simp only [resolve, h128, if_false]
          repeat' split
          all_goals simp
        unfold endpoint at h
        split at h
        · split at h
          · cases h
          · split at h <;> cases h
        · cases h
        · rename_i hu; exact this hu
    · simp [endpoint, hr] at h
  · rintro ⟨host, port, rfl, hc, h⟩
    simp only [endpoint, fromString_tcp e _ _ hc, resolve, h, if_true]

example : ∃ host, endpoint oneInterface (tcpAddress host (txt "80")) = .ub :=
  ⟨List.replicate 128 49, (C88_memory _ _).2 ⟨_, _, rfl, by decide, by rw [List.length_replicate]; omega⟩⟩

/-- Counterexample: a host of 128 bytes or more, whatever it is, is written behind the buffer for it. -/
theorem C88_overflow_fails (e : Socket.Env) (host port : Bytes) (hc : (58 : UInt8) ∉ port) (h : 128 ≤ host.length) :
    fromString e (tcpAddress host port) = .ub := by
  simp only [fromString_tcp e _ _ hc, resolve, h, if_true]

example : (58 : UInt8) ∉ txt "80" ∧ 128 ≤ (List.replicate 200 (49 : UInt8)).length :=
  ⟨by decide, by rw [List.length_replicate]; omega⟩

/-- Counterexample: a path of more than 107 bytes is cut with success; the socket is another file. Two such addresses that differ
only behind are one. -/
theorem C88_long_path_fails (e : Socket.Env) (path x y : Bytes) (h : path.length = 107) :
    endpoint e (unixAddress (path ++ x)) = .ok (.socket (.unix path) 110) ∧
      endpoint e (unixAddress (path ++ x)) = endpoint e (unixAddress (path ++ y)) := by
  have hx : ∀ x : Bytes, endpoint e (unixAddress (path ++ x)) = .ok (.socket (.unix path) 110) := by
    intro x
    simp only [endpoint, fromString_unix, ← h, List.take_left, ne_eq, not_true_eq_false, if_false, getLength]
  exact ⟨hx x, by rw [hx x, hx y]⟩

example : (List.replicate 107 (97 : UInt8)).length = 107 := by simp

/-- Counterexample: ports that are not are taken with success: 65616 is port 80, -1 is 65535, `80x` is 80, and `http` and nothing
are port 0. -/
theorem C88_port_fails :
    endpoint oneInterface (txt "tcp://127.0.0.1:65616") = .ok (.socket (.inet (127, 0, 0, 1) 80) 16) ∧
    endpoint oneInterface (txt "tcp://127.0.0.1:-1") = .ok (.socket (.inet (127, 0, 0, 1) 65535) 16) ∧
    endpoint oneInterface (txt "tcp://127.0.0.1:80x") = .ok (.socket (.inet (127, 0, 0, 1) 80) 16) ∧
    endpoint oneInterface (txt "tcp://127.0.0.1:http") = .ok (.socket (.inet (127, 0, 0, 1) 0) 16) ∧
    endpoint oneInterface (txt "tcp://127.0.0.1:") = .ok (.socket (.inet (127, 0, 0, 1) 0) 16) := by decide +kernel

/-- Counterexample: a host that begins with a digit but is no address, like `256.0.0.1` or `1.example`, and no host at all, is
read with success though nothing is stored; asking for the length of the address then aborts the process. -/
theorem C88_abort_fails (e : Socket.Env) (host port : Bytes) (hc : (58 : UInt8) ∉ port) (hl : host.length < 128)
    (hi : ¬ InterfaceName host) (hn : NoAddress e host) : endpoint e (tcpAddress host port) = .ok .aborted := by
  have h128 : ¬ 128 ≤ host.length := by omega
  have hi' : isNumeric host = true := by
    cases h : isNumeric host with
    | true => rfl
    | false => exact absurd ((isNumeric_iff host).1 h) hi
  simp only [endpoint, fromString_tcp e _ _ hc, resolve, h128, if_false, hi', if_true, pton4_none hn.1, hn.2, ne_eq,
    not_true_eq_false, getLength]

example : endpoint oneInterface (txt "tcp://256.0.0.1:80") = .ok .aborted ∧ endpoint oneInterface (txt "tcp://:80") = .ok .aborted ∧
    endpoint oneInterface (txt "tcp://127.0.0.01:80") = .ok .aborted := by decide +kernel

example : NoAddress oneInterface (txt "1.example") ∧ ¬ InterfaceName (txt "1.example") := by
  refine ⟨⟨?_, by decide⟩, ?_⟩
  · intro a b c d h
    have := congrArg pton4 h
    rw [pton4_text] at this
    rw [show pton4 (txt "1.example") = none by decide +kernel] at this
    cases this
  · intro h
    exact h.1 49 (by decide) (by decide)

/-- Counterexample: whether an IPv6 address is read depends on its first character: one that begins with a letter or a colon is
looked up as the name of an interface and refused. One that is read is not printed: neither the text nor the port is stored,
with success. -/
theorem C88_inet6_fails :
    endpoint oneInterface (txt "tcp://2001:db8::1:80") = .ok (.socket (.inet6 [1] 80) 28) ∧
    (oneInterface.pton6 (txt "fe80::1")).isSome ∧ endpoint oneInterface (txt "tcp://fe80::1:80") = .ok (.refused 19) ∧
    ∀ ip p n, Socket.toString (.inet6 ip p) n = (none, none) :=
  ⟨by decide +kernel, by decide +kernel, by decide +kernel, fun _ _ _ => rfl⟩

/-- Counterexample: names of interfaces are cut to 15 bytes: a name that is too long, which no interface has, is taken for the
interface it begins with. -/
theorem C88_interface_fails (e : Socket.Env) (name more t : Bytes) (q : UInt8 × UInt8 × UInt8 × UInt8) (p : Nat)
    (hn : InterfaceName (name ++ more)) (hl : name.length = 15) (hm : more.length < 113) (hq : e.iface name = .ok q)
    (ht : Numeral 10 t p) (hp : p < 65536) :
    endpoint e (tcpAddress (name ++ more) t) = .ok (.socket (.inet q (BitVec.ofNat 16 p)) 16) := by
  have h128 : ¬ 128 ≤ (name ++ more).length := by rw [List.length_append]; omega
  have hi := (isNumeric_iff _).2 hn
  obtain ⟨a, b, c, d⟩ := q
  simp only [endpoint, fromString_tcp e _ _ (numeral_nocolon ht), resolve, h128, if_false, hi, Bool.false_eq_true,
    interfaceAddress, ← hl, List.take_left, hq, Except.map, dotted_eq, pton4_text, strtol_numeral ht (by omega), ne_eq,
    not_true_eq_false, getLength, BitVec.ofInt_natCast]

example : endpoint ⟨fun n => if n = txt "enx001122334455" then .ok (10, 0, 0, 2) else .error 19, fun _ => none⟩
    (txt "tcp://enx0011223344556677:80") = .ok (.socket (.inet (10, 0, 0, 2) 80) 16) := by decide +kernel

end Verif.Props
