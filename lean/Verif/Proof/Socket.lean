import Verif.Spec.Socket
import Verif.Proof.Text

/-!
# Helper lemmas about addresses of sockets
-/

namespace Verif.Socket

open Verif Verif.Spec.Text

theorem decimal_eq (n : Nat) : Element.decimal n = decimalText n := rfl

theorem dotted_eq (a b c d : UInt8) : dotted (a, b, c, d) = dottedText a b c d := by
  simp only [dotted, dottedText, decimal_eq, List.append_assoc, List.cons_append, List.nil_append]

theorem cut_append (c : UInt8) (x y : Bytes) (h : c ∉ y) : cut c (x ++ c :: y) = some (x, y) := by
  have hy : ∀ y : Bytes, c ∉ y → cut c y = none := by
    intro y
    induction y with
    | nil => intro _; rfl
    | cons b s ih =>
      intro h
      simp only [List.mem_cons, not_or] at h
      simp only [cut, ih h.2]
      rw [if_neg (fun hh => h.1 hh.symm)]
  induction x with
  | nil => simp only [List.nil_append, cut, hy y h, if_true]
  | cons b s ih => simp only [List.cons_append, cut, ih]

theorem cut_none (c : UInt8) : ∀ s : Bytes, c ∉ s → cut c s = none
  | [], _ => rfl
  | b :: s, h => by
    simp only [List.mem_cons, not_or] at h
    simp only [cut, cut_none c s h.2]
    rw [if_neg (fun hh => h.1 hh.symm)]

theorem cut_some (c : UInt8) : ∀ (s x y : Bytes), cut c s = some (x, y) → s = x ++ c :: y ∧ c ∉ y
  | [], x, y, h => by simp [cut] at h
  | b :: s, x, y, h => by
    simp only [cut] at h
    cases hc : cut c s with
    | some p =>
      obtain ⟨x', y'⟩ := p
      simp only [hc, Option.some.injEq, Prod.mk.injEq] at h
      obtain ⟨rfl, rfl⟩ := h
      obtain ⟨h1, h2⟩ := cut_some c s _ _ hc
      exact ⟨by rw [h1]; rfl, h2⟩
    | none =>
      simp only [hc] at h
      by_cases hb : b = c
      · simp only [hb, if_true, Option.some.injEq, Prod.mk.injEq] at h
        obtain ⟨rfl, rfl⟩ := h
        refine ⟨by rw [hb]; rfl, ?_⟩
        intro hm
        exact absurd hc (cut_mem c s hm)
      · simp only [hb, if_false] at h
        cases h
where
  cut_mem (c : UInt8) : ∀ s : Bytes, c ∈ s → cut c s ≠ none
    | b :: s, h => by
      simp only [cut]
      cases hc : cut c s with
      | some p => simp
      | none =>
        rcases List.mem_cons.1 h with h | h
        · simp [h]
        · exact absurd hc (cut_mem c s h)

/-! ### IPv4 addresses -/

theorem fields_append : ∀ (x y : Bytes), (46 : UInt8) ∉ x → fields (x ++ 46 :: y) = x :: fields y
  | [], y, _ => by simp [fields]
  | b :: x, y, h => by
    simp only [List.mem_cons, not_or] at h
    have hb : b ≠ 46 := fun hh => h.1 hh.symm
    simp only [List.cons_append, fields, hb, if_false, fields_append x y h.2]

theorem fields_last : ∀ (x : Bytes), (46 : UInt8) ∉ x → fields x = [x]
  | [], _ => rfl
  | b :: x, h => by
    simp only [List.mem_cons, not_or] at h
    have hb : b ≠ 46 := fun hh => h.1 hh.symm
    simp only [fields, hb, if_false, fields_last x h.2]

def glue : List Bytes → Bytes
  | [] => []
  | [f] => f
  | f :: fs => f ++ 46 :: glue fs

theorem fields_ne : ∀ s : Bytes, fields s ≠ []
  | [] => by simp [fields]
  | b :: s => by
    simp only [fields]
    by_cases hb : b = 46
    · simp [hb]
    · simp only [hb, if_false]
      cases fields s <;> simp

theorem glue_cons (b : UInt8) (f : Bytes) : ∀ fs, glue ((b :: f) :: fs) = b :: glue (f :: fs)
  | [] => rfl
  | _ :: _ => rfl

theorem glue_fields : ∀ s : Bytes, glue (fields s) = s
  | [] => rfl
  | b :: s => by
    have ih := glue_fields s
    have hn := fields_ne s
    simp only [fields]
    by_cases hb : b = 46
    · simp only [hb, if_true]
      cases hf : fields s with
      | nil => exact absurd hf hn
      | cons f fs =>
        rw [hf] at ih
        show [] ++ 46 :: glue (f :: fs) = _
        rw [ih]; rfl
    · simp only [hb, if_false]
      cases hf : fields s with
      | nil => exact absurd hf hn
      | cons f fs =>
        rw [hf] at ih
        show glue ((b :: f) :: fs) = _
        rw [glue_cons, ih]

theorem octet_text : ∀ a : UInt8, octet (decimalText a.toNat) = some a := by
  have h : ∀ a : Fin 256, octet (decimalText a.val) = some (UInt8.ofNat a.val) := by decide +kernel
  intro a
  have := h ⟨a.toNat, a.toNat_lt⟩
  simpa using this

theorem octet_nodot : ∀ a : UInt8, (46 : UInt8) ∉ decimalText a.toNat := by
  have h : ∀ a : Fin 256, (46 : UInt8) ∉ decimalText a.val := by decide +kernel
  intro a
  exact h ⟨a.toNat, a.toNat_lt⟩

theorem octet_length : ∀ a : UInt8, (decimalText a.toNat).length ≤ 3 := by
  have h : ∀ a : Fin 256, (decimalText a.val).length ≤ 3 := by decide +kernel
  intro a
  exact h ⟨a.toNat, a.toNat_lt⟩

theorem octet_head : ∀ a : UInt8, ∃ b r, decimalText a.toNat = b :: r ∧ isdigit b = true := by
  have h : ∀ a : Fin 256, (decimalText a.val).head?.any isdigit = true := by decide +kernel
  intro a
  have := h ⟨a.toNat, a.toNat_lt⟩
  simp only at this
  cases hd : decimalText a.toNat with
  | nil => rw [hd] at this; simp at this
  | cons b r => rw [hd] at this; exact ⟨b, r, rfl, by simpa using this⟩

theorem isdigit_fin {b : UInt8} (h : isdigit b = true) : ∃ d : Fin 10, b = UInt8.ofNat (48 + d.val) := by
  simp only [isdigit, Bool.and_eq_true, decide_eq_true_eq] at h
  have h1 : 48 ≤ b.toNat := by simpa [UInt8.le_iff_toNat_le] using h.1
  have h2 : b.toNat ≤ 57 := by simpa [UInt8.le_iff_toNat_le] using h.2
  refine ⟨⟨b.toNat - 48, by omega⟩, ?_⟩
  apply UInt8.toNat_inj.1
  show b.toNat = (UInt8.ofNat (48 + (b.toNat - 48))).toNat
  rw [show 48 + (b.toNat - 48) = b.toNat by omega]
  simp

theorem octet_some {s : Bytes} {a : UInt8} (h : octet s = some a) : s = decimalText a.toNat := by
  have h1 : ∀ x : Fin 10, ∀ a, octet [UInt8.ofNat (48 + x.val)] = some a →
      [UInt8.ofNat (48 + x.val)] = decimalText a.toNat := by
    have : ∀ x : Fin 10, (octet [UInt8.ofNat (48 + x.val)]).all fun a =>
      [UInt8.ofNat (48 + x.val)] = decimalText a.toNat := by decide +kernel
    intro x a h
    have := this x
    rw [h] at this
    simpa using this
  have h2 : ∀ x y : Fin 10, ∀ a, octet [UInt8.ofNat (48 + x.val), UInt8.ofNat (48 + y.val)] = some a →
      [UInt8.ofNat (48 + x.val), UInt8.ofNat (48 + y.val)] = decimalText a.toNat := by
    have : ∀ x y : Fin 10, (octet [UInt8.ofNat (48 + x.val), UInt8.ofNat (48 + y.val)]).all fun a =>
      [UInt8.ofNat (48 + x.val), UInt8.ofNat (48 + y.val)] = decimalText a.toNat := by decide +kernel
    intro x y a h
    have := this x y
    rw [h] at this
    simpa using this
  have h3 : ∀ x y z : Fin 10, ∀ a, octet [UInt8.ofNat (48 + x.val), UInt8.ofNat (48 + y.val), UInt8.ofNat (48 + z.val)] =
      some a → [UInt8.ofNat (48 + x.val), UInt8.ofNat (48 + y.val), UInt8.ofNat (48 + z.val)] = decimalText a.toNat := by
    have : ∀ x y z : Fin 10,
      (octet [UInt8.ofNat (48 + x.val), UInt8.ofNat (48 + y.val), UInt8.ofNat (48 + z.val)]).all fun a =>
      [UInt8.ofNat (48 + x.val), UInt8.ofNat (48 + y.val), UInt8.ofNat (48 + z.val)] = decimalText a.toNat := by
      decide +kernel
    intro x y z a h
    have := this x y z
    rw [h] at this
    simpa using this
  have hc : s ≠ [] ∧ s.length ≤ 3 ∧ s.all isdigit = true := by
    unfold octet at h
    by_cases hc : s ≠ [] ∧ s.length ≤ 3 ∧ s.all isdigit ∧ (s.head? = some 48 → s.length = 1)
    · exact ⟨hc.1, hc.2.1, hc.2.2.1⟩
    · simp only [hc, if_false] at h
      cases h
  obtain ⟨hn, hl, hd⟩ := hc
  match s, hn, hl, hd, h with
  | [x], _, _, hd, h =>
    simp only [List.all_cons, List.all_nil, Bool.and_true] at hd
    obtain ⟨x, rfl⟩ := isdigit_fin hd
    exact h1 x a h
  | [x, y], _, _, hd, h =>
    simp only [List.all_cons, List.all_nil, Bool.and_true, Bool.and_eq_true] at hd
    obtain ⟨x, rfl⟩ := isdigit_fin hd.1
    obtain ⟨y, rfl⟩ := isdigit_fin hd.2
    exact h2 x y a h
  | [x, y, z], _, _, hd, h =>
    simp only [List.all_cons, List.all_nil, Bool.and_true, Bool.and_eq_true] at hd
    obtain ⟨x, rfl⟩ := isdigit_fin hd.1
    obtain ⟨y, rfl⟩ := isdigit_fin hd.2.1
    obtain ⟨z, rfl⟩ := isdigit_fin hd.2.2
    exact h3 x y z a h
  | _ :: _ :: _ :: _ :: _, _, hl, _, _ => simp only [List.length_cons] at hl; omega

theorem pton4_text (a b c d : UInt8) : pton4 (dottedText a b c d) = some (a, b, c, d) := by
  have : fields (dottedText a b c d) = [decimalText a.toNat, decimalText b.toNat, decimalText c.toNat, decimalText d.toNat] := by
    simp only [dottedText, List.append_assoc, List.cons_append, List.nil_append]
    rw [fields_append _ _ (octet_nodot a), fields_append _ _ (octet_nodot b), fields_append _ _ (octet_nodot c),
      fields_last _ (octet_nodot d)]
  simp only [pton4, this, octet_text]

theorem pton4_some {s : Bytes} {q : UInt8 × UInt8 × UInt8 × UInt8} (h : pton4 s = some q) :
    s = dottedText q.1 q.2.1 q.2.2.1 q.2.2.2 := by
  have hg := glue_fields s
  unfold pton4 at h
  split at h
  · rename_i a b c d hf
    split at h
    · rename_i a' b' c' d' ha hb hc hd
      cases h
      rw [hf] at hg
      rw [← hg, octet_some ha, octet_some hb, octet_some hc, octet_some hd]
      simp only [glue, dottedText, List.append_assoc, List.cons_append, List.nil_append]
    · cases h
  · cases h

theorem pton4_none {s : Bytes} (h : ∀ a b c d, s ≠ dottedText a b c d) : pton4 s = none := by
  cases hp : pton4 s with
  | none => rfl
  | some q => exact absurd (pton4_some hp) (h _ _ _ _)

theorem dottedText_length (a b c d : UInt8) : (dottedText a b c d).length ≤ 15 := by
  have h1 := octet_length a
  have h2 := octet_length b
  have h3 := octet_length c
  have h4 := octet_length d
  simp only [dottedText, List.length_append, List.length_cons, List.length_nil]
  omega

theorem isNumeric_digit {b : UInt8} {s : Bytes} (h : isdigit b = true) : isNumeric (b :: s) = true := by
  simp only [isNumeric, h, Bool.true_or, List.all_eq_true, implies_true]

theorem isNumeric_dotted (a b c d : UInt8) : isNumeric (dottedText a b c d) = true := by
  obtain ⟨x, r, hx, hd⟩ := octet_head a
  simp only [dottedText, hx, List.append_assoc, List.cons_append]
  exact isNumeric_digit hd

theorem isNumeric_iff (host : Bytes) : isNumeric host = false ↔ InterfaceName host := by
  cases host with
  | nil => simp [isNumeric, InterfaceName]
  | cons a s =>
    simp only [isNumeric, InterfaceName, List.all_eq_false, List.head?_cons, Option.some.injEq, forall_eq', Bool.or_eq_true,
      not_or, beq_iff_eq]
    constructor
    · rintro ⟨b, hb, h1, h2⟩
      refine ⟨?_, b, hb, h2⟩
      intro hh
      apply h1
      simp only [isdigit, Bool.and_eq_true, decide_eq_true_eq]
      exact hh
    · rintro ⟨h1, b, hb, h2⟩
      refine ⟨b, hb, ?_, h2⟩
      intro hh
      apply h1
      simpa only [isdigit, Bool.and_eq_true, decide_eq_true_eq] using hh

/-! ### Ports -/

theorem strtol_numeral {t : Bytes} {n : Nat} (h : Numeral 10 t n) (hn : n < 2 ^ 63) : strtol t = n := by
  have h1 : Text.strto false t = some (false, n, []) :=
    (Text.strto_iff _ _ _ _).2 ⟨[], [], t, rfl, by simp, by simpa [Unsigned] using h, Or.inl rfl⟩
  simp only [strtol, h1, Text.toSigned]
  have h2 : ¬ ((n : Int) > 2 ^ (64 - 1) - 1) := by omega
  have h3 : ¬ ((n : Int) < -2 ^ (64 - 1)) := by omega
  simp only [Bool.false_eq_true, if_false, h2, h3]

theorem numeral_nocolon {t : Bytes} {n : Nat} (h : Numeral 10 t n) : (58 : UInt8) ∉ t := by
  intro hm
  obtain ⟨_, vs, h1, _, _⟩ := h
  have : digitOf 58 ∈ t.map digitOf := List.mem_map_of_mem hm
  rw [h1] at this
  obtain ⟨v, _, hv⟩ := List.mem_map.1 this
  exact absurd hv (by simp [digitOf])

/-! ### Whole addresses -/

theorem scheme_unix : "unix://".toUTF8.data.toList = unixScheme := by decide
theorem scheme_tcp : "tcp://".toUTF8.data.toList = tcpScheme := by decide

theorem fromString_unix (e : Env) (path : Bytes) : fromString e (unixAddress path) = .ok (0, .unix (path.take 107)) := by
  unfold fromString
  have : (unixAddress path).take 7 = unixScheme := by rw [unixAddress, scheme_unix]; rfl
  rw [if_pos this]
  rw [unixAddress, scheme_unix]
  rfl

/-- What is done with the host. -/
def resolve (e : Env) (host : Bytes) (port : BitVec 16) : Res (Nat × Addr) :=
  if 128 ≤ host.length then .ub
  else
    match (if isNumeric host then .ok host else interfaceAddress e host) with
    | .error c => .ok (c, .unset)
    | .ok ip =>
      match pton4 ip with
      | some q => .ok (0, .inet q port)
      | none =>
        match e.pton6 ip with
        | some x => .ok (0, .inet6 x port)
        | none => .ok (0, .unset)

theorem fromString_tcp (e : Env) (host port : Bytes) (h : (58 : UInt8) ∉ port) :
    fromString e (tcpAddress host port) = resolve e host (BitVec.ofInt 16 (strtol port)) := by
  have ht : tcpAddress host port = tcpScheme ++ (host ++ 58 :: port) := by
    rw [tcpAddress, scheme_tcp]; simp only [List.append_assoc, List.cons_append, List.nil_append]
  have h1 : ¬ (tcpAddress host port).take 7 = unixScheme := by
    rw [ht]; intro hh
    have := congrArg List.head? hh
    simp [tcpScheme, unixScheme] at this
  have h2 : ¬ (tcpAddress host port).take 6 ≠ tcpScheme := by
    rw [ht]; intro hh; exact hh rfl
  have h3 : (tcpAddress host port).drop 6 = host ++ 58 :: port := by rw [ht]; rfl
  have h4 : cut 58 (tcpAddress host port) = some (tcpScheme ++ host, port) := by
    rw [ht, ← List.append_assoc]; exact cut_append _ _ _ h
  unfold fromString
  rw [if_neg h1, if_neg h2, h3, cut_append _ _ _ h]
  simp only [parsePort, h4]
  rfl

theorem take_prefix {s p : Bytes} : s.take p.length = p ↔ ∃ r, s = p ++ r := by
  constructor
  · intro h
    refine ⟨s.drop p.length, ?_⟩
    have := (List.take_append_drop p.length s).symm
    rw [h] at this
    exact this
  · rintro ⟨r, rfl⟩
    simp

theorem fromString_cases (e : Env) (addr : Bytes) :
    (∃ path, addr = unixAddress path) ∨ (∃ host port, addr = tcpAddress host port ∧ (58 : UInt8) ∉ port) ∨
      fromString e addr = .ok (3, .unset) := by
  by_cases h1 : addr.take 7 = unixScheme
  · obtain ⟨r, hr⟩ := (take_prefix (s := addr) (p := unixScheme)).1 h1
    exact Or.inl ⟨r, by rw [unixAddress, scheme_unix]; exact hr⟩
  · by_cases h2 : addr.take 6 = tcpScheme
    · obtain ⟨r, hr⟩ := (take_prefix (s := addr) (p := tcpScheme)).1 h2
      have h3 : addr.drop 6 = r := by rw [hr]; rfl
      cases hc : cut 58 r with
      | some p =>
        obtain ⟨host, port⟩ := p
        obtain ⟨h4, h5⟩ := cut_some _ _ _ _ hc
        refine Or.inr (Or.inl ⟨host, port, ?_, h5⟩)
        rw [tcpAddress, scheme_tcp, hr, h4]
        simp only [List.append_assoc, List.cons_append, List.nil_append]
      | none =>
        refine Or.inr (Or.inr ?_)
        unfold fromString
        rw [if_neg h1, if_neg (by simp [h2]), h3, hc]
        cases hp : parsePort addr with
        | error c =>
          simp only
          unfold parsePort at hp
          split at hp
          · cases hp; rfl
          · cases hp
        | ok x => rfl
    · refine Or.inr (Or.inr ?_)
      unfold fromString
      rw [if_neg h1, if_pos h2]; rfl

end Verif.Socket
