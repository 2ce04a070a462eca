import Verif.Spec.PrivateAddress
import Verif.Proof.Message
import Verif.Proof.Socket

/-!
# Lemmas about agreeing on a private connection
-/

namespace Verif.PrivateAddress

open Verif Verif.Message Verif.Socket

theorem nextString_set {s : Bytes} (h : Sent s) (r : Bytes) : nextString (setString s ++ r) = .ok (some s, r) := by
  have : (s ++ [0]).contains 0 = true := by simp
  simp only [nextString, setString, unpack_packStr (s ++ [0]) (by simpa using h.2), this, if_true]
  rw [takeWhile_append_nul h.1]

theorem nextString_end {s : Bytes} (h : Sent s) : nextString (setString s) = .ok (some s, []) := by
  have := nextString_set h []
  rwa [List.append_nil] at this

theorem nextInt_set (v : BitVec 32) (r : Bytes) : nextInt (setInt32 v ++ r) = (some v, r) := by
  have h := get_setInt32 v r
  unfold getInt32 at h
  unfold nextInt
  split at h
  · simp only [Option.some.injEq, Prod.mk.injEq] at h
    simp_all
  · cases h

theorem nextInt_end (v : BitVec 32) : nextInt (setInt32 v) = (some v, []) := by
  have := nextInt_set v []
  rwa [List.append_nil] at this

theorem nextString_int (v : BitVec 32) (r : Bytes) : nextString (setInt32 v ++ r) = .ok (none, r) := by
  have h := get_setInt32 v r
  unfold getInt32 at h
  unfold nextString
  split at h
  · rename_i hu
    simp only [Option.some.injEq, Prod.mk.injEq] at h
    rw [hu, h.2]
  · cases h

theorem nextString_int_end (v : BitVec 32) : nextString (setInt32 v) = .ok (none, []) := by
  have := nextString_int v []
  rwa [List.append_nil] at this

/-- The address before it is cut. -/
theorem text_eq (prog consumer : Bytes) :
    "unix:///tmp/.direct_".toUTF8.data.toList ++ prog ++ [95] ++ consumer = unixAddress (socketPath prog consumer) := by
  have h1 : "unix:///tmp/.direct_".toUTF8.data.toList = "unix://".toUTF8.data.toList ++ "/tmp/.direct_".toUTF8.data.toList := by
    decide +kernel
  have h2 : "_".toUTF8.data.toList = [95] := by decide +kernel
  rw [unixAddress, socketPath, h1, h2]
  simp only [List.append_assoc]

theorem take_unix (path : Bytes) (n : Nat) : (unixAddress path).take (n + 7) = unixAddress (path.take n) := by
  rw [unixAddress, unixAddress, scheme_unix, List.take_append]
  have : unixScheme.length = 7 := rfl
  rw [this, List.take_of_length_le (by rw [this]; omega), Nat.add_sub_cancel]

theorem unixText_eq (prog consumer : Bytes) :
    unixText prog consumer = unixAddress ((socketPath prog consumer).take 248) := by
  rw [unixText, text_eq]
  exact take_unix _ 248

theorem copied_unix (path : Bytes) : copied (unixAddress path) = unixAddress (path.take 120) := take_unix _ 120

theorem local_take {broker : Bytes} (h : Local broker) : broker.take 4 = "unix".toUTF8.data.toList := by
  obtain ⟨path, rfl⟩ := h
  rw [unixAddress, scheme_unix]
  have : "unix".toUTF8.data.toList = [117, 110, 105, 120] := by decide +kernel
  rw [this]
  rfl

/-- What the provider does for a request that is well formed. -/
theorem step_ask (p : Provider) (l : List Entry) (t : Bool) {a : Ask} (ha : a.Proper) :
    step p l ⟨t, a.message⟩ =
      if p.has a.param then do
        match ← choose p.prog (some a.consumer) a.broker with
        | .error code => .ok (l, ⟨none, setInt32 code⟩)
        | .ok address =>
          let (l', started) := listen t l address a.consumer a.param
          .ok (l', ⟨started, setInt32 success ++ setString p.inbox ++ setString address⟩)
      else .ok (l, ⟨none, setInt32 entryNotFound⟩) := by
  simp only [step, Ask.message, request, List.append_assoc, nextString_set ha.1, nextInt_set, nextString_set ha.2.1,
    nextString_end ha.2.2, Res.ok_bind, Option.getD_some]
  rfl

theorem step_local (p : Provider) (l : List Entry) (t : Bool) {a : Ask} (ha : a.Proper) (hp : p.has a.param = true)
    (hb : Local a.broker) :
    step p l ⟨t, a.message⟩ = .ok ((listen t l (unixText p.prog a.consumer) a.consumer a.param).1,
      ⟨(listen t l (unixText p.prog a.consumer) a.consumer a.param).2,
        setInt32 success ++ setString p.inbox ++ setString (unixText p.prog a.consumer)⟩) := by
  rw [step_ask p l t ha, if_pos hp]
  simp only [choose, local_take hb, if_true, Res.ok_bind]

theorem sent_text {prog consumer : Bytes} (hp : (0 : UInt8) ∉ prog) (hc : (0 : UInt8) ∉ consumer) :
    Sent (unixText prog consumer) := by
  constructor
  · intro h
    have h := List.mem_of_mem_take h
    simp only [List.mem_append] at h
    have h1 : (0 : UInt8) ∉ "unix:///tmp/.direct_".toUTF8.data.toList := by decide +kernel
    have h2 : (0 : UInt8) ∉ ([95] : Bytes) := by decide
    grind
  · have : (unixText prog consumer).length ≤ 255 := by
      unfold unixText
      exact List.length_take_le ..
    omega

theorem receive_set {inbox address : Bytes} (hi : Sent inbox) (ha : Sent address) :
    receive (setInt32 success ++ setString inbox ++ setString address) = .ok (.ok (inbox, address)) := by
  simp only [receive, List.append_assoc, nextInt_set, Option.getD_some, ne_eq, not_true_eq_false, if_false,
    nextString_set hi, nextString_end ha, Res.ok_bind]

theorem receive_code {code : BitVec 32} (h : code ≠ 0) : receive (setInt32 code) = .ok (.error code) := by
  have h' : code ≠ success := h
  simp only [receive, nextInt_end, Option.getD_some, ne_eq, h', not_false_eq_true, if_true]

theorem endpoint_unix (e : Env) (path : Bytes) : endpoint e (unixAddress path) = .ok (.socket (.unix (path.take 107)) 110) := by
  simp only [endpoint, fromString_unix, ne_eq, not_true_eq_false, if_false, getLength]

theorem unix_inj {x y : Bytes} (h : unixAddress x = unixAddress y) : x = y := List.append_cancel_left h

theorem path_inj {prog x y : Bytes} (h : socketPath prog x = socketPath prog y) : x = y := List.append_cancel_left h

theorem fits_text {prog consumer : Bytes} (h : Fits prog consumer) :
    unixText prog consumer = unixAddress (socketPath prog consumer) := by
  unfold Fits at h
  rw [unixText_eq, List.take_of_length_le (by omega)]

theorem fits_copied {prog consumer : Bytes} (h : Fits prog consumer) :
    copied (unixText prog consumer) = unixAddress (socketPath prog consumer) := by
  rw [fits_text h, copied_unix]
  unfold Fits at h
  rw [List.take_of_length_le (by omega)]

theorem fits_length {prog consumer : Bytes} (h : Fits prog consumer) : (unixAddress (socketPath prog consumer)).length ≤ 114 := by
  unfold Fits at h
  rw [unixAddress, scheme_unix, List.length_append]
  have : unixScheme.length = 7 := rfl
  omega

theorem cut_none_iff {c : UInt8} : ∀ {s : Bytes}, cut c s = none → c ∉ s
  | [], _ => by simp
  | b :: s, h => by
    unfold cut at h
    split at h
    · cases h
    · rename_i hs
      split at h
      · cases h
      · rename_i hb
        have := cut_none_iff hs
        simp only [List.mem_cons, not_or]
        exact ⟨fun h => hb h.symm, this⟩

/-- What is kept about the list while requests with short names come: the addresses are those of the consumers seen, and threads
were started for each once. -/
structure Inv (prog : Bytes) (asks : List Ask) (l : List Entry) (os : List Out) : Prop where
  whole : l = asks.map fun a => ⟨unixAddress (socketPath prog a.consumer), a.consumer, a.param.take 127⟩
  nodup : (startedAt os).Nodup
  mem : ∀ s, s ∈ startedAt os ↔ ∃ a ∈ asks, s = unixAddress (socketPath prog a.consumer)

theorem Inv.entries {prog : Bytes} {asks : List Ask} {l : List Entry} {os : List Out} (h : Inv prog asks l os) :
    l.map Entry.address = asks.map fun a => unixAddress (socketPath prog a.consumer) := by
  rw [h.whole, List.map_map]
  rfl

theorem fits_consumer {prog consumer : Bytes} (h : Fits prog consumer) : copied consumer = consumer := by
  unfold Fits socketPath at h
  simp only [List.length_append] at h
  exact List.take_of_length_le (by omega)

theorem any_same {prog : Bytes} {asks : List Ask} {l : List Entry}
    (h : l.map Entry.address = asks.map fun a => unixAddress (socketPath prog a.consumer))
    (hf : ∀ a ∈ asks, Fits prog a.consumer) {consumer : Bytes} (hc : Fits prog consumer) :
    l.any (sameServer (unixText prog consumer)) = true ↔ ∃ a ∈ asks, a.consumer = consumer := by
  have h1 : ∀ s : Bytes, (∃ e ∈ l, e.address = s) ↔ ∃ a ∈ asks, unixAddress (socketPath prog a.consumer) = s := by
    intro s
    have : s ∈ l.map Entry.address ↔ s ∈ asks.map fun a => unixAddress (socketPath prog a.consumer) := by rw [h]
    simpa only [List.mem_map] using this
  have hlen : ∀ {c : Bytes}, Fits prog c → (unixAddress (socketPath prog c)).take 128 = unixAddress (socketPath prog c) :=
    fun hc => List.take_of_length_le (by have := fits_length hc; omega)
  rw [List.any_eq_true, fits_text hc]
  constructor
  · rintro ⟨e, he, hs⟩
    obtain ⟨a, ha, hae⟩ := (h1 e.address).1 ⟨e, he, rfl⟩
    simp only [sameServer, beq_iff_eq, ← hae, hlen (hf a ha), hlen hc] at hs
    exact ⟨a, ha, path_inj (unix_inj hs)⟩
  · rintro ⟨a, ha, rfl⟩
    obtain ⟨e, he, hea⟩ := (h1 _).2 ⟨a, ha, rfl⟩
    exact ⟨e, he, by simp [sameServer, hea]⟩

theorem run_snoc (p : Provider) (l : List Entry) (cs : List Call) (c : Call) :
    run p l (cs ++ [c]) = (do
      let (l1, os) ← run p l cs
      let (l2, o) ← step p l1 c
      pure (l2, os ++ [o])) := by
  induction cs generalizing l with
  | nil =>
    simp only [List.nil_append, run, Res.ok_bind]
  | cons d cs ih =>
    simp only [List.cons_append, run]
    cases hd : step p l d with
    | ok x =>
      simp only [Res.ok_bind, ih]
      cases hr : run p x.1 cs with
      | ok y =>
        simp only [Res.ok_bind, Res.pure_eq]
        cases step p y.1 c <;> simp
      | fail => simp
      | ub => simp
    | fail => simp
    | ub => simp

theorem list_snoc_induction {α : Type} {P : List α → Prop} (h0 : P []) (h1 : ∀ l a, P l → P (l ++ [a])) : ∀ l, P l := by
  intro l
  have : ∀ r : List α, P r.reverse := by
    intro r
    induction r with
    | nil => exact h0
    | cons a r ih => rw [List.reverse_cons]; exact h1 _ _ ih
  simpa using this l.reverse

theorem run_inv (p : Provider) (asks : List Ask) (hp : ∀ a ∈ asks, a.Proper ∧ p.has a.param = true ∧ Local a.broker ∧
      Fits p.prog a.consumer) :
    ∃ l os, run p [] (asks.map fun a => ⟨true, a.message⟩) = .ok (l, os) ∧ Inv p.prog asks l os := by
  induction asks using list_snoc_induction with
  | h0 => exact ⟨[], [], rfl, ⟨rfl, by simp [startedAt], by simp [startedAt]⟩⟩
  | h1 asks a ih =>
    obtain ⟨l, os, hr, hi⟩ := ih fun b hb => hp b (List.mem_append_left _ hb)
    obtain ⟨ha, hh, hb, hf⟩ := hp a (List.mem_append_right _ (List.mem_singleton.2 rfl))
    have hfs : ∀ b ∈ asks, Fits p.prog b.consumer := fun b hb => (hp b (List.mem_append_left _ hb)).2.2.2
    have hany := any_same hi.entries hfs hf
    rw [List.map_append, List.map_cons, List.map_nil, run_snoc, hr, Res.ok_bind]
    simp only [step_local p l true ha hh hb, Res.ok_bind, Res.pure_eq, listen]
    by_cases hc : l.any (sameServer (unixText p.prog a.consumer)) = true
    · simp only [hc, if_true]
      refine ⟨_, _, rfl, ?_, ?_, ?_⟩
      · rw [List.map_append, ← hi.whole, fits_copied hf, fits_consumer hf]
        rfl
      · simpa [startedAt, List.filterMap_append] using hi.nodup
      · intro s
        have hm := hi.mem s
        obtain ⟨b, hb', hbc⟩ := hany.1 hc
        simp only [startedAt, List.filterMap_append, List.filterMap_cons, List.filterMap_nil, List.append_nil] at hm ⊢
        rw [hm]
        constructor
        · rintro ⟨x, hx, rfl⟩
          exact ⟨x, List.mem_append_left _ hx, rfl⟩
        · rintro ⟨x, hx, rfl⟩
          rcases List.mem_append.1 hx with hx | hx
          · exact ⟨x, hx, rfl⟩
          · rw [List.mem_singleton.1 hx]
            exact ⟨b, hb', by rw [hbc]⟩
    · have hc' : l.any (sameServer (unixText p.prog a.consumer)) = false := by simpa using hc
      simp only [hc', Bool.false_eq_true, if_false, if_true]
      refine ⟨_, _, rfl, ?_, ?_, ?_⟩
      · rw [List.map_append, ← hi.whole, fits_copied hf, fits_consumer hf]
        rfl
      · have hn := hi.nodup
        simp only [startedAt, List.filterMap_append, List.filterMap_cons, List.filterMap_nil] at hn ⊢
        rw [List.nodup_append]
        refine ⟨hn, by simp, ?_⟩
        intro x hx y hy
        rw [List.mem_singleton.1 hy]
        rintro rfl
        obtain ⟨b, hb', hbe⟩ := (hi.mem _).1 hx
        rw [fits_copied hf] at hbe
        exact hc (hany.2 ⟨b, hb', (path_inj (unix_inj hbe)).symm⟩)
      · intro s
        have hm := hi.mem s
        simp only [startedAt, List.filterMap_append, List.filterMap_cons, List.filterMap_nil, List.mem_append,
          List.mem_singleton] at hm ⊢
        rw [hm, fits_copied hf]
        constructor
        · rintro (⟨x, hx, rfl⟩ | rfl)
          · exact ⟨x, .inl hx, rfl⟩
          · exact ⟨a, .inr rfl, rfl⟩
        · rintro ⟨x, hx | rfl, rfl⟩
          · exact .inl ⟨x, hx, rfl⟩
          · exact .inr rfl

end Verif.PrivateAddress
