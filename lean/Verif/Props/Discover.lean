import Verif.Proof.Discover
/-!
# Discovery: theorems
-/

namespace Verif.Props

open Verif.Discover Verif.Spec.Discover Verif.Proof.Discover

private def plenty : Nat → Bool := fun _ => true

private def two : List Bytes := ["Device.A".toUTF8.data.toList, "Device.B".toUTF8.data.toList]

private theorem two_honest : Honest two ⟨some 0, some 2, two.map some⟩ := ⟨rfl, rfl, by decide +kernel, by decide +kernel⟩

/-- Whoever asks for the components, for the elements of a component, for the components that have an element or for those that
match a wildcard is given exactly the names the router answered with, in its order. Missing: a wildcard that matches nothing (see
`C108_none_fails`) and running out of memory. -/
theorem C108_names_partial (names : List Bytes) (r : Reply) (mem : Nat → Bool) (hr : Honest names r) (hm : ∀ i, mem i = true) :
    (∃ o, components true mem (some r) = .ok o ∧ Given names o) ∧
    (∃ o, elements true mem (some r) = .ok o ∧ Given names o) ∧
    (r.result = some 0 → ∃ o, objects true mem (some r) = .ok o ∧ Given names o) ∧
    (r.result = some 0 → names ≠ [] → ∃ o, wildcard true mem (some r) = .ok o ∧ Given names o) := by
  have hi := toInt_ofNat hr.few
  have hl : r.items.length = names.length := by rw [hr.items]; simp
  have hf : ∀ undo before, fill mem r.items names.length names.length names.length undo before =
      .ok ⟨.success, some names.length, .array (names.map .text)⟩ := by
    intro undo before
    rw [hr.items]
    exact fill_all hm hr.short undo before
  have hg : Given names ⟨.success, some names.length, .array (names.map .text)⟩ := ⟨rfl, rfl, .inl rfl⟩
  refine ⟨⟨_, ?_, hg⟩, ?_, ?_, ?_⟩
  · unfold components
    simp only [hr.count, hi, hl, hf, Bool.true_eq_false, if_false]
  · unfold elements
    simp only [hr.count, hi, hl, hf, Bool.true_eq_false, if_false]
    by_cases h0 : names = []
    · subst h0
      exact ⟨_, rfl, rfl, rfl, .inr ⟨rfl, .inl rfl⟩⟩
    · have : names.length ≠ 0 := fun h => h0 (List.length_eq_zero_iff.1 h)
      rw [if_pos ⟨by omega, this⟩]
      exact ⟨_, rfl, hg⟩
  · intro hres
    unfold objects
    simp only [hr.count, hi, hres, Option.getD_some, Int.toNat_natCast, hf, Bool.true_eq_false, if_false, if_true]
    by_cases h0 : names = []
    · subst h0
      exact ⟨_, rfl, rfl, rfl, .inr ⟨rfl, .inr rfl⟩⟩
    · have : names.length ≠ 0 := fun h => h0 (List.length_eq_zero_iff.1 h)
      rw [if_pos (by omega)]
      exact ⟨_, rfl, hg⟩
  · intro hres h0
    have : names.length ≠ 0 := fun h => h0 (List.length_eq_zero_iff.1 h)
    unfold wildcard
    simp only [hr.count, hi, hl, hres, hf, Bool.true_eq_false, if_false, if_true]
    rw [if_pos ⟨by omega, this⟩]
    exact ⟨_, rfl, hg⟩

example : Honest two ⟨some 0, some 2, two.map some⟩ ∧ two ≠ [] ∧ (∀ i, plenty i = true) := ⟨two_honest, by decide, fun _ => rfl⟩

/-- The router's answers are such answers: to each request, with the names it found; to the request for the components that have an
element, when one element is asked for. -/
theorem C108_router (names : List Bytes) (few : names.length < 2 ^ 31) (short : ∀ n ∈ names, n.length ≤ 256) :
    (∃ r, replyOf (.components names) = some r ∧ Honest names r) ∧
    (∃ r, replyOf (.elements names) = some r ∧ Honest names r) ∧
    (∃ r, replyOf (.wildcard (some names)) = some r ∧ r.result = some 0 ∧ Honest names r) ∧
    (∀ s x ns, Router.traceEach s [x] = .ok (some (ns, names)) →
      ∃ r, replyOf (.objects (some (ns, names))) = some r ∧ r.result = some 0 ∧ Honest names r) := by
  refine ⟨⟨_, rfl, rfl, rfl, few, short⟩, ⟨_, rfl, rfl, rfl, few, short⟩, ⟨_, rfl, rfl, rfl, rfl, few, short⟩, ?_⟩
  intro s x ns h
  have := traceEach_one h
  subst this
  exact ⟨_, rfl, rfl, rfl, rfl, few, short⟩

example : two.length < 2 ^ 31 ∧ ∀ n ∈ two, n.length ≤ 256 := by decide +kernel

/-- Nothing is undefined, whoever answers and however much memory there is, as long as the answer says how many items it has or
more, and the items are texts. -/
theorem C108_defined_partial (connected : Bool) (mem : Nat → Bool) (reply : Option Reply) (hs : ∀ r ∈ reply, Sound r) :
    (∃ o, components connected mem reply = .ok o) ∧ (∃ o, elements connected mem reply = .ok o) ∧
    (∃ o, wildcard connected mem reply = .ok o) ∧ (∃ o, objects connected mem reply = .ok o) := by
  cases connected with
  | false => exact ⟨⟨_, rfl⟩, ⟨_, rfl⟩, ⟨_, rfl⟩, ⟨_, rfl⟩⟩
  | true =>
    cases reply with
    | none => exact ⟨⟨_, rfl⟩, ⟨_, rfl⟩, ⟨_, rfl⟩, ⟨_, rfl⟩⟩
    | some r =>
      obtain ⟨⟨n, hn, hle⟩, ht⟩ := hs r rfl
      have hf : ∀ undo before, ∃ o, fill mem r.items n.toInt r.items.length r.items.length undo before = .ok o :=
        fun undo before => fill_defined ht hle undo before
      refine ⟨?_, ?_, ?_, ?_⟩
      · unfold components
        simp only [hn, Bool.true_eq_false, if_false]
        exact hf _ _
      · unfold elements
        simp only [hn, Bool.true_eq_false, if_false]
        split
        · exact hf _ _
        · exact ⟨_, rfl⟩
      · unfold wildcard
        simp only [hn, Bool.true_eq_false, if_false]
        split
        · split
          · exact hf _ _
          · exact ⟨_, rfl⟩
        · exact ⟨_, rfl⟩
      · unfold objects
        simp only [hn, Bool.true_eq_false, if_false, Option.getD_some]
        split
        · split
          · exact fill_defined ht (fun _ => by omega) _ _
          · exact ⟨_, rfl⟩
        · exact ⟨_, rfl⟩

example : Sound ⟨some 0, some 2, two.map some⟩ := ⟨⟨2, rfl, by decide +kernel⟩, by decide +kernel⟩

/-- Asking for the components that have an element is defined also when the number is wrong or missing. -/
theorem C108_objects_defined (connected : Bool) (mem : Nat → Bool) (r : Reply) (ht : ∀ i ∈ r.items, i ≠ none) :
    ∃ o, objects connected mem (some r) = .ok o := by
  cases connected with
  | false => exact ⟨_, rfl⟩
  | true =>
    unfold objects
    simp only [Bool.true_eq_false, if_false]
    split
    · split
      · exact fill_defined ht (fun _ => by omega) _ _
      · exact ⟨_, rfl⟩
    · exact ⟨_, rfl⟩

example : objects true plenty (some ⟨some 0, some 3, two.map some⟩) = .ok ⟨.general, some 3, .dangling⟩ := by decide +kernel

/-- After an error the caller holds no array that it would have to free. -/
theorem C108_error (connected : Bool) (mem : Nat → Bool) (reply : Option Reply) (o : Out) (cells : List Cell)
    (h : components connected mem reply = .ok o ∨ elements connected mem reply = .ok o ∨ wildcard connected mem reply = .ok o ∨
      objects connected mem reply = .ok o) (hc : o.code ≠ .success) : o.slot ≠ .array cells := by
  have key : ∀ {items size z k undo before}, fill mem items size z k undo before = .ok o → (before = .untouched ∨ before = .null) →
      o.slot ≠ .array cells := by
    intro items size z k undo before hf hb
    rcases fill_error hf hc with h1 | h1
    · rw [h1]; rcases hb with h2 | h2 <;> rw [h2] <;> intro h3 <;> cases h3
    · rw [h1]; split <;> intro h3 <;> cases h3
  cases connected with
  | false => rcases h with h | h | h | h <;> cases h <;> (intro h3; cases h3)
  | true =>
    cases reply with
    | none => rcases h with h | h | h | h <;> cases h <;> (intro h3; cases h3)
    | some r =>
      rcases h with h | h | h | h
      · unfold components at h
        simp only [Bool.true_eq_false, if_false] at h
        split at h
        · cases h
        · exact key h (.inl rfl)
      · unfold elements at h
        simp only [Bool.true_eq_false, if_false] at h
        split at h
        · cases h
        · split at h
          · exact key h (.inr rfl)
          · cases h; intro h3; cases h3
      · unfold wildcard at h
        simp only [Bool.true_eq_false, if_false] at h
        split at h
        · split at h
          · cases h
          · split at h
            · exact key h (.inl rfl)
            · cases h; intro h3; cases h3
        · cases h; intro h3; cases h3
      · unfold objects at h
        simp only [Bool.true_eq_false, if_false] at h
        split at h
        · split at h
          · exact key h (.inl rfl)
          · cases h; intro h3; cases h3
        · cases h; intro h3; cases h3

example : components true (fun _ => false) (some ⟨none, some 2, two.map some⟩) = .ok ⟨.noMemory, some 2, .untouched⟩ := by decide +kernel

/-- With the public call, an error leaves NULL in the caller's pointer, and success an array with as many places as it says or NULL
for none. -/
theorem C108_public (connected : Bool) (mem : Nat → Bool) (reply : Option Reply) (ok : Bool) (n : Int) (slot : Slot)
    (h : dataElements connected mem reply = .ok (ok, n, slot)) :
    (ok = false → slot = .null) ∧ (∀ cells, slot = .array cells → ok = true ∧ (cells.length : Int) = n) ∧ Usable slot := by
  unfold dataElements at h
  obtain ⟨o, ho, h⟩ := res_bind_ok h
  cases h
  have close : (o.slot = .untouched ∨ o.slot = .null) →
      (decide (o.code = .success) = false → (if o.slot = .untouched then Slot.null else o.slot) = .null) ∧
      (∀ cells, (if o.slot = .untouched then Slot.null else o.slot) = .array cells →
        decide (o.code = .success) = true ∧ (cells.length : Int) = o.count.getD 0) ∧
      Usable (if o.slot = .untouched then Slot.null else o.slot) := by
    intro hs
    have : (if o.slot = .untouched then Slot.null else o.slot) = .null := by rcases hs with h | h <;> simp [h]
    rw [this]
    exact ⟨fun _ => rfl, fun _ h => (by cases h), fun h => (by cases h)⟩
  cases connected with
  | false => cases ho; exact close (.inl rfl)
  | true =>
    cases reply with
    | none => cases ho; exact close (.inl rfl)
    | some r =>
      unfold elements at ho
      simp only [Bool.true_eq_false, if_false] at ho
      split at ho
      · cases ho
      · split at ho
        · by_cases hc : o.code = .success
          · obtain ⟨names, hcp, hn, hsl⟩ := fill_names ho hc
            have hlen : ∀ (k i : Nat) (l : List Bytes), copy mem r.items i k = .ok (some l) → l.length = k := by
              intro k
              induction k with
              | zero => intro i l h; cases h; rfl
              | succ k ih =>
                intro i l h
                unfold copy at h
                split at h
                · cases h
                · cases h
                · split at h
                  · obtain ⟨rest, hr, h⟩ := res_bind_ok h
                    cases rest with
                    | none => cases h
                    | some rest => cases h; simp [ih _ _ hr]
                  · cases h
            have h1 := hlen _ _ _ hcp
            unfold fill at ho
            split at ho
            · split at ho
              · cases ho
              · rename_i _ _ _ h0 hz
                rw [hsl, hn]
                refine ⟨fun h => (by simp [hc] at h), fun cells hcl => ⟨by simp [hc], ?_⟩, fun h => (by cases h)⟩
                simp only [reduceCtorEq, if_false, Slot.array.injEq] at hcl
                rw [← hcl]
                simp only [List.length_append, List.length_map, List.length_replicate, h1, Option.getD_some]
                omega
            · cases ho; cases hc
          · rcases fill_error ho hc with h | h
            · exact close (.inr h)
            · exact close (.inr h)
        · cases ho; exact close (.inr rfl)

example : dataElements true plenty (some ⟨none, some 2, two.map some⟩) = .ok (true, 2, .array (two.map .text)) := by decide +kernel

/-- An answer with more items than it says: memory past the array is zeroed and written (rbuscore.c:1930, 2015, 2276). -/
theorem C108_short_fails (mem : Nat → Bool) (hm : mem 0 = true) (r : Reply) (n : BitVec 32) (hn : r.count = some n)
    (h0 : 0 < n.toInt) (hl : n.toInt < r.items.length) (hres : r.result = some 0) :
    components true mem (some r) = .ub ∧ elements true mem (some r) = .ub ∧ wildcard true mem (some r) = .ub := by
  have hf : ∀ undo before, fill mem r.items n.toInt r.items.length r.items.length undo before = .ub := by
    intro undo before
    unfold fill
    rw [if_pos ⟨by omega, hm⟩, if_pos hl]
  refine ⟨?_, ?_, ?_⟩
  · unfold components
    simp only [hn, hf, Bool.true_eq_false, if_false]
  · unfold elements
    simp only [hn, hf, Bool.true_eq_false, if_false]
    rw [if_pos ⟨by omega, by omega⟩]
  · unfold wildcard
    simp only [hn, hf, hres, Bool.true_eq_false, if_false, if_true]
    rw [if_pos ⟨by omega, by omega⟩]

example : ∃ r : Reply, ∃ n, r.count = some n ∧ 0 < n.toInt ∧ n.toInt < r.items.length ∧ r.result = some 0 :=
  ⟨⟨some 0, some 1, two.map some⟩, 1, rfl, by decide +kernel, by decide +kernel, rfl⟩

/-- An answer without a number: a variable that was never set is used. -/
theorem C108_number_fails (mem : Nat → Bool) (items : List (Option Bytes)) :
    components true mem (some ⟨some 0, none, items⟩) = .ub ∧ elements true mem (some ⟨some 0, none, items⟩) = .ub ∧
      wildcard true mem (some ⟨some 0, none, items⟩) = .ub := ⟨rfl, rfl, rfl⟩

/-- An item that is no text: NULL is copied. -/
theorem C108_text_fails :
    components true plenty (some ⟨some 0, some 1, [none]⟩) = .ub ∧ elements true plenty (some ⟨some 0, some 1, [none]⟩) = .ub ∧
      wildcard true plenty (some ⟨some 0, some 1, [none]⟩) = .ub ∧ objects true plenty (some ⟨some 0, some 1, [none]⟩) = .ub := by
  decide +kernel

/-- When the memory runs out while the names are copied, the array is freed but three of the calls leave it with the caller, with the
number of names. -/
theorem C108_dangling_fails : ∃ mem : Nat → Bool,
    components true mem (some ⟨some 0, some 2, two.map some⟩) = .ok ⟨.general, some 2, .dangling⟩ ∧
    wildcard true mem (some ⟨some 0, some 2, two.map some⟩) = .ok ⟨.general, some 2, .dangling⟩ ∧
    objects true mem (some ⟨some 0, some 2, two.map some⟩) = .ok ⟨.general, some 2, .dangling⟩ :=
  ⟨fun i => i != 2, by decide +kernel⟩

/-- When the memory runs out, the public call reports an error and NULL, but still the number of names. -/
theorem C108_count_fails : ∃ mem : Nat → Bool,
    dataElements true mem (some ⟨some 0, some 2, two.map some⟩) = .ok (false, 2, .null) := ⟨fun i => i != 2, by decide +kernel⟩

/-- An answer with fewer items than it says: success, and the array has places that were never set. -/
theorem C108_garbage_fails :
    components true plenty (some ⟨some 0, some 3, two.map some⟩) = .ok ⟨.success, some 3, .array (two.map .text ++ [.garbage])⟩ := by
  decide +kernel

/-- For a wildcard that matches nothing the caller is told of success, and its counter is not set. -/
theorem C108_none_fails (mem : Nat → Bool) :
    ∃ r, replyOf (.wildcard (some [])) = some r ∧ wildcard true mem (some r) = .ok ⟨.success, none, .untouched⟩ := ⟨_, rfl, rfl⟩

end Verif.Props
