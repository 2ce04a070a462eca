import Verif.Proof.GatherWild

/-!
# Proofs about the names of instances
-/

namespace Verif.GatherProof

open Verif Verif.Element Verif.Subs Verif.Gather Verif.Spec.Rows

/-- The first round of the conversion goes over what both have in common. -/
theorem common_append : ∀ (x reg query : Bytes), common (x ++ reg) (x ++ query) = (common reg query).map (fun y => (x ++ y.1, y.2)) := by
  intro x
  induction x with
  | nil => intro reg query; simp
  | cons c x ih =>
    intro reg query
    simp only [List.cons_append, common, if_true, ih, Option.map_map]
    rfl

/-- What the loop does from a point on, where `x` is yet to be copied in the same round. -/
theorem loop_common {fuel : Nat} {x reg query buf : Bytes} (hr : reg ≠ []) (hq : query ≠ []) (hx : x ≠ []) :
    convertLoop (fuel + 1) (x ++ reg) (x ++ query) buf = convertLoop (fuel + 1) reg query (buf ++ x) := by
  have h1 : ¬ (x ++ reg = [] ∨ x ++ query = []) := by simp [hr, hq]
  have h2 : ¬ (reg = [] ∨ query = []) := by simp [hr, hq]
  simp only [convertLoop, if_neg h1, if_neg h2, common_append]
  cases common reg query with
  | none => rfl
  | some y => simp [List.append_assoc]

/-- The last rounds. -/
theorem loop_end {fuel : Nat} {x rest buf : Bytes} (hx : x ≠ []) (hr : rest ≠ []) (hb : rest.head? ≠ some 123) :
    convertLoop (fuel + 2) (x ++ rest) x buf = .done (buf ++ x ++ rest) := by
  have h1 : ¬ (x ++ rest = [] ∨ x = []) := by simp [hr, hx]
  have h2 : common (x ++ rest) x = some (x, rest, []) := by
    have := common_append x rest []
    rw [List.append_nil] at this
    rw [this]
    cases rest with
    | nil => exact absurd rfl hr
    | cons r rs => simp [common]
  rw [convertLoop, if_neg h1, h2]
  simp only [hb, if_false, decide_false, Bool.false_eq_true, if_true]
  rw [convertLoop]
  simp

/-- A round that replaces a row template. -/
theorem loop_template {fuel : Nat} {u reg query buf : Bytes} (hu : u ≠ []) (hb : (123 : UInt8) ∉ u) (hd : (46 : UInt8) ∉ u) :
    convertLoop (fuel + 1) (template ++ 46 :: reg) (u ++ 46 :: query) buf =
      convertLoop fuel (46 :: reg) (46 :: query) (buf ++ u) := by
  have h1 : ¬ (template ++ 46 :: reg = [] ∨ u ++ 46 :: query = []) := by simp
  have h2 : common (template ++ 46 :: reg) (u ++ 46 :: query) = some ([], template ++ 46 :: reg, u ++ 46 :: query) := by
    cases u with
    | nil => exact absurd rfl hu
    | cons c u =>
      have : (123 : UInt8) ≠ c := fun h => hb (by simp [h])
      simp [template, common, this]
  rw [convertLoop, if_neg h1, h2]
  have hall : ∀ b ∈ u, decide (b ≠ dot) = true := by
    intro b hb'
    apply decide_eq_true
    rintro rfl
    exact hd hb'
  have ht : (u ++ 46 :: query).takeWhile (· ≠ dot) = u := by
    rw [List.takeWhile_append_of_pos hall]
    simp [dot]
  have hw : (u ++ 46 :: query).dropWhile (· ≠ dot) = 46 :: query := by
    rw [List.dropWhile_append_of_pos hall]
    simp [dot]
  have hw' : (template ++ 46 :: reg).dropWhile (· ≠ dot) = 46 :: reg := by
    simp [template, dot]
  have hh : (template ++ 46 :: reg).head? = some 123 := rfl
  simp only [hh, if_true, ht, hw, hw', List.append_nil, reduceCtorEq, if_false]

/-- The conversion of components: either the same or a row template. -/
theorem loop_paths : ∀ (reg query : Path) (rest : Bytes) (fuel : Nat) (buf : Bytes), reg.length = query.length →
    (∀ x ∈ reg.zip query, x.1 = x.2 ∧ (123 : UInt8) ∉ x.2 ∨ x.1 = template ∧ x.2 ≠ [] ∧ (123 : UInt8) ∉ x.2 ∧ (46 : UInt8) ∉ x.2) →
    query ≠ [] → rest ≠ [] → rest.head? ≠ some 123 → query.length + 1 ≤ fuel →
    convertLoop (fuel + 1) (join reg ++ rest) (join query) buf = .done (buf ++ join query ++ rest) := by
  intro reg
  induction reg with
  | nil =>
    intro query rest fuel buf hl _ hq
    cases query with
    | nil => exact absurd rfl hq
    | cons u query => cases hl
  | cons t reg ih =>
    intro query rest fuel buf hl hm hq hr hb hf
    cases query with
    | nil => exact absurd rfl hq
    | cons u query =>
      have hm1 := hm (t, u) (by simp)
      have hm2 : ∀ x ∈ reg.zip query, _ := fun x hx => hm x (by simp [hx])
      simp only [List.length_cons, Nat.add_right_cancel_iff] at hl hf
      simp only [join_cons]
      rcases hm1 with ⟨htu, _⟩ | ⟨htu, hu, hub, hud⟩
      · simp only at htu
        subst htu
        cases query with
        | nil =>
          cases reg with
          | cons _ _ => cases hl
          | nil =>
            obtain ⟨k, rfl⟩ : ∃ k, fuel = k + 1 := ⟨fuel - 1, by omega⟩
            have := loop_end (fuel := k) (x := t ++ [46]) (buf := buf) (by simp) hr hb
            simpa [join] using this
        | cons v query =>
          have hreg : reg ≠ [] := by rintro rfl; cases hl
          have h1 : join reg ++ rest ≠ [] := by simp [hr]
          have h2 : join (v :: query) ≠ [] := by simp [join_cons]
          have := loop_common (fuel := fuel) (buf := buf) h1 h2 (x := t ++ [46]) (by simp)
          simp only [List.append_assoc, List.singleton_append] at this ⊢
          rw [List.cons_append, this, ih (v :: query) rest fuel _ hl hm2 (by simp) hr hb (by simp at hf ⊢; omega)]
          simp
      · simp only at htu hu hub hud
        subst htu
        obtain ⟨k, rfl⟩ : ∃ k, fuel = k + 1 := ⟨fuel - 1, by omega⟩
        rw [List.append_assoc, List.cons_append, loop_template hu hub hud]
        cases query with
        | nil =>
          cases reg with
          | cons _ _ => cases hl
          | nil =>
            obtain ⟨k, rfl⟩ : ∃ j, k = j + 1 := ⟨k - 1, by simp at hf; omega⟩
            have := loop_end (fuel := k) (x := [46]) (buf := buf ++ u) (by simp) hr hb
            simpa [join] using this
        | cons v query =>
          have h1 : join reg ++ rest ≠ [] := by simp [hr]
          have h2 : join (v :: query) ≠ [] := by simp [join_cons]
          have := loop_common (fuel := k) (buf := buf ++ u) h1 h2 (x := [46]) (by simp)
          simp only [List.singleton_append] at this
          rw [this, ih (v :: query) rest k _ hl hm2 (by simp) hr hb (by simp at hf ⊢; omega)]
          simp

theorem join_length (p : Path) : p.length ≤ (join p).length := by
  induction p with
  | nil => simp
  | cons t p ih => rw [join_cons]; simp; omega

theorem convert_name {reg query rest : Path} (hlen : reg.length = query.length)
    (hm : ∀ x ∈ reg.zip query, x.1 = x.2 ∧ (123 : UInt8) ∉ x.2 ∨ x.1 = template ∧ x.2 ≠ [] ∧ (123 : UInt8) ∉ x.2 ∧ (46 : UInt8) ∉ x.2)
    (hne : query ≠ []) (hr : rest ≠ [] ∧ ∀ t, rest.head? = some t → t.head? ≠ some 123 ∧ t ≠ [])
    (hfit : (fullText (query ++ rest)).length < 256) :
    convert (fullText (reg ++ rest)) (join query) = .done (fullText (query ++ rest)) := by
  obtain ⟨hr, hh⟩ := hr
  have h1 : fullText rest ≠ [] ∧ (fullText rest).head? ≠ some 123 := by
    cases rest with
    | nil => exact absurd rfl hr
    | cons t rest =>
      obtain ⟨ha, hb⟩ := hh t rfl
      cases t with
      | nil => exact absurd rfl hb
      | cons c t => cases rest with
        | nil => exact ⟨by simp [fullText], by simpa [fullText] using ha⟩
        | cons v rest => exact ⟨by simp [fullText], by simpa [fullText] using ha⟩
  have hq := join_length query
  have hl : 0 < (fullText rest).length := List.length_pos_iff.mpr h1.1
  rw [full_append query hr] at hfit ⊢
  rw [full_append reg hr]
  have := loop_paths reg query (fullText rest) ((join reg ++ fullText rest).length + (join query).length) [] hlen hm hne h1.1 h1.2
    (by simp only [List.length_append]; omega)
  unfold convert
  rw [this]
  simp only [List.nil_append]
  rw [if_pos (by simpa [maxName] using hfit)]

end Verif.GatherProof
