import Verif.Spec.RouterStart

/-!
# Lemmas for C113
-/

namespace Verif.RouterStart

open Verif

theorem isPrefixOf_take (p a : Bytes) : p.isPrefixOf a = (a.take p.length == p) := by
  rw [Bool.eq_iff_iff, List.isPrefixOf_iff_prefix, List.prefix_iff_eq_take, beq_iff_eq]
  exact eq_comm

theorem begins_file (a : Bytes) : Begins "unix://" a = socketFile a :=
  isPrefixOf_take [117, 110, 105, 120, 58, 47, 47] a

theorem begins_unix : Begins "unix" = saysUnix :=
  funext fun a => isPrefixOf_take [117, 110, 105, 120] a

theorem tries_le (a : Bytes) (i : Bool) : tries a false ≤ tries a i := by
  unfold tries
  cases i <;> split <;> simp

theorem bind_free {env : Bytes → Fate} {a : Bytes} {i : Bool} (h : Free env a) :
    (bindListener (env a) a i).1 = true := by
  obtain ⟨n, h1, h2⟩ := h
  rw [begins_file] at h2
  have : n < tries a i := by
    have := tries_le a i
    have h0 : n < tries a false := by
      unfold tries
      split at h2
      · rename_i hs; simp [hs, h2]
      · rename_i hs; simpa [hs] using h2
    omega
  simp [bindListener, h1, this]

theorem bind_taken {f : Fate} {a : Bytes} {i : Bool} (h : f = .bad ∨ f = .never ∨ ∃ n, f = .after n false) :
    (bindListener f a i).1 = false := by
  rcases h with rfl | rfl | ⟨n, rfl⟩
  · rfl
  · rfl
  · simp only [bindListener]; split <;> rfl

theorem bindAll_free {env : Bytes → Fate} : ∀ {as : List Bytes} {i : Bool} {bound : List Bytes},
    as.Nodup → (∀ a ∈ as, a ∉ bound) → (∀ a ∈ as, Free env a) →
    (bindAll env i bound as).map (·.1) = as.map some := by
  intro as
  induction as with
  | nil => intros; rfl
  | cons a as ih =>
    intro i bound hn hb hf
    have h1 : a ∉ bound := hb a (by simp)
    have h2 := bind_free (i := i) (hf a (by simp))
    obtain ⟨n1, n2⟩ := List.nodup_cons.mp hn
    simp only [bindAll, h1, if_false, h2, if_true, List.map_cons]
    rw [ih n2 ?_ (fun b hm => hf b (List.mem_cons_of_mem _ hm))]
    intro b hm hm'
    rcases List.mem_cons.mp hm' with rfl | hm'
    · exact n1 hm
    · exact hb b (List.mem_cons_of_mem _ hm) hm'

theorem accept_some (a : Bytes) : ∀ as : List Bytes, accept a (as.map some) = .ok (as.count a) := by
  intro as
  induction as with
  | nil => rfl
  | cons b as ih =>
    simp only [List.map_cons, accept, ih, Res.ok_bind, Res.pure_eq, List.count_cons]
    by_cases h : b = a <;> simp [h]

theorem accept_null (a : Bytes) : ∀ l : List (Option Bytes), none ∈ l → accept a l = .ub := by
  intro l
  induction l with
  | nil => intro h; cases h
  | cons b l ih =>
    intro h
    cases b with
    | none => rfl
    | some b =>
      have h : none ∈ l := by simpa using h
      simp only [accept, ih h, Res.ub_bind]

theorem client_free {places : List (Option Bytes × Nat)} {as : List Bytes} (hp : places.map (·.1) = as.map some)
    (hn : as.Nodup) (a : Bytes) : client places a = .ok (if a ∈ as then 1 else 0) := by
  unfold client
  rw [hp]
  by_cases h : a ∈ as
  · have h' : some a ∈ as.map some := List.mem_map_of_mem h
    rw [if_pos h', if_pos h, accept_some, List.Nodup.count hn, if_pos h]
  · have h' : some a ∉ as.map some := by simpa using h
    rw [if_neg h', if_neg h]

theorem serves_of {env : Bytes → Fate} {as : List Bytes} {r : Res Start} (hr : r = .ok (.runs (bindAll env false [] as)))
    (hn : as.Nodup) (hf : ∀ a ∈ as, Free env a) : Serves r as := by
  have hp := bindAll_free (i := false) (bound := []) hn (by simp) hf
  refine ⟨_, hr, hp, ?_, ?_⟩
  · intro a ha; rw [client_free hp hn, if_pos ha]
  · intro a ha; rw [client_free hp hn, if_neg ha]

theorem swap_perm (a : Bytes) : ∀ (rest : List Bytes) (i : Nat), i < rest.length →
    (rest.getD i a :: rest.set i a).Perm (a :: rest) := by
  intro rest
  induction rest with
  | nil => intro i h; exact absurd h (by simp)
  | cons b rest ih =>
    intro i h
    cases i with
    | zero => simpa using List.Perm.swap a b rest
    | succ i =>
      have := ih i (by simpa using h)
      simp only [List.getD_cons_succ, List.set_cons_succ]
      exact (List.Perm.swap _ _ _).trans ((this.cons b).trans (List.Perm.swap _ _ _))

theorem unixFirst_perm (as : List Bytes) : (unixFirst as).Perm as := by
  unfold unixFirst
  split
  · rename_i i a rest h
    have := (List.findIdx?_eq_some_iff_getElem.mp h).1
    exact swap_perm a rest i (by simpa using this)
  · exact .refl _

theorem unixFirst_head {as : List Bytes} (h : ∃ a ∈ as, saysUnix a = true) :
    ∃ a rest, unixFirst as = a :: rest ∧ as.find? saysUnix = some a := by
  cases as with
  | nil => obtain ⟨a, h, -⟩ := h; cases h
  | cons a rest =>
    cases hi : (a :: rest).findIdx? saysUnix with
    | none =>
      obtain ⟨b, hb, hs⟩ := h
      have := List.findIdx?_eq_none_iff.mp hi b hb
      rw [hs] at this; cases this
    | some i =>
      obtain ⟨h1, h2, h3⟩ := List.findIdx?_eq_some_iff_getElem.mp hi
      cases i with
      | zero =>
        refine ⟨a, rest, by simp only [unixFirst, hi], ?_⟩
        simp at h2
        simp [h2]
      | succ i =>
        have hl : i < rest.length := by simpa using h1
        refine ⟨rest.getD i a, rest.set i a, by simp only [unixFirst, hi], ?_⟩
        rw [List.find?_eq_some_iff_getElem]
        refine ⟨?_, i + 1, h1, ?_, ?_⟩
        · simpa [List.getD, hl] using h2
        · simp [List.getD, hl]
        · intro j hj
          have := h3 j hj
          simpa using this

theorem bindAll_taken {env : Bytes → Fate} : ∀ {as : List Bytes} {i : Bool} {bound : List Bytes} {a : Bytes},
    a ∈ as → Taken env a → none ∈ (bindAll env i bound as).map (·.1) := by
  intro as
  induction as with
  | nil => intro _ _ _ h; cases h
  | cons b as ih =>
    intro i bound a ha ht
    rcases List.mem_cons.mp ha with rfl | ha
    · have : (bindListener (if a ∈ bound then .never else env a) a i).1 = false := by
        split
        · exact bind_taken (.inr (.inl rfl))
        · exact bind_taken ht
      simp [bindAll, this]
    · simp only [bindAll, List.map_cons]
      exact List.mem_cons_of_mem _ (ih ha ht)

theorem bindAll_some {env : Bytes → Fate} : ∀ {as : List Bytes} {i : Bool} {bound : List Bytes} {b : Bytes},
    b ∈ as → b ∉ bound → Free env b → some b ∈ (bindAll env i bound as).map (·.1) := by
  intro as
  induction as with
  | nil => intro _ _ _ h; cases h
  | cons a as ih =>
    intro i bound b hb hn hf
    by_cases hab : b = a
    · subst hab
      have := bind_free (i := i) hf
      simp [bindAll, hn, this]
    · have hb : b ∈ as := (List.mem_cons.mp hb).resolve_left hab
      simp only [bindAll, List.map_cons]
      have key : ∀ c : Bool, b ∉ (if c = true then a :: bound else bound) := by
        intro c; cases c <;> simp [hab, hn]
      exact List.mem_cons_of_mem _ (ih hb (key _) hf)

theorem bindAll_none {env : Bytes → Fate} : ∀ {as : List Bytes} {i : Bool} {bound : List Bytes},
    (∀ a ∈ as, Taken env a) → ∀ p ∈ (bindAll env i bound as).map (·.1), p = none := by
  intro as
  induction as with
  | nil => intro _ _ _ p h; cases h
  | cons a as ih =>
    intro i bound h p hp
    have : (bindListener (if a ∈ bound then .never else env a) a i).1 = false := by
      split
      · exact bind_taken (.inr (.inl rfl))
      · exact bind_taken (h a (by simp))
    simp only [bindAll, this, List.map_cons, List.mem_cons] at hp
    rcases hp with rfl | hp
    · rfl
    · exact ih (fun b hb => h b (List.mem_cons_of_mem _ hb)) p hp

theorem uris_text (as : List Bytes) : uris (as.map fun a => some (some a)) = .ok as := by
  induction as with
  | nil => rfl
  | cons a as ih => simp [uris, ih]

end Verif.RouterStart
