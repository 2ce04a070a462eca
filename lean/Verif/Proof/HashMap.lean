import Verif.Spec.HashMap

namespace Verif.HashMap

open Verif

/-- Every node is in the bucket its key hashes to. -/
def Placed {K V} (c : Conf K) (bs : List (List (K × V))) : Prop :=
  ∀ i b, bs[i]? = some b → ∀ kv ∈ b, c.hash kv.1 bs.length = i

/-- The table holds exactly the bindings `l`. -/
def Holds {K V} (c : Conf K) (m : Map K V) (l : List (K × V)) : Prop :=
  0 < m.buckets.length ∧ Placed c m.buckets ∧ m.buckets.flatten.Perm l ∧ m.size = l.length ∧
    (l.map (·.1)).Nodup

theorem getBucket_good {K V} {c : Conf K} (hc : GoodHash c) (bs : List (List (K × V))) (k : K)
    (h : 0 < bs.length) : getBucket c bs k = some (c.hash k bs.length) := by
  unfold getBucket
  rw [if_neg (by omega), if_pos (hc k _ h)]

theorem split_at {α} (bs : List (List α)) (i : Nat) (h : i < bs.length) :
    ∃ pre post, bs = pre ++ bs[i] :: post ∧ pre.length = i :=
  ⟨bs.take i, bs.drop (i + 1), by simp, by simp; omega⟩

theorem modify_split {α} (pre : List α) (b : α) (post : List α) (f : α → α) :
    (pre ++ b :: post).modify pre.length f = pre ++ f b :: post := by
  induction pre with
  | nil => rfl
  | cons x pre ih => simp [List.modify_succ_cons, ih]

theorem placed_modify {K V} {c : Conf K} {bs : List (List (K × V))} (h : Placed c bs) (i : Nat)
    (f : List (K × V) → List (K × V))
    (hf : ∀ b, bs[i]? = some b → ∀ kv ∈ f b, kv ∈ b ∨ c.hash kv.1 bs.length = i) :
    Placed c (bs.modify i f) := by
  intro j b hb kv hkv
  rw [List.length_modify]
  rw [List.getElem?_modify] at hb
  by_cases hij : i = j
  · subst hij
    simp only [if_true, Option.map_eq_map] at hb
    cases hbi : bs[i]? with
    | none => simp [hbi] at hb
    | some b0 =>
      simp only [hbi, Option.map_some, Option.some.injEq] at hb
      subst hb
      rcases hf b0 hbi kv hkv with h1 | h1
      · exact h i b0 hbi kv h1
      · exact h1
  · simp only [hij, if_false, Option.map_eq_map] at hb
    cases hbi : bs[j]? with
    | none => simp [hbi] at hb
    | some b0 =>
      simp [hbi] at hb
      subst hb
      exact h j b0 hbi kv hkv

theorem pushNode_spec {K V} {c : Conf K} (hc : GoodHash c) {bs : List (List (K × V))}
    (h : 0 < bs.length) (hp : Placed c bs) (kv : K × V) :
    (pushNode c bs kv).length = bs.length ∧ Placed c (pushNode c bs kv) ∧
      (pushNode c bs kv).flatten.Perm (kv :: bs.flatten) := by
  unfold pushNode
  rw [getBucket_good hc bs kv.1 h]
  have hi := hc kv.1 bs.length h
  refine ⟨by simp, placed_modify hp _ _ ?_, ?_⟩
  · intro b _ kv' hm
    simp only [List.mem_append, List.mem_singleton] at hm
    rcases hm with h1 | h1
    · exact .inl h1
    · subst h1; exact .inr rfl
  · obtain ⟨pre, post, hs, hl⟩ := split_at bs _ hi
    generalize bs[c.hash kv.1 bs.length] = b at hs
    simp only
    rw [← hl, hs, modify_split]
    simp only [List.flatten_append, List.flatten_cons, List.append_assoc]
    have h1 : (pre.flatten ++ (b ++ ([kv] ++ post.flatten))).Perm
        (kv :: (pre.flatten ++ (b ++ post.flatten))) := by
      rw [← List.append_assoc, ← List.append_assoc pre.flatten b]
      exact List.perm_middle
    exact h1

theorem rehash_spec {K V} {c : Conf K} (hc : GoodHash c) (ns : List (K × V)) :
    ∀ {bs : List (List (K × V))}, 0 < bs.length → Placed c bs →
    (ns.foldl (pushNode c) bs).length = bs.length ∧ Placed c (ns.foldl (pushNode c) bs) ∧
      (ns.foldl (pushNode c) bs).flatten.Perm (ns ++ bs.flatten) := by
  induction ns with
  | nil => intro bs _ hp; exact ⟨rfl, hp, List.Perm.refl _⟩
  | cons n ns ih =>
    intro bs h hp
    obtain ⟨h1, h2, h3⟩ := pushNode_spec hc h hp n
    obtain ⟨h4, h5, h6⟩ := ih (bs := pushNode c bs n) (by omega) h2
    refine ⟨by simp only [List.foldl_cons]; omega, h5, h6.trans ?_⟩
    exact ((List.Perm.append_left ns h3).trans List.perm_middle)

theorem resize_spec {K V} {c : Conf K} (hc : GoodHash c) {bs : List (List (K × V))} (grow : Bool)
    (h : 1 < bs.length ∨ (grow = true ∧ 0 < bs.length)) :
    0 < (resize c bs grow).length ∧ Placed c (resize c bs grow) ∧
      (resize c bs grow).flatten.Perm bs.flatten := by
  unfold resize
  have hn : 0 < (if grow then bs.length * 2 else bs.length / 2) := by
    rcases h with h | ⟨h, h'⟩
    · split <;> omega
    · rw [if_pos h]; omega
  generalize (if grow then bs.length * 2 else bs.length / 2) = n at hn
  obtain ⟨h1, h2, h3⟩ := rehash_spec hc bs.flatten (bs := List.replicate n []) (by simpa using hn) (by
    intro i b hb kv hkv
    rw [List.getElem?_replicate] at hb
    split at hb
    · simp only [Option.some.injEq] at hb
      subst hb
      simp at hkv
    · simp at hb)
  refine ⟨?_, h2, ?_⟩
  · simp only []
    rw [h1]
    simpa using hn
  · have : (List.replicate n ([] : List (K × V))).flatten = [] := by simp
    rw [this, List.append_nil] at h3
    exact h3

theorem lookup_eq_some {K V} [DecidableEq K] {l : List (K × V)} (hn : (l.map (·.1)).Nodup) (k : K) (v : V) :
    l.lookup k = some v ↔ (k, v) ∈ l := by
  induction l with
  | nil => simp
  | cons a l ih =>
    obtain ⟨k', v'⟩ := a
    simp only [List.map_cons, List.nodup_cons] at hn
    rw [List.lookup_cons]
    by_cases hk : k = k'
    · subst hk
      simp only [beq_self_eq_true, Option.some.injEq, List.mem_cons, Prod.mk.injEq, true_and]
      constructor
      · intro h; exact .inl h.symm
      · rintro (h | h)
        · exact h.symm
        · exact absurd (List.mem_map_of_mem (f := (·.1)) h) hn.1
    · have hb : (k == k') = false := by simp [hk]
      rw [hb]
      simp only [ih hn.2, List.mem_cons, Prod.mk.injEq, hk, false_and, false_or]

theorem lookup_eq_none {K V} [DecidableEq K] {l : List (K × V)} (k : K) :
    l.lookup k = none ↔ ∀ v, (k, v) ∉ l := by
  induction l with
  | nil => simp
  | cons a l ih =>
    obtain ⟨k', v'⟩ := a
    rw [List.lookup_cons]
    by_cases hk : k = k'
    · subst hk
      simp only [beq_self_eq_true, reduceCtorEq, false_iff]
      intro h
      exact h v' (by simp)
    · have hb : (k == k') = false := by simp [hk]
      rw [hb]
      simp only [ih, List.mem_cons, Prod.mk.injEq, hk, false_and, false_or]

/-- The bucket a key hashes to holds the key's binding, if there is one. -/
theorem find_holds {K V} [DecidableEq K] {c : Conf K} (hc : GoodHash c) {m : Map K V}
    {l : List (K × V)} (h : Holds c m l) (k : K) :
    (findNode (m.buckets.getD (c.hash k m.buckets.length) []) k).map (·.2) = l.lookup k ∧
    ∀ kv, findNode (m.buckets.getD (c.hash k m.buckets.length) []) k = some kv → kv.1 = k := by
  obtain ⟨hpos, hp, hperm, hsz, hnd⟩ := h
  have hi := hc k _ hpos
  have hget : m.buckets.getD (c.hash k m.buckets.length) [] = m.buckets[c.hash k m.buckets.length] := by
    simp [List.getD, hi]
  rw [hget]
  have hmem : ∀ v, (k, v) ∈ l ↔ (k, v) ∈ m.buckets[c.hash k m.buckets.length] := by
    intro v
    rw [← hperm.mem_iff, List.mem_flatten]
    constructor
    · rintro ⟨b, hb, hkv⟩
      obtain ⟨j, hj, rfl⟩ := List.getElem_of_mem hb
      have := hp j _ (List.getElem?_eq_getElem hj) _ hkv
      simp only at this
      subst this
      exact hkv
    · intro hkv
      exact ⟨_, List.getElem_mem hi, hkv⟩
  have hfst : ∀ kv, findNode m.buckets[c.hash k m.buckets.length] k = some kv → kv.1 = k := by
    intro kv hf
    have := List.find?_some hf
    simpa using this
  refine ⟨?_, hfst⟩
  cases hf : findNode m.buckets[c.hash k m.buckets.length] k with
  | none =>
    symm
    rw [Option.map_none, lookup_eq_none]
    intro v hv
    rw [hmem] at hv
    unfold findNode at hf
    rw [List.find?_eq_none] at hf
    have := hf _ hv
    simp at this
  | some kv =>
    symm
    have h1 := hfst kv hf
    obtain ⟨k', v⟩ := kv
    simp only at h1
    subst h1
    rw [Option.map_some, lookup_eq_some hnd, hmem]
    exact List.mem_of_find?_eq_some hf

theorem get_holds {K V} [DecidableEq K] {c : Conf K} (hc : GoodHash c) {m : Map K V}
    {l : List (K × V)} (h : Holds c m l) (k : K) : get c m k = l.lookup k := by
  unfold get
  rw [getBucket_good hc _ _ h.1]
  exact (find_holds hc h k).1

theorem contains_holds {K V} [DecidableEq K] {c : Conf K} (hc : GoodHash c) {m : Map K V}
    {l : List (K × V)} (h : Holds c m l) (k : K) : contains c m k = (l.lookup k).isSome := by
  unfold contains
  rw [getBucket_good hc _ _ h.1, ← (find_holds hc h k).1]
  simp

theorem filter_keys {K V} [DecidableEq K] {l : List (K × V)} (k : K) (h : (l.map (·.1)).Nodup) :
    ((l.filter (fun kv => kv.1 ≠ k)).map (·.1)).Nodup := by
  have : ((l.filter (fun kv => kv.1 ≠ k)).map (·.1)).Sublist (l.map (·.1)) :=
    (List.filter_sublist).map _
  exact this.nodup h

theorem filter_of_not_mem {K V} [DecidableEq K] {l : List (K × V)} (k : K) (h : l.lookup k = none) :
    l.filter (fun kv => kv.1 ≠ k) = l := by
  rw [List.filter_eq_self]
  intro kv hkv
  rw [lookup_eq_none] at h
  simp only [ne_eq, decide_eq_true_eq]
  intro he
  exact h kv.2 (by rw [← he]; exact hkv)

theorem replace_perm {K V} [DecidableEq K] (k : K) (v : V) : ∀ (b : List (K × V)) (kv : K × V),
    findNode b k = some kv → (b.map (·.1)).Nodup →
    (replaceNode k v b).Perm ((k, v) :: b.filter (fun kv => kv.1 ≠ k)) := by
  intro b
  induction b with
  | nil => intro kv h; simp [findNode] at h
  | cons a b ih =>
    intro kv h hn
    simp only [List.map_cons, List.nodup_cons] at hn
    unfold replaceNode
    by_cases ha : a.1 = k
    · rw [if_pos ha]
      have h1 : (a :: b).filter (fun kv => kv.1 ≠ k) = b := by
        rw [List.filter_cons_of_neg (by simp [ha])]
        rw [List.filter_eq_self]
        intro x hx
        simp only [ne_eq, decide_eq_true_eq]
        intro he
        exact hn.1 (by rw [ha, ← he]; exact List.mem_map_of_mem hx)
      rw [h1]
    · rw [if_neg ha]
      unfold findNode at h
      rw [List.find?_cons_of_neg (by simpa using ha)] at h
      rw [List.filter_cons_of_pos (by simpa using ha)]
      exact ((ih kv h hn.2).cons a).trans (List.Perm.swap _ _ _)

theorem nodup_parts {K V} {pre post : List (List (K × V))} {b : List (K × V)}
    (h : (((pre ++ b :: post).flatten).map (·.1)).Nodup) :
    (b.map (·.1)).Nodup ∧ (∀ x ∈ pre.flatten, ∀ y ∈ b, x.1 ≠ y.1) ∧
      (∀ x ∈ post.flatten, ∀ y ∈ b, x.1 ≠ y.1) := by
  simp only [List.flatten_append, List.flatten_cons, List.map_append, List.nodup_append] at h
  refine ⟨h.2.1.1, ?_, ?_⟩
  · intro x hx y hy
    exact h.2.2 _ (List.mem_map_of_mem hx) _ (List.mem_append_left _ (List.mem_map_of_mem hy))
  · intro x hx y hy he
    exact h.2.1.2.2 _ (List.mem_map_of_mem hy) _ (List.mem_map_of_mem hx) he.symm

theorem filter_other {K V} [DecidableEq K] {xs b : List (K × V)} {k : K} {kv : K × V} (hk : kv ∈ b)
    (hkv : kv.1 = k) (h : ∀ x ∈ xs, ∀ y ∈ b, x.1 ≠ y.1) : xs.filter (fun kv => kv.1 ≠ k) = xs := by
  rw [List.filter_eq_self]
  intro x hx
  simp only [ne_eq, decide_eq_true_eq]
  intro he
  exact h x hx kv hk (by rw [he, hkv])

theorem set_holds {K V} [DecidableEq K] {c : Conf K} (hc : GoodHash c) {m : Map K V}
    {l : List (K × V)} (h : Holds c m l) (k : K) (v : V) :
    ∃ m', set c m k v = .ok m' ∧ Holds c m' ((k, v) :: l.filter (fun kv => kv.1 ≠ k)) := by
  have hfh := find_holds hc h k
  have hh := h
  obtain ⟨hpos, hp, hperm, hsz, hnd⟩ := h
  have hi := hc k _ hpos
  unfold set
  rw [getBucket_good hc _ _ hpos]
  have hnd' : (((k, v) :: l.filter (fun kv => kv.1 ≠ k)).map (·.1)).Nodup := by
    rw [List.map_cons, List.nodup_cons]
    refine ⟨?_, filter_keys k hnd⟩
    intro hm
    rw [List.mem_map] at hm
    obtain ⟨a, ha, hk⟩ := hm
    rw [List.mem_filter] at ha
    simp at ha
    exact ha.2 hk
  cases hf : findNode (m.buckets.getD (c.hash k m.buckets.length) []) k with
  | some kv =>
    have hkv := hfh.2 kv hf
    have hlk : l.lookup k = some kv.2 := by rw [← hfh.1, hf]; rfl
    refine ⟨{ m with buckets := m.buckets.modify (c.hash k m.buckets.length) (replaceNode k v) }, by simp only [hf], ?_, ?_, ?_, ?_, hnd'⟩
    · simpa using hpos
    · refine placed_modify hp _ _ ?_
      intro b hb x hx
      have hsub : ∀ (b : List (K × V)), x ∈ replaceNode k v b → x ∈ b ∨ x = (k, v) := by
        intro b
        induction b with
        | nil => intro h; simp [replaceNode] at h
        | cons a b ih =>
          intro h
          unfold replaceNode at h
          split at h
          · simp only [List.mem_cons] at h ⊢
            rcases h with h | h
            · exact .inr h
            · exact .inl (.inr h)
          · simp only [List.mem_cons] at h ⊢
            rcases h with h | h
            · exact .inl (.inl h)
            · rcases ih h with h | h
              · exact .inl (.inr h)
              · exact .inr h
      rcases hsub b hx with h1 | h1
      · exact .inl h1
      · subst h1; exact .inr rfl
    · have hget : m.buckets.getD (c.hash k m.buckets.length) [] = m.buckets[c.hash k m.buckets.length] := by
        simp [List.getD, hi]
      rw [hget] at hf
      obtain ⟨pre, post, hs, hl⟩ := split_at m.buckets _ hi
      generalize m.buckets[c.hash k m.buckets.length] = b at hs hf
      have hnf : ((m.buckets.flatten).map (·.1)).Nodup := ((hperm.map (·.1)).nodup_iff).mpr hnd
      rw [hs] at hnf
      obtain ⟨hb, hpre, hpost⟩ := nodup_parts hnf
      have hmem : kv ∈ b := List.mem_of_find?_eq_some hf
      have hfil := hperm.filter (fun kv => kv.1 ≠ k)
      rw [hs] at hfil
      simp only [List.flatten_append, List.flatten_cons, List.filter_append] at hfil
      rw [filter_other hmem hkv hpre, filter_other hmem hkv hpost] at hfil
      simp only
      rw [← hl, hs, modify_split]
      simp only [List.flatten_append, List.flatten_cons]
      have h1 := replace_perm k v b kv hf hb
      refine (List.Perm.append_left _ (List.Perm.append_right _ h1)).trans ?_
      rw [List.cons_append]
      exact List.perm_middle.trans (hfil.cons _)
    · simp only [List.length_cons]
      rw [hsz]
      have hmem : (k, kv.2) ∈ l := (lookup_eq_some hnd k kv.2).mp hlk
      obtain ⟨s, t, hst⟩ := List.append_of_mem hmem
      subst hst
      have hn := hnd
      rw [List.map_append, List.map_cons, List.nodup_append, List.nodup_cons] at hn
      have hs : s.filter (fun kv => kv.1 ≠ k) = s := by
        rw [List.filter_eq_self]
        intro x hx
        simp only [ne_eq, decide_eq_true_eq]
        intro he
        exact hn.2.2 _ (List.mem_map_of_mem hx) k (by simp) he
      have ht : t.filter (fun kv => kv.1 ≠ k) = t := by
        rw [List.filter_eq_self]
        intro x hx
        simp only [ne_eq, decide_eq_true_eq]
        intro he
        exact hn.2.1.1 (by rw [← he]; exact List.mem_map_of_mem (f := (·.1)) hx)
      rw [List.filter_append, List.filter_cons_of_neg (by simp), hs, ht]
      simp
      omega
  | none =>
    have hlk : l.lookup k = none := by rw [← hfh.1, hf]; rfl
    rw [filter_of_not_mem k hlk] at hnd' ⊢
    simp only
    have hbs : ∃ bs, (if c.full m.size m.buckets.length then resize c m.buckets true else m.buckets) = bs ∧
        0 < bs.length ∧ Placed c bs ∧ bs.flatten.Perm m.buckets.flatten := by
      split
      · exact ⟨_, rfl, resize_spec hc true (.inr ⟨rfl, hpos⟩)⟩
      · exact ⟨_, rfl, hpos, hp, List.Perm.refl _⟩
    obtain ⟨bs, he, hb1, hb2, hb3⟩ := hbs
    obtain ⟨h1, h2, h3⟩ := pushNode_spec hc hb1 hb2 (k, v)
    refine ⟨{ buckets := pushNode c bs (k, v), size := m.size + 1 }, by simp only [hf, he], ?_, h2, ?_, ?_, hnd'⟩
    · simp only; omega
    · exact h3.trans ((hb3.trans hperm).cons _)
    · simp [hsz]

theorem erase_filter {K V} [DecidableEq K] (k : K) : ∀ (b : List (K × V)), (b.map (·.1)).Nodup →
    b.eraseP (fun kv => kv.1 = k) = b.filter (fun kv => kv.1 ≠ k) := by
  intro b
  induction b with
  | nil => intro _; rfl
  | cons a b ih =>
    intro hn
    simp only [List.map_cons, List.nodup_cons] at hn
    by_cases ha : a.1 = k
    · rw [List.eraseP_cons_of_pos (by simpa using ha), List.filter_cons_of_neg (by simp [ha])]
      symm
      rw [List.filter_eq_self]
      intro x hx
      simp only [ne_eq, decide_eq_true_eq]
      intro he
      exact hn.1 (by rw [ha, ← he]; exact List.mem_map_of_mem hx)
    · rw [List.eraseP_cons_of_neg (by simpa using ha), List.filter_cons_of_pos (by simpa using ha), ih hn.2]

theorem remove_holds {K V} [DecidableEq K] {c : Conf K} (hc : GoodHash c) {m : Map K V}
    {l : List (K × V)} (h : Holds c m l) (k : K) :
    ∃ m', remove c m k = .ok (m', (l.lookup k).isSome) ∧ Holds c m' (l.filter (fun kv => kv.1 ≠ k)) := by
  have hfh := find_holds hc h k
  have hh := h
  obtain ⟨hpos, hp, hperm, hsz, hnd⟩ := h
  have hi := hc k _ hpos
  unfold remove
  rw [getBucket_good hc _ _ hpos]
  simp only
  have hany : (m.buckets.getD (c.hash k m.buckets.length) []).any (fun kv => kv.1 = k)
      = (l.lookup k).isSome := by
    rw [← hfh.1, Option.isSome_map]
    unfold findNode
    rw [Bool.eq_iff_iff, List.find?_isSome, List.any_eq_true]
  rw [hany]
  cases hlk : l.lookup k with
  | none =>
    refine ⟨m, by simp, ?_⟩
    rw [filter_of_not_mem k hlk]
    exact hh
  | some v0 =>
    rw [if_pos (by simp)]
    have hmeml : (k, v0) ∈ l := (lookup_eq_some hnd k v0).mp hlk
    have hnf : ((m.buckets.flatten).map (·.1)).Nodup := ((hperm.map (·.1)).nodup_iff).mpr hnd
    have hflat : (m.buckets.modify (c.hash k m.buckets.length)
        (List.eraseP (fun kv => kv.1 = k))).flatten.Perm (l.filter (fun kv => kv.1 ≠ k)) := by
      have hget : m.buckets.getD (c.hash k m.buckets.length) [] = m.buckets[c.hash k m.buckets.length] := by
        simp [List.getD, hi]
      rw [hget] at hfh
      obtain ⟨pre, post, hs, hl⟩ := split_at m.buckets _ hi
      generalize m.buckets[c.hash k m.buckets.length] = b at hs hfh
      rw [hlk] at hfh
      cases hf : findNode b k with
      | none => rw [hf] at hfh; simp at hfh
      | some kv =>
        have hkv := hfh.2 kv hf
        have hmem : kv ∈ b := List.mem_of_find?_eq_some hf
        rw [hs] at hnf
        obtain ⟨hb, hpre, hpost⟩ := nodup_parts hnf
        have hfil := hperm.filter (fun kv => kv.1 ≠ k)
        rw [hs] at hfil
        simp only [List.flatten_append, List.flatten_cons, List.filter_append] at hfil
        rw [filter_other hmem hkv hpre, filter_other hmem hkv hpost] at hfil
        rw [← hl, hs, modify_split]
        simp only [List.flatten_append, List.flatten_cons, erase_filter k b hb]
        exact hfil
    have hplaced : Placed c (m.buckets.modify (c.hash k m.buckets.length)
        (List.eraseP (fun kv => kv.1 = k))) := by
      refine placed_modify hp _ _ ?_
      intro b _ x hx
      exact .inl (List.mem_of_mem_eraseP hx)
    have hlen : (m.buckets.modify (c.hash k m.buckets.length)
        (List.eraseP (fun kv => kv.1 = k))).length = m.buckets.length := by simp
    generalize (m.buckets.modify (c.hash k m.buckets.length)
        (List.eraseP (fun kv => kv.1 = k))) = bs0 at hflat hplaced hlen
    have hsize : m.size - 1 = (l.filter (fun kv => kv.1 ≠ k)).length := by
      rw [hsz]
      rw [← erase_filter k l hnd, List.length_eraseP_of_mem hmeml (by simp)]
    have hbs : ∃ bs, (if bs0.length > initSize && c.sparse (m.size - 1) bs0.length then resize c bs0 false else bs0) = bs ∧
        0 < bs.length ∧ Placed c bs ∧ bs.flatten.Perm bs0.flatten := by
      split
      · rename_i hcond
        simp only [Bool.and_eq_true, decide_eq_true_eq, gt_iff_lt, initSize] at hcond
        exact ⟨_, rfl, resize_spec hc false (.inl (by omega))⟩
      · exact ⟨_, rfl, by omega, hplaced, List.Perm.refl _⟩
    obtain ⟨bs, he, hb1, hb2, hb3⟩ := hbs
    simp only [he]
    exact ⟨_, rfl, hb1, hb2, hb3.trans hflat, hsize, filter_keys k hnd⟩

theorem step_holds {K V} [DecidableEq K] {c : Conf K} (hc : GoodHash c) {m : Map K V}
    {l : List (K × V)} (h : Holds c m l) (op : Op K V) :
    ∃ m', step c m op = .ok (m', (specStep l op).2) ∧ Holds c m' (specStep l op).1 := by
  cases op with
  | set k v =>
    obtain ⟨m', h1, h2⟩ := set_holds hc h k v
    exact ⟨m', by simp [step, h1, specStep], h2⟩
  | get k => exact ⟨m, by simp [step, get_holds hc h, specStep], h⟩
  | contains k => exact ⟨m, by simp [step, contains_holds hc h, specStep], h⟩
  | remove k =>
    obtain ⟨m', h1, h2⟩ := remove_holds hc h k
    exact ⟨m', by simp [step, h1, specStep], h2⟩
  | size => exact ⟨m, by simp [step, h.2.2.2.1, specStep], h⟩

theorem run_holds {K V} [DecidableEq K] {c : Conf K} (hc : GoodHash c) (ops : List (Op K V)) :
    ∀ {m : Map K V} {l : List (K × V)}, Holds c m l →
    ∃ m', run c m ops = .ok (m', (specRun l ops).2) ∧ Holds c m' (specRun l ops).1 := by
  induction ops with
  | nil => intro m l h; exact ⟨m, rfl, h⟩
  | cons op ops ih =>
    intro m l h
    obtain ⟨m1, h1, h2⟩ := step_holds hc h op
    obtain ⟨m2, h3, h4⟩ := ih h2
    exact ⟨m2, by simp [run, h1, h3, specRun], h4⟩

theorem create_holds {K V} (c : Conf K) : Holds c (create : Map K V) [] := by
  refine ⟨by simp [create, initSize], ?_, by simp [create], rfl, by simp⟩
  intro i b hb kv hkv
  simp only [create, List.getElem?_replicate] at hb
  split at hb
  · simp only [Option.some.injEq] at hb
    subst hb
    simp at hkv
  · simp at hb

end Verif.HashMap
