import Verif.Spec.Json
import Verif.Props.Base64

/-!
# Lemmas about the fields of a message
-/

namespace Verif.Json

open Verif

theorem lower_iff (x y : UInt8) : lower x = lower y ↔ SameLetter x y := by
  have hx := x.toNat_lt
  have hy := y.toNat_lt
  unfold lower SameLetter
  simp only [UInt8.le_iff_toNat_le, ← UInt8.toNat_inj]
  have h65 : (65 : UInt8).toNat = 65 := rfl
  have h90 : (90 : UInt8).toNat = 90 := rfl
  have h32 : (32 : UInt8).toNat = 32 := rfl
  simp only [h65, h90]
  split <;> split <;> (try simp only [UInt8.toNat_add, h32]) <;> omega

theorem same_iff (a b : Bytes) : same a b = true ↔ SameName a b := by
  unfold same
  rw [decide_eq_true_iff]
  induction a generalizing b with
  | nil => cases b <;> simp [SameName]
  | cons x a ih =>
    cases b with
    | nil => simp [SameName]
    | cons y b => simp [SameName, lower_iff, ih]

theorem same_trans {a b c : Bytes} (h : same a b = true) : same a c = same b c := by
  simp only [same, decide_eq_true_iff] at h ⊢
  rw [h]

theorem find_append (m x : Item) (k n : Bytes) :
    find (append m (some k) x) n = (find m n).or (if same n k then some x else none) := by
  obtain ⟨a, b, c, l⟩ := m
  simp only [find, append, Item.kids, List.find?_append, Option.map_or]
  congr 1
  simp only [List.find?_cons, List.find?_nil, Option.any_some]
  cases same n k <;> rfl

theorem find_same {m : Item} {n n' : Bytes} (h : SameName n n') : find m n' = find m n := by
  have h := (same_iff n n').mpr h
  have : (fun k : Option Bytes × Item => k.1.any (same n')) = (fun k => k.1.any (same n)) := by
    funext k
    cases k.1 with
    | none => rfl
    | some k => exact (same_trans h).symm
  unfold find
  rw [this]

theorem find_appendTo (a : Kind) (b : Option Bytes) (c : BitVec 64) (l : List (Option Bytes × Item)) (k n : Bytes) (x : Item) :
    find (.mk a b c (appendTo k x l)) n =
      if same n k then (find (.mk a b c l) n).map (fun y => append y none x) else find (.mk a b c l) n := by
  unfold find
  simp only [Item.kids]
  induction l with
  | nil => simp [appendTo]
  | cons y l ih =>
    obtain ⟨ky, y⟩ := y
    by_cases hk : same n k = true
    · have hf : ky.any (same n) = ky.any (same k) := by
        cases ky with
        | none => rfl
        | some j => exact same_trans hk
      simp only [hk, if_true] at ih ⊢
      simp only [appendTo, hf]
      cases he : ky.any (same k)
      · simp only [Bool.false_eq_true, if_false, List.find?_cons, hf, he]
        exact ih
      · simp only [if_true, List.find?_cons, hf, he, Option.map_some]
    · simp only [hk, if_false] at ih ⊢
      simp only [appendTo]
      cases he : ky.any (same k)
      · simp only [Bool.false_eq_true, if_false, List.find?_cons]
        cases ky.any (same n)
        · exact ih
        · rfl
      · have hf : ky.any (same n) = false := by
          cases ky with
          | none => rfl
          | some j =>
            simp only [Option.any_some] at he ⊢
            rw [Bool.eq_false_iff]
            intro hj
            apply hk
            rw [same_trans hj]
            simp only [same, decide_eq_true_iff] at he ⊢
            exact he.symm
        simp only [if_true, List.find?_cons, hf, Bool.false_eq_true, if_false]

/-- Adding to a field. -/
theorem find_addTo (m : Item) (k n : Bytes) (x : Option Item) :
    find (addTo m k x) n = if same n k then
      some (match x with
        | some x => append ((find m n).getD newArray) none x
        | none => (find m n).getD newArray)
      else find m n := by
  by_cases hk : same n k = true
  · have hfk : find m k = find m n := find_same ((same_iff n k).mp hk)
    simp only [hk, if_true, addTo]
    cases hf : find m n with
    | some y =>
      rw [hf] at hfk
      cases x with
      | none => simp only [hfk, hf, Option.getD_some]
      | some x =>
        obtain ⟨a, b, c, l⟩ := m
        simp only [hfk, Item.kind, Item.text, Item.number, Item.kids, find_appendTo, hk, if_true, hf, Option.map_some, Option.getD_some]
    | none =>
      rw [hf] at hfk
      have hnew : find (append m (some k) newArray) n = some newArray := by
        rw [find_append, hf, hk]; rfl
      cases x with
      | none => simp only [hfk, hnew, Option.getD_none]
      | some x =>
        simp only [hfk, find_appendTo, hk, if_true, Option.getD_none]
        rw [show Item.mk (append m (some k) newArray).kind (append m (some k) newArray).text (append m (some k) newArray).number
          (append m (some k) newArray).kids = append m (some k) newArray from rfl, hnew]
        rfl
  · simp only [hk, if_false, addTo]
    cases hf : find m k with
    | some y =>
      cases x with
      | none => rfl
      | some x =>
        obtain ⟨a, b, c, l⟩ := m
        simp only [Item.kind, Item.text, Item.number, Item.kids, find_appendTo, hk, if_false]
        rfl
    | none =>
      have hnew : find (append m (some k) newArray) n = find m n := by
        rw [find_append, if_neg hk, Option.or_none]
      cases x with
      | none => exact hnew
      | some x =>
        simp only [find_appendTo, hk, if_false]
        exact hnew

theorem concerns_false {n k : Bytes} {op : Op} (h : ¬ Concerns n op) (hk : named op = some k) : ¬ same n k = true :=
  fun hs => h ⟨k, hk, (same_iff n k).mp hs⟩

theorem encode_short {bs : Bytes} : (bs.length ≤ 1026 → ∃ t s, Base64.encode bs = .ok (t, s)) ∧
    (1026 < bs.length → Base64.encode bs = .fail) := by
  obtain ⟨h1, h2⟩ := Props.C45_encode_is_standard bs
  exact ⟨fun h => let ⟨s, h, _⟩ := h1 h; ⟨_, s, h⟩, h2⟩

/-- A call that does not concern a field leaves it. -/
theorem step_other (c : Conv) {m m' : Item} {op : Op} {code : Nat} {n : Bytes} (hn : ¬ Concerns n op)
    (h : step c m op = .ok (m', code)) : find m' n = find m n := by
  have happ : ∀ k x, named op = some k → find (append m (some k) x) n = find m n := by
    intro k x hk
    rw [find_append, if_neg (concerns_false hn hk), Option.or_none]
  have hadd : ∀ k x, named op = some k → find (addTo m k x) n = find m n := by
    intro k x hk
    rw [find_addTo, if_neg (concerns_false hn hk)]
  cases op with
  | setString k v =>
    cases v <;> (simp only [step, Res.ok.injEq, Prod.mk.injEq] at h; rw [← h.1])
    exact happ k _ rfl
  | setInt32 k v => simp only [step, Res.ok.injEq, Prod.mk.injEq] at h; rw [← h.1]; exact happ k _ rfl
  | setBool k v => simp only [step, Res.ok.injEq, Prod.mk.injEq] at h; rw [← h.1]; exact happ k _ rfl
  | setDouble k v => simp only [step, Res.ok.injEq, Prod.mk.injEq] at h; rw [← h.1]; exact happ k _ rfl
  | setMessage k v =>
    cases v <;> (simp only [step, Res.ok.injEq, Prod.mk.injEq] at h; rw [← h.1])
    exact happ k _ rfl
  | addString k v => simp only [step, Res.ok.injEq, Prod.mk.injEq] at h; rw [← h.1]; exact hadd k _ rfl
  | addMessage k v =>
    cases v <;> (simp only [step, Res.ok.injEq, Prod.mk.injEq] at h; rw [← h.1])
    exact hadd k _ rfl
  | addBinary k bs =>
    by_cases hl : bs.length ≤ 1026
    · obtain ⟨t, s, he⟩ := encode_short.1 hl
      simp only [step, he, Res.ok.injEq, Prod.mk.injEq] at h
      rw [← h.1]
      exact happ k _ (by simp [named, hl])
    · simp only [step, encode_short.2 (show 1026 < bs.length by omega), Res.ok.injEq, Prod.mk.injEq] at h
      rw [← h.1]
  | setTopic t =>
    cases hf : find m topicName with
    | some y => simp [step, hf] at h
    | none =>
      simp only [step, hf, Res.ok.injEq, Prod.mk.injEq] at h
      rw [← h.1]
      exact happ topicName _ rfl

/-- The part of an item that adding to it leaves. -/
def scalar (x : Item) : Kind × Option Bytes × BitVec 64 := (x.kind, x.text, x.number)

/-- A field that exists keeps its type and value. -/
theorem step_keeps (c : Conv) {m m' : Item} {op : Op} {code : Nat} {n : Bytes} {x : Item} (hx : find m n = some x)
    (h : step c m op = .ok (m', code)) :
    ∃ y, find m' n = some y ∧ scalar y = scalar x ∧ (¬ (Adds op ∧ Concerns n op) → y = x) := by
  by_cases hn : Concerns n op
  · have happ : ∀ k x', find (append m (some k) x') n = some x := by
      intro k x'
      rw [find_append, hx]
      rfl
    have hadd : ∀ k x', (addTo m k x') = m' → Adds op → ∃ y, find m' n = some y ∧ scalar y = scalar x ∧ (¬ (Adds op ∧ Concerns n op) → y = x) := by
      intro k x' hm ha
      rw [← hm, find_addTo, hx]
      split
      · cases x'
        · exact ⟨_, rfl, rfl, fun _ => rfl⟩
        · exact ⟨_, rfl, rfl, fun h' => absurd ⟨ha, hn⟩ h'⟩
      · exact ⟨_, rfl, rfl, fun _ => rfl⟩
    cases op with
    | setString k v =>
      cases v <;> (simp only [step, Res.ok.injEq, Prod.mk.injEq] at h; rw [← h.1])
      · exact ⟨x, hx, rfl, fun _ => rfl⟩
      · exact ⟨x, happ _ _, rfl, fun _ => rfl⟩
    | setInt32 k v => simp only [step, Res.ok.injEq, Prod.mk.injEq] at h; rw [← h.1]; exact ⟨x, happ _ _, rfl, fun _ => rfl⟩
    | setBool k v => simp only [step, Res.ok.injEq, Prod.mk.injEq] at h; rw [← h.1]; exact ⟨x, happ _ _, rfl, fun _ => rfl⟩
    | setDouble k v => simp only [step, Res.ok.injEq, Prod.mk.injEq] at h; rw [← h.1]; exact ⟨x, happ _ _, rfl, fun _ => rfl⟩
    | setMessage k v =>
      cases v <;> (simp only [step, Res.ok.injEq, Prod.mk.injEq] at h; rw [← h.1])
      · exact ⟨x, hx, rfl, fun _ => rfl⟩
      · exact ⟨x, happ _ _, rfl, fun _ => rfl⟩
    | addString k v => simp only [step, Res.ok.injEq, Prod.mk.injEq] at h; exact hadd _ _ h.1 trivial
    | addMessage k v =>
      cases v with
      | none => simp only [step, Res.ok.injEq, Prod.mk.injEq] at h; rw [← h.1]; exact ⟨x, hx, rfl, fun _ => rfl⟩
      | some v => simp only [step, Res.ok.injEq, Prod.mk.injEq] at h; exact hadd _ _ h.1 trivial
    | addBinary k bs =>
      by_cases hl : bs.length ≤ 1026
      · obtain ⟨t, s, he⟩ := encode_short.1 hl
        simp only [step, he, Res.ok.injEq, Prod.mk.injEq] at h
        rw [← h.1]
        exact ⟨x, happ _ _, rfl, fun _ => rfl⟩
      · simp only [step, encode_short.2 (show 1026 < bs.length by omega), Res.ok.injEq, Prod.mk.injEq] at h
        rw [← h.1]
        exact ⟨x, hx, rfl, fun _ => rfl⟩
    | setTopic t =>
      cases hf : find m topicName with
      | some y => simp [step, hf] at h
      | none =>
        simp only [step, hf, Res.ok.injEq, Prod.mk.injEq] at h
        rw [← h.1]
        exact ⟨x, happ _ _, rfl, fun _ => rfl⟩
  · exact ⟨x, by rw [step_other c hn h, hx], rfl, fun _ => rfl⟩

theorem run_cons {c : Conv} {m m' : Item} {op : Op} {ops : List Op} (h : run c m (op :: ops) = .ok m') :
    ∃ m1 code, step c m op = .ok (m1, code) ∧ run c m1 ops = .ok m' := by
  rw [run] at h
  cases hs : step c m op with
  | ok p =>
    rw [hs, Res.ok_bind] at h
    exact ⟨p.1, p.2, rfl, h⟩
  | fail => rw [hs] at h; cases h
  | ub => rw [hs] at h; cases h

theorem run_append {c : Conv} {m m' : Item} {a b : List Op} (h : run c m (a ++ b) = .ok m') :
    ∃ m1, run c m a = .ok m1 ∧ run c m1 b = .ok m' := by
  induction a generalizing m with
  | nil => exact ⟨m, rfl, h⟩
  | cons op a ih =>
    obtain ⟨m1, code, h1, h2⟩ := run_cons h
    obtain ⟨m2, h3, h4⟩ := ih h2
    exact ⟨m2, by rw [run, h1, Res.ok_bind]; exact h3, h4⟩

theorem run_other {c : Conv} {m m' : Item} {ops : List Op} {n : Bytes} (hn : ∀ op ∈ ops, ¬ Concerns n op)
    (h : run c m ops = .ok m') : find m' n = find m n := by
  induction ops generalizing m with
  | nil => cases h; rfl
  | cons op ops ih =>
    obtain ⟨m1, code, h1, h2⟩ := run_cons h
    rw [ih (fun o ho => hn o (List.mem_cons_of_mem _ ho)) h2, step_other c (hn op (List.mem_cons_self ..)) h1]

theorem run_keeps {c : Conv} {m m' : Item} {ops : List Op} {n : Bytes} {x : Item} (hx : find m n = some x)
    (h : run c m ops = .ok m') :
    ∃ y, find m' n = some y ∧ scalar y = scalar x ∧ ((∀ op ∈ ops, ¬ (Adds op ∧ Concerns n op)) → y = x) := by
  induction ops generalizing m x with
  | nil => cases h; exact ⟨x, hx, rfl, fun _ => rfl⟩
  | cons op ops ih =>
    obtain ⟨m1, code, h1, h2⟩ := run_cons h
    obtain ⟨y, k1, k2, k3⟩ := step_keeps c hx h1
    obtain ⟨z, j1, j2, j3⟩ := ih k1 h2
    refine ⟨z, j1, j2.trans k2, fun hall => ?_⟩
    rw [j3 (fun o ho => hall o (List.mem_cons_of_mem _ ho)), k3 (hall op (List.mem_cons_self ..))]

theorem find_create (n : Bytes) : find create n = none := rfl

/-- The field made by the first call that concerns it. -/
theorem run_first {c : Conv} {m : Item} {before after : List Op} {op : Op} {n k : Bytes} {x : Item}
    (hb : ∀ o ∈ before, ¬ Concerns n o) (hs : SameName n k)
    (hop : ∀ m code m', step c m op = .ok (m', code) → m' = append m (some k) x)
    (h : run c create (before ++ op :: after) = .ok m) :
    ∃ y, find m n = some y ∧ scalar y = scalar x ∧ ((∀ o ∈ after, ¬ (Adds o ∧ Concerns n o)) → y = x) := by
  obtain ⟨m1, h1, h2⟩ := run_append h
  obtain ⟨m2, code, h3, h4⟩ := run_cons h2
  have hx : find m2 n = some x := by
    rw [hop _ _ _ h3, find_append, run_other hb h1, find_create, (same_iff n k).mpr hs]
    rfl
  exact run_keeps hx h4

/-- The items in a field. -/
def kidsAt (m : Item) (n : Bytes) : List (Option Bytes × Item) := ((find m n).map Item.kids).getD []

/-- An addition as an item. -/
def asItem : Bytes ⊕ Item → Item
  | .inl s => ofText s
  | .inr x => x

theorem kidsAt_addTo (m : Item) (k n : Bytes) (x : Option Item) (h : same n k = true) :
    kidsAt (addTo m k x) n = kidsAt m n ++ x.toList.map (fun x => (none, x)) := by
  unfold kidsAt
  rw [find_addTo, if_pos h]
  cases find m n with
  | none => cases x <;> simp [newArray, append, Item.kids]
  | some y => cases x <;> simp [append, Item.kids]

theorem added_cons (n : Bytes) (op : Op) (ops : List Op) :
    (Concerns n op → added n (op :: ops) = (addition op).toList ++ added n ops) ∧
    (¬ Concerns n op → added n (op :: ops) = added n ops) := by
  unfold added
  constructor
  · intro h
    rw [List.filter_cons_of_pos (by simpa using h)]
    cases ha : addition op <;> simp [ha]
  · intro h
    rw [List.filter_cons_of_neg (by simpa using h)]

theorem run_adds {c : Conv} {m m' : Item} {ops : List Op} {n : Bytes} (ha : ∀ op ∈ ops, Concerns n op → Adds op)
    (h : run c m ops = .ok m') : kidsAt m' n = kidsAt m n ++ (added n ops).map (fun a => (none, asItem a)) := by
  induction ops generalizing m with
  | nil => cases h; simp [added]
  | cons op ops ih =>
    obtain ⟨m1, code, h1, h2⟩ := run_cons h
    rw [ih (fun o ho => ha o (List.mem_cons_of_mem _ ho)) h2]
    by_cases hn : Concerns n op
    · rw [(added_cons n op ops).1 hn, List.map_append, ← List.append_assoc]
      congr 1
      obtain ⟨k, hk, hs⟩ := hn
      have hs := (same_iff n k).mpr hs
      have hA := ha op (List.mem_cons_self ..) ⟨k, hk, (same_iff n k).mp hs⟩
      cases op with
      | addString j v =>
        simp only [named, Option.some.injEq] at hk
        subst hk
        simp only [step, Res.ok.injEq, Prod.mk.injEq] at h1
        rw [← h1.1, kidsAt_addTo m _ n _ hs]
        cases v <;> rfl
      | addMessage j v =>
        cases v with
        | none => simp [named] at hk
        | some v =>
          simp only [named, Option.isSome_some, if_true, Option.some.injEq] at hk
          subst hk
          simp only [step, Res.ok.injEq, Prod.mk.injEq] at h1
          rw [← h1.1, kidsAt_addTo m _ n _ hs]
          rfl
      | setString _ _ => exact absurd hA (by simp [Adds])
      | setInt32 _ _ => exact absurd hA (by simp [Adds])
      | setBool _ _ => exact absurd hA (by simp [Adds])
      | setDouble _ _ => exact absurd hA (by simp [Adds])
      | setMessage _ _ => exact absurd hA (by simp [Adds])
      | addBinary _ _ => exact absurd hA (by simp [Adds])
      | setTopic _ => exact absurd hA (by simp [Adds])
    · rw [(added_cons n op ops).2 hn]
      unfold kidsAt
      rw [step_other c hn h1]

/-- Nothing goes wrong if the topic is set once. -/
theorem run_ok (c : Conv) (ops : List Op) : ∀ m, (∀ before t after, ops = before ++ .setTopic t :: after →
    find m topicName = none ∧ ∀ op ∈ before, ¬ Concerns topicName op) → ∃ m', run c m ops = .ok m' := by
  induction ops with
  | nil => exact fun m _ => ⟨m, rfl⟩
  | cons op ops ih =>
    intro m h
    have hs : ∃ m1 code, step c m op = .ok (m1, code) := by
      cases op with
      | setString k v => cases v <;> exact ⟨_, _, rfl⟩
      | setInt32 k v => exact ⟨_, _, rfl⟩
      | setBool k v => exact ⟨_, _, rfl⟩
      | setDouble k v => exact ⟨_, _, rfl⟩
      | setMessage k v => cases v <;> exact ⟨_, _, rfl⟩
      | addString k v => exact ⟨_, _, rfl⟩
      | addMessage k v => cases v <;> exact ⟨_, _, rfl⟩
      | addBinary k bs =>
        by_cases hl : bs.length ≤ 1026
        · obtain ⟨t, s, he⟩ := encode_short.1 hl
          simp only [step, he]
          exact ⟨_, _, rfl⟩
        · simp only [step, encode_short.2 (show 1026 < bs.length by omega)]
          exact ⟨_, _, rfl⟩
      | setTopic t =>
        simp only [step, (h [] t ops rfl).1]
        exact ⟨_, _, rfl⟩
    obtain ⟨m1, code, h1⟩ := hs
    obtain ⟨m', h2⟩ := ih m1 (by
      intro before t after he
      have := h (op :: before) t after (by rw [he]; rfl)
      exact ⟨by rw [step_other c (this.2 op (List.mem_cons_self ..)) h1]; exact this.1,
        fun o ho => this.2 o (List.mem_cons_of_mem _ ho)⟩)
    exact ⟨m', by rw [run, h1, Res.ok_bind]; exact h2⟩

end Verif.Json
