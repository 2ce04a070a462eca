import Verif.Spec.Cells

/-!
# Values and the memory they use: lemmas
-/

namespace Verif.Cells

open Verif Verif.Spec.Cells

theorem upd_same {α : Type} (f : Nat → α) (x : Nat) (a : α) : upd f x a x = a := by simp [upd]

theorem upd_other {α : Type} (f : Nat → α) {x y : Nat} (a : α) (h : y ≠ x) : upd f x a y = f y := by simp [upd, h]

/-! ## Buffers -/

/-- The place and the bytes of a buffer. -/
def Heap.view (h : Heap) (a : Nat) : Option (Loc × Bytes) :=
  match h.buf a with
  | none => none
  | some b =>
    match b.ext with
    | none => some (.inner a, b.block1)
    | some k =>
      match h.ext k with
      | none => none
      | some bs => some (.outer k, bs)

/-- Blocks belong to buffers. -/
structure HeapInv (h : Heap) : Prop where
  bufs : ∀ a b, h.buf a = some b → a < h.nextBuf
  exts : ∀ k bs, h.ext k = some bs → k < h.nextExt
  owned : ∀ k bs, h.ext k = some bs → ∃ a b, h.buf a = some b ∧ b.ext = some k
  valid : ∀ a b k, h.buf a = some b → b.ext = some k → ∃ bs, h.ext k = some bs
  uniq : ∀ a a' b b' k, h.buf a = some b → h.buf a' = some b' → b.ext = some k → b'.ext = some k → a = a'

theorem view_buf {h : Heap} (i : HeapInv h) {a : Nat} : h.view a = none ↔ h.buf a = none := by
  unfold Heap.view
  cases hb : h.buf a with
  | none => simp
  | some b =>
    simp only
    cases he : b.ext with
    | none => simp
    | some k =>
      obtain ⟨bs, hk⟩ := i.valid a b k hb he
      simp [hk]

theorem view_read {h : Heap} {a : Nat} {l : Loc} {bs : Bytes} (hv : h.view a = some (l, bs)) :
    h.data a = .ok l ∧ h.read l = .ok bs := by
  unfold Heap.view at hv
  unfold Heap.data
  cases hb : h.buf a with
  | none => rw [hb] at hv; cases hv
  | some b =>
    rw [hb] at hv
    simp only at hv ⊢
    cases he : b.ext with
    | none =>
      rw [he] at hv
      cases hv
      simp [Heap.read, hb]
    | some k =>
      rw [he] at hv
      simp only at hv ⊢
      cases hk : h.ext k with
      | none => rw [hk] at hv; cases hv
      | some b' =>
        rw [hk] at hv
        cases hv
        simp [Heap.read, hk]

theorem create_inv {h : Heap} (i : HeapInv h) : HeapInv h.create ∧ h.view h.nextBuf = none ∧
    h.create.view h.nextBuf = some (.inner h.nextBuf, []) ∧ ∀ a, a ≠ h.nextBuf → h.create.view a = h.view a := by
  have hn : h.buf h.nextBuf = none := by
    cases hb : h.buf h.nextBuf with
    | none => rfl
    | some b => exact absurd (i.bufs _ _ hb) (by omega)
  refine ⟨⟨?_, ?_, ?_, ?_, ?_⟩, (view_buf i).mpr hn, ?_, ?_⟩
  · intro a b hb
    simp only [Heap.create, upd] at hb ⊢
    split at hb
    · omega
    · have := i.bufs a b hb; omega
  · exact i.exts
  · intro k bs hk
    obtain ⟨a, b, hb, he⟩ := i.owned k bs hk
    refine ⟨a, b, ?_, he⟩
    have := i.bufs a b hb
    simp only [Heap.create, upd, if_neg (show ¬ a = h.nextBuf by omega), hb]
  · intro a b k hb he
    simp only [Heap.create, upd] at hb
    split at hb
    · cases hb; cases he
    · exact i.valid a b k hb he
  · intro a a' b b' k hb hb' he he'
    simp only [Heap.create, upd] at hb hb'
    split at hb
    · cases hb; cases he
    · split at hb'
      · cases hb'; cases he'
      · exact i.uniq a a' b b' k hb hb' he he'
  · simp [Heap.view, Heap.create, upd]
  · intro a ha
    simp [Heap.view, Heap.create, upd, ha]

theorem destroy_inv {h : Heap} (i : HeapInv h) {a : Nat} (ha : h.view a ≠ none) :
    ∃ h', h.destroy a = .ok h' ∧ HeapInv h' ∧ h'.view a = none ∧ ∀ a', a' ≠ a → h'.view a' = h.view a' := by
  cases hb : h.buf a with
  | none => exact absurd ((view_buf i).mpr hb) ha
  | some b =>
    cases he : b.ext with
    | none =>
      refine ⟨{ h with buf := upd h.buf a none }, by simp [Heap.destroy, hb, he, Heap.freeData], ⟨?_, i.exts, ?_, ?_, ?_⟩, ?_, ?_⟩
      · intro x y hx
        simp only [upd] at hx
        split at hx
        · cases hx
        · exact i.bufs x y hx
      · intro k bs hk
        obtain ⟨x, y, hx, hy⟩ := i.owned k bs hk
        refine ⟨x, y, ?_, hy⟩
        have : x ≠ a := fun e => by subst e; rw [hb] at hx; cases hx; rw [he] at hy; cases hy
        simp only [upd, if_neg this, hx]
      · intro x y k hx hy
        simp only [upd] at hx
        split at hx
        · cases hx
        · exact i.valid x y k hx hy
      · intro x x' y y' k hx hx' hy hy'
        simp only [upd] at hx hx'
        split at hx
        · cases hx
        · split at hx'
          · cases hx'
          · exact i.uniq x x' y y' k hx hx' hy hy'
      · simp [Heap.view, upd]
      · intro x hx
        simp [Heap.view, upd, hx]
    | some k =>
      obtain ⟨bs, hk⟩ := i.valid a b k hb he
      refine ⟨{ h with buf := upd h.buf a none, ext := upd h.ext k none },
        by simp [Heap.destroy, hb, he, Heap.freeData, Heap.freeExt, hk], ⟨?_, ?_, ?_, ?_, ?_⟩, ?_, ?_⟩
      · intro x y hx
        simp only [upd] at hx
        split at hx
        · cases hx
        · exact i.bufs x y hx
      · intro j cs hj
        simp only [upd] at hj
        split at hj
        · cases hj
        · exact i.exts j cs hj
      · intro j cs hj
        simp only [upd] at hj
        split at hj
        · cases hj
        · rename_i hjk
          obtain ⟨x, y, hx, hy⟩ := i.owned j cs hj
          refine ⟨x, y, ?_, hy⟩
          have : x ≠ a := fun e => by subst e; rw [hb] at hx; cases hx; rw [he] at hy; cases hy; exact hjk rfl
          simp only [upd, if_neg this, hx]
      · intro x y j hx hy
        simp only [upd] at hx
        split at hx
        · cases hx
        · rename_i hxa
          obtain ⟨cs, hc⟩ := i.valid x y j hx hy
          have : j ≠ k := fun e => by subst e; exact hxa (i.uniq x a y b j hx hb hy he)
          exact ⟨cs, by simp only [upd, if_neg this, hc]⟩
      · intro x x' y y' j hx hx' hy hy'
        simp only [upd] at hx hx'
        split at hx
        · cases hx
        · split at hx'
          · cases hx'
          · exact i.uniq x x' y y' j hx hx' hy hy'
      · simp [Heap.view, upd]
      · intro x hxa
        simp only [Heap.view, upd, if_neg hxa]
        cases hx : h.buf x with
        | none => rfl
        | some y =>
          simp only
          cases hy : y.ext with
          | none => rfl
          | some j =>
            have : j ≠ k := fun e => by subst e; exact hxa (i.uniq x a y b j hx hb hy he)
            simp only [if_neg this]

theorem write_inv {h : Heap} (i : HeapInv h) {a : Nat} {bs : Bytes} (ha : h.view a ≠ none)
    (hs : bs.length + 65 < 2147483648) :
    ∃ h' l, h.write a bs = .ok h' ∧ HeapInv h' ∧ h'.view a = some (l, bs) ∧ ∀ a', a' ≠ a → h'.view a' = h.view a' := by
  have hl : ¬ bs.length + 65 ≥ 2147483648 := by omega
  cases hb : h.buf a with
  | none => exact absurd ((view_buf i).mpr hb) ha
  | some b =>
    by_cases hc : bs.length > b.cap
    · -- a new block
      have free : ∃ e', h.freeData b.ext = .ok { h with ext := e' } ∧ (∀ j, b.ext ≠ some j → e' j = h.ext j) ∧
          ∀ j, b.ext = some j → e' j = none := by
        cases he : b.ext with
        | none => exact ⟨h.ext, rfl, fun _ _ => rfl, fun _ e => by cases e⟩
        | some k =>
          obtain ⟨cs, hk⟩ := i.valid a b k hb he
          refine ⟨upd h.ext k none, by simp [Heap.freeData, Heap.freeExt, hk], fun j hj => ?_, fun j hj => ?_⟩
          · exact upd_other _ _ (fun e => hj (by rw [e]))
          · cases hj; exact upd_same _ _ _
      obtain ⟨e', hf, h1, h2⟩ := free
      have hold : ∀ j cs, e' j = some cs → h.ext j = some cs ∧ b.ext ≠ some j := by
        intro j cs hj
        by_cases hbj : b.ext = some j
        · rw [h2 j hbj] at hj; cases hj
        · exact ⟨by rw [← h1 j hbj]; exact hj, hbj⟩
      refine ⟨{ h with
          nextExt := h.nextExt + 1
          buf := upd h.buf a (some ⟨(bs.length / 64 + 1) * 64, some h.nextExt, b.block1⟩)
          ext := upd e' h.nextExt (some bs) }, .outer h.nextExt, ?_, ⟨?_, ?_, ?_, ?_, ?_⟩, ?_, ?_⟩
      · simp only [Heap.write, if_neg hl, hb, if_pos hc, hf, Res.ok_bind, Res.pure_eq]
      · intro x y hx
        simp only [upd] at hx
        split at hx
        · rename_i e; subst e; exact i.bufs x b hb
        · exact i.bufs x y hx
      · intro j cs hj
        simp only [upd] at hj ⊢
        split at hj
        · omega
        · have := i.exts j cs (hold j cs hj).1; omega
      · intro j cs hj
        simp only [upd] at hj
        split at hj
        · rename_i e
          exact ⟨a, ⟨(bs.length / 64 + 1) * 64, some h.nextExt, b.block1⟩, by simp [upd], by rw [e]⟩
        · obtain ⟨ho, hne⟩ := hold j cs hj
          obtain ⟨x, y, hx, hy⟩ := i.owned j cs ho
          have : x ≠ a := fun e => by subst e; rw [hb] at hx; cases hx; exact hne hy
          exact ⟨x, y, by simp only [upd, if_neg this, hx], hy⟩
      · intro x y j hx hy
        simp only [upd] at hx ⊢
        split at hx
        · cases hx; cases hy; exact ⟨bs, by simp⟩
        · rename_i hxa
          obtain ⟨cs, hc⟩ := i.valid x y j hx hy
          have hlt := i.exts j cs hc
          have hne : b.ext ≠ some j := fun e => hxa (i.uniq x a y b j hx hb hy e)
          exact ⟨cs, by rw [if_neg (by omega), h1 j hne]; exact hc⟩
      · intro x x' y y' j hx hx' hy hy'
        simp only [upd] at hx hx'
        split at hx
        · cases hx; cases hy
          split at hx'
          · rename_i e1 e2; rw [e1, e2]
          · obtain ⟨cs, hc⟩ := i.valid x' y' _ hx' hy'
            exact absurd (i.exts _ _ hc) (by omega)
        · split at hx'
          · cases hx'; cases hy'
            obtain ⟨cs, hc⟩ := i.valid x y _ hx hy
            exact absurd (i.exts _ _ hc) (by omega)
          · exact i.uniq x x' y y' j hx hx' hy hy'
      · simp [Heap.view, upd]
      · intro x hxa
        simp only [Heap.view, upd, if_neg hxa]
        cases hx : h.buf x with
        | none => rfl
        | some y =>
          simp only
          cases hy : y.ext with
          | none => rfl
          | some j =>
            obtain ⟨cs, hc⟩ := i.valid x y j hx hy
            have hlt := i.exts j cs hc
            have hne : b.ext ≠ some j := fun e => hxa (i.uniq x a y b j hx hb hy e)
            simp only [if_neg (show ¬ j = h.nextExt by omega), h1 j hne]
    · cases he : b.ext with
      | none =>
        refine ⟨{ h with buf := upd h.buf a (some { b with block1 := bs }) }, .inner a, ?_, ⟨?_, i.exts, ?_, ?_, ?_⟩, ?_, ?_⟩
        · simp only [Heap.write, if_neg hl, hb, if_neg hc, he]
        · intro x y hx
          simp only [upd] at hx
          split at hx
          · rename_i e; subst e; exact i.bufs x b hb
          · exact i.bufs x y hx
        · intro j cs hj
          obtain ⟨x, y, hx, hy⟩ := i.owned j cs hj
          have : x ≠ a := fun e => by subst e; rw [hb] at hx; cases hx; rw [he] at hy; cases hy
          exact ⟨x, y, by simp only [upd, if_neg this, hx], hy⟩
        · intro x y j hx hy
          simp only [upd] at hx
          split at hx
          · cases hx; rw [he] at hy; cases hy
          · exact i.valid x y j hx hy
        · intro x x' y y' j hx hx' hy hy'
          simp only [upd] at hx hx'
          split at hx
          · cases hx; rw [he] at hy; cases hy
          · split at hx'
            · cases hx'; rw [he] at hy'; cases hy'
            · exact i.uniq x x' y y' j hx hx' hy hy'
        · simp [Heap.view, upd, he]
        · intro x hxa
          simp only [Heap.view, upd, if_neg hxa]
      | some k =>
        obtain ⟨cs, hk⟩ := i.valid a b k hb he
        refine ⟨{ h with ext := upd h.ext k (some bs) }, .outer k, ?_, ⟨i.bufs, ?_, ?_, ?_, i.uniq⟩, ?_, ?_⟩
        · simp only [Heap.write, if_neg hl, hb, if_neg hc, he, hk]
        · intro j ds hj
          simp only [upd] at hj
          split at hj
          · rename_i e; subst e; exact i.exts j cs hk
          · exact i.exts j ds hj
        · intro j ds hj
          simp only [upd] at hj
          split at hj
          · rename_i e; subst e; exact ⟨a, b, hb, he⟩
          · exact i.owned j ds hj
        · intro x y j hx hy
          simp only [upd]
          split
          · exact ⟨bs, rfl⟩
          · exact i.valid x y j hx hy
        · simp [Heap.view, hb, he, upd]
        · intro x hxa
          simp only [Heap.view]
          cases hx : h.buf x with
          | none => rfl
          | some y =>
            simp only
            cases hy : y.ext with
            | none => rfl
            | some j =>
              have : j ≠ k := fun e => by subst e; exact hxa (i.uniq x a y b j hx hb hy he)
              simp only [upd, if_neg this]

/-! ## Values -/

/-- A cell and the heap are what the specification says. -/
def Rep (h : Heap) (c : Cell) : Content → Prop
  | .empty => c.tag = .empty ∧ c.ptr = none ∧ c.pointer = .null
  | .plain k bs => c.tag = .plain k ∧ c.ptr = none ∧ c.raw.take k.size = bs
  | .text none => c.tag = .string ∧ c.ptr = none ∧ c.pointer = .null
  | .text (some t) => c.tag = .string ∧ ((0 : UInt8) ∉ t ∧ t.length + 66 < 2147483648) ∧ ∃ a l, c.ptr = some a ∧ h.view a = some (l, t ++ [0])
  | .bytes none => c.tag = .bytes ∧ c.ptr = none ∧ c.pointer = .null
  | .bytes (some t) => c.tag = .bytes ∧ t.length + 66 < 2147483648 ∧ ∃ a l, c.ptr = some a ∧ h.view a = some (l, t)
  | .part k none => c.tag = .part k ∧ c.ptr = none ∧ c.pointer = .null
  | .part k (some r) => c.tag = .part k ∧ c.ptr = some r

/-- Contents without a pointer. -/
def Light : Content → Prop
  | .text (some _) | .bytes (some _) | .part _ (some _) => False
  | _ => True

/-- The value has the buffer at `a`. -/
def Owns (s : State) (v a : Nat) : Prop := ∃ c, s.cell v = some c ∧ c.tag.buffered = true ∧ c.ptr = some a

/-- Model and specification agree. -/
structure Rel (A : Sheet) (s : State) : Prop where
  heap : HeapInv s.heap
  next : s.next = A.next
  live : ∀ v p, A.val v = some p → v < A.next
  alive : ∀ v x n, A.val v = some (x, n) → ∃ c, s.cell v = some c ∧ c.count = n ∧ 0 < n ∧ c.raw.length = 48 ∧ Rep s.heap c x
  dead : ∀ v, A.val v = none → s.cell v = none
  uniq : ∀ u v a, Owns s u a → Owns s v a → u = v
  owned : ∀ a, s.heap.view a ≠ none → ∃ v, Owns s v a
  refs : ∀ r, s.ref r = A.held r + A.holders r
  nextRef : s.nextRef = A.nextRef
  fresh : ∀ r, s.nextRef ≤ r → s.ref r = 0

/-- Where the bytes of a value are. -/
def loc (s : State) (u : Nat) : Option Loc :=
  match s.cell u with
  | some c =>
    if c.tag.buffered then
      match c.ptr with
      | some a => (s.heap.view a).map (·.1)
      | none => none
    else none
  | none => none

/-- The bytes of other values stay where they are. -/
def Frame (v : Nat) (s s' : State) : Prop := ∀ u, u ≠ v → loc s' u = loc s u

theorem Frame.trans {v : Nat} {a b c : State} (h : Frame v a b) (h' : Frame v b c) : Frame v a c :=
  fun u hu => (h' u hu).trans (h u hu)

theorem rep_tag {h : Heap} {c : Cell} : ∀ {x : Content}, Rep h c x → c.tag = x.tag
  | .empty, r | .plain _ _, r | .text none, r | .bytes none, r | .part _ none, r => r.1
  | .text (some _), r | .bytes (some _), r | .part _ (some _), r => r.1

theorem rep_light {h : Heap} {c : Cell} : ∀ {x : Content}, Light x → Rep h c x → c.ptr = none
  | .empty, _, r | .plain _ _, _, r | .text none, _, r | .bytes none, _, r | .part _ none, _, r => r.2.1
  | .text (some _), l, _ | .bytes (some _), l, _ | .part _ (some _), l, _ => l.elim

/-- A buffer that a value has exists. -/
theorem rep_view {h : Heap} {c : Cell} {a : Nat} (hb : c.tag.buffered = true) (hp : c.ptr = some a) :
    ∀ {x : Content}, Rep h c x → h.view a ≠ none
  | .empty, r => by rw [r.1] at hb; cases hb
  | .plain _ _, r => by rw [r.1] at hb; cases hb
  | .text none, r => by rw [r.2.1] at hp; cases hp
  | .bytes none, r => by rw [r.2.1] at hp; cases hp
  | .part _ none, r => by rw [r.1] at hb; cases hb
  | .part _ (some _), r => by rw [r.1] at hb; cases hb
  | .text (some t), r => by
    obtain ⟨_, _, b, l, h1, h2⟩ := r
    rw [hp] at h1
    cases h1
    rw [h2]
    exact Option.some_ne_none _
  | .bytes (some t), r => by
    obtain ⟨_, _, b, l, h1, h2⟩ := r
    rw [hp] at h1
    cases h1
    rw [h2]
    exact Option.some_ne_none _

/-- Only the buffer matters. -/
theorem rep_heap {h h' : Heap} {c : Cell} (hv : ∀ a, c.tag.buffered = true → c.ptr = some a → h'.view a = h.view a) :
    ∀ {x : Content}, Rep h c x → Rep h' c x
  | .empty, r | .plain _ _, r | .text none, r | .bytes none, r | .part _ none, r => r
  | .part _ (some _), r => r
  | .text (some t), r => by
    obtain ⟨h1, h0, b, l, h2, h3⟩ := r
    exact ⟨h1, h0, b, l, h2, by rw [hv b (by rw [h1]; rfl) h2]; exact h3⟩
  | .bytes (some t), r => by
    obtain ⟨h1, h0, b, l, h2, h3⟩ := r
    exact ⟨h1, h0, b, l, h2, by rw [hv b (by rw [h1]; rfl) h2]; exact h3⟩

theorem light_rep {h h' : Heap} {c : Cell} {x : Content} (hl : Light x) (r : Rep h c x) : Rep h' c x :=
  rep_heap (fun a _ hp => by rw [rep_light hl r] at hp; cases hp) r

/-! ## Counting -/

theorem countP_change {p q : Nat → Bool} {v : Nat} (h : ∀ u, u ≠ v → q u = p u) : ∀ {n : Nat},
    (List.range n).countP q + (if v < n then (p v).toNat else 0) =
      (List.range n).countP p + (if v < n then (q v).toNat else 0)
  | 0 => by simp
  | n + 1 => by
    have ih := countP_change h (n := n)
    simp only [List.range_succ, List.countP_append, List.countP_singleton]
    by_cases hv : v = n
    · subst hv
      simp only [Nat.lt_irrefl, if_false, Nat.add_zero] at ih
      simp only [Nat.lt_succ_self, if_true, ih]
      cases p v <;> cases q v <;> simp
    · rw [h n (fun e => hv e.symm)]
      by_cases hl : v < n
      · simp only [hl, if_true] at ih
        simp only [show v < n + 1 by omega, if_true]
        omega
      · simp only [hl, if_false] at ih
        simp only [show ¬ v < n + 1 by omega, if_false]
        omega

/-- Does this hold `r`? -/
def refIs (r : Nat) : Option (Content × Nat) → Bool
  | some (x, _) => x.ref == some r
  | none => false

theorem holds_refIs (A : Sheet) (r v : Nat) : A.holds r v = refIs r (A.val v) := by
  unfold Sheet.holds refIs
  cases A.val v <;> rfl

theorem holders_set {A : Sheet} {v : Nat} (hv : v < A.next) (y : Option (Content × Nat)) (r : Nat) :
    (A.set v y).holders r + (refIs r (A.val v)).toNat = A.holders r + (refIs r y).toNat := by
  have := countP_change (p := A.holds r) (q := (A.set v y).holds r) (v := v) (fun u hu => by
    rw [holds_refIs, holds_refIs]
    simp only [Sheet.set, upd, if_neg hu]) (n := A.next)
  simp only [hv, if_true, holds_refIs, Sheet.set, upd_same] at this
  exact this

/-! ## Changes of one value -/

/-- A cell that holds `y`, without pointers. -/
def LightPair : Option (Content × Nat) → Option Cell → Prop
  | none, none => True
  | some (x, n), some c => c.count = n ∧ 0 < n ∧ c.raw.length = 48 ∧ Light x ∧ ∀ h, Rep h c x
  | _, _ => False

theorem light_ref : ∀ {x : Content}, Light x → x.ref = none
  | .empty, _ | .plain _ _, _ | .text none, _ | .bytes none, _ | .part _ none, _ => rfl
  | .text (some _), h | .bytes (some _), h | .part _ (some _), h => h.elim

theorem lightPair_ref {r : Nat} : ∀ {y : Option (Content × Nat)} {c : Option Cell}, LightPair y c → refIs r y = false
  | none, none, _ => rfl
  | some (x, n), some c, h => by simp [refIs, light_ref h.2.2.2.1]
  | none, some _, h => h.elim
  | some _, none, h => h.elim

theorem lightPair_ptr {y : Option (Content × Nat)} {c : Cell} (h : LightPair y (some c)) : c.ptr = none := by
  match y, h with
  | some (x, n), h => exact rep_light h.2.2.2.1 (h.2.2.2.2 ⟨0, 0, fun _ => none, fun _ => none⟩)

/-- What `drop` leaves: the buffer is gone, and a property or object has one reference less. -/
def Dropped (s : State) (v : Nat) (c : Cell) (x : Content) : Prop :=
  ∃ h1 r1, s.drop c = .ok { s with heap := h1, ref := r1 } ∧ HeapInv h1 ∧
    (∀ a, ¬ Owns s v a → h1.view a = s.heap.view a) ∧ (∀ a, Owns s v a → h1.view a = none) ∧
    (∀ r, r1 r + (x.ref == some r).toNat = s.ref r) ∧ (Light x → s.drop c = .ok s)

/-- What `drop` does. -/
theorem drop_spec {A : Sheet} {s : State} (i : Rel A s) {v : Nat} {x : Content} {n : Nat} {c : Cell}
    (hv : A.val v = some (x, n)) (hc : s.cell v = some c) :
    Dropped s v c x := by
  obtain ⟨c', hc', hn, hpos, hlen, hrep⟩ := i.alive v x n hv
  rw [hc] at hc'
  cases hc'
  have lightCase : x.ref = none → s.drop c = .ok s → (∀ a, ¬ Owns s v a) → Dropped s v c x := fun hr hd ho =>
    ⟨s.heap, s.ref, by rw [hd], i.heap, fun _ _ => rfl, fun a h => absurd h (ho a), fun r => by simp [hr], fun _ => hd⟩
  have noOwn : c.ptr = none ∨ c.tag.buffered = false → ∀ a, ¬ Owns s v a := by
    rintro h a ⟨d, hd, h1, h2⟩
    rw [hc] at hd
    cases hd
    rcases h with h | h
    · rw [h] at h2; cases h2
    · rw [h] at h1; cases h1
  have text : ∀ {a l bs}, c.tag.buffered = true → c.ptr = some a → s.heap.view a = some (l, bs) → x.ref = none → ¬ Light x → Dropped s v c x :=
    fun {a l bs} hb hp hvw hr hx => by
      obtain ⟨h', hd, hi', hgone, hsame⟩ := destroy_inv i.heap (a := a) (by rw [hvw]; exact Option.some_ne_none _)
      have hdrop : s.drop c = .ok { s with heap := h' } := by
        have : c.pointer = .addr a := by simp [Cell.pointer, hp]
        unfold State.drop
        rw [this]
        cases ht : c.tag with
        | string => simp [hd]
        | bytes => simp [hd]
        | _ => rw [ht] at hb; cases hb
      exact ⟨h', s.ref, hdrop, hi', fun b hno => hsame b (fun e => hno ⟨c, hc, hb, by rw [hp, e]⟩), fun b ho => by
        obtain ⟨d, hd', _, h2⟩ := ho
        rw [hc] at hd'
        cases hd'
        rw [hp] at h2
        cases h2
        exact hgone, fun r => by simp [hr], fun h => absurd h hx⟩
  match x, hrep with
  | .empty, r => exact lightCase rfl (by simp [State.drop, r.1]) (noOwn (.inl r.2.1))
  | .plain k bs, r => exact lightCase rfl (by simp [State.drop, r.1]) (noOwn (.inl r.2.1))
  | .text none, r => exact lightCase rfl (by simp [State.drop, r.1, r.2.2]) (noOwn (.inl r.2.1))
  | .bytes none, r => exact lightCase rfl (by simp [State.drop, r.1, r.2.2]) (noOwn (.inl r.2.1))
  | .part k none, r => exact lightCase rfl (by simp [State.drop, r.1, r.2.2]) (noOwn (.inl r.2.1))
  | .text (some t), r =>
    obtain ⟨h1, _, a, l, h2, h3⟩ := r
    exact text (by rw [h1]; rfl) h2 h3 rfl (fun h => h)
  | .bytes (some t), r =>
    obtain ⟨h1, _, a, l, h2, h3⟩ := r
    exact text (by rw [h1]; rfl) h2 h3 rfl (fun h => h)
  | .part k (some q), r =>
    have hpos : 0 < s.ref q := by
      rw [i.refs q]
      have := holders_set (i.live v _ hv) none q
      simp only [hv, refIs, Content.ref, beq_self_eq_true, Bool.toNat_true, Bool.toNat_false] at this
      omega
    have hd : s.drop c = .ok { s with ref := upd s.ref q (s.ref q - 1) } := by
      simp only [State.drop, r.1, Cell.pointer, r.2, State.releaseRef]
      rw [if_neg (by omega)]
    refine ⟨s.heap, _, hd, i.heap, fun _ _ => rfl, fun a h => absurd h (noOwn (.inr (by rw [r.1]; rfl)) a), fun j => ?_, fun h => h.elim⟩
    by_cases hj : j = q
    · subst hj
      simp only [upd_same, Content.ref, beq_self_eq_true, Bool.toNat_true]
      omega
    · have : ((some q : Option Nat) == some j) = false := by
        rw [beq_eq_false_iff_ne]; intro e; cases e; exact hj rfl
      simp [upd, hj, Content.ref, this]

theorem get_ok {s : State} {v : Nat} {c : Cell} (h : s.cell v = some c) : s.get v = .ok c := by
  simp [State.get, h]

/-- What a value holds is given up, and something without pointers put in its place. -/
theorem detach {A : Sheet} {s : State} (i : Rel A s) {v : Nat} {x : Content} {n : Nat} {c : Cell}
    (hv : A.val v = some (x, n)) (hc : s.cell v = some c) :
    ∃ s1, s.drop c = .ok s1 ∧ (Light x → s1 = s) ∧ s1.cell = s.cell ∧ (∀ r, r ≠ v → loc s1 r = loc s r) ∧
      (∀ r, 0 < A.held r → 0 < s1.ref r) ∧
      ∀ y c0, LightPair y c0 → Rel (A.set v y) (s1.put v c0) ∧ Frame v s (s1.put v c0) := by
  obtain ⟨h1, r1, hd, hinv, hsame, hgone, hrefs, hlight⟩ := drop_spec i hv hc
  have other : ∀ u a, u ≠ v → Owns s u a → ¬ Owns s v a := fun u a hu ho hv => hu (i.uniq u v a ho hv)
  have hlt := i.live v _ hv
  have hfr : ∀ u, u ≠ v → ∀ c0, loc ({ s with heap := h1, ref := r1 }.put v c0) u = loc s u := by
    intro u hu c0
    simp only [loc, State.put, upd, if_neg hu]
    cases hcu : s.cell u with
    | none => rfl
    | some d =>
      simp only
      split
      · rename_i hb
        cases hp : d.ptr with
        | none => rfl
        | some a =>
          simp only
          rw [hsame a (other u a hu ⟨d, hcu, hb, hp⟩)]
      · rfl
  refine ⟨_, hd, fun hl => ?_, rfl, fun u hu => ?_, fun r hr => ?_, fun y c0 hlp => ⟨?_, fun u hu => hfr u hu c0⟩⟩
  · rw [hlight hl] at hd
    exact (Res.ok.inj hd).symm
  · simp only [loc]
    cases hcu : s.cell u with
    | none => rfl
    | some d =>
      simp only
      split
      · rename_i hb
        cases hp : d.ptr with
        | none => rfl
        | some a =>
          simp only
          rw [hsame a (other u a hu ⟨d, hcu, hb, hp⟩)]
      · rfl
  · show 0 < r1 r
    have h1 := hrefs r
    have h2 := i.refs r
    have h3 := holders_set hlt none r
    simp only [hv, refIs, Bool.toNat_false] at h3
    omega
  · have ho : ∀ u a, Owns ({ s with heap := h1, ref := r1 }.put v c0) u a → u ≠ v ∧ Owns s u a := by
      rintro u a ⟨d, hd, hb, hp⟩
      simp only [State.put, upd] at hd
      split at hd
      · subst hd
        rw [lightPair_ptr hlp] at hp
        cases hp
      · rename_i hu
        exact ⟨hu, d, hd, hb, hp⟩
    refine ⟨hinv, i.next, ?_, ?_, ?_, ?_, ?_, ?_, i.nextRef, ?_⟩
    · intro u p hu
      simp only [Sheet.set, upd] at hu
      split at hu
      · rename_i e; subst e; exact hlt
      · exact i.live u p hu
    · intro u z m hu
      simp only [Sheet.set, upd] at hu
      simp only [State.put, upd]
      split at hu
      · rename_i e
        subst e hu
        simp only [if_true]
        match c0, hlp with
        | some c0, hlp => exact ⟨c0, rfl, hlp.1, hlp.2.1, hlp.2.2.1, hlp.2.2.2.2 _⟩
      · rename_i hne
        obtain ⟨d, h2, h3, h4, h5, h6⟩ := i.alive u z m hu
        rw [if_neg hne]
        exact ⟨d, h2, h3, h4, h5, rep_heap (fun a hb hp => hsame a (other u a hne ⟨d, h2, hb, hp⟩)) h6⟩
    · intro u hu
      simp only [Sheet.set, upd] at hu
      simp only [State.put, upd]
      split at hu
      · rename_i e
        subst e hu
        simp only [if_true]
        match c0, hlp with
        | none, _ => rfl
      · rename_i hne
        rw [if_neg hne]
        exact i.dead u hu
    · intro u w a hu hw
      exact i.uniq u w a (ho u a hu).2 (ho w a hw).2
    · intro a ha
      have hna : ¬ Owns s v a := fun h => ha (hgone a h)
      obtain ⟨u, hu⟩ := i.owned a (by rw [← hsame a hna]; exact ha)
      have hne : u ≠ v := fun e => hna (e ▸ hu)
      obtain ⟨d, h2, h3, h4⟩ := hu
      exact ⟨u, d, by simp only [State.put, upd, if_neg hne]; exact h2, h3, h4⟩
    · intro r
      have e1 := hrefs r
      have e2 := i.refs r
      have e3 := holders_set hlt y r
      simp only [hv, lightPair_ref hlp, Bool.toNat_false] at e3
      have e4 : refIs r (some (x, n)) = (x.ref == some r) := rfl
      rw [e4] at e3
      show r1 r = A.held r + (A.set v y).holders r
      omega
    · intro r hr
      have e1 := hrefs r
      have e2 := i.fresh r hr
      show r1 r = 0
      omega

theorem set_set (A : Sheet) (v : Nat) (y z : Option (Content × Nat)) : (A.set v y).set v z = A.set v z := by
  simp only [Sheet.set, Sheet.mk.injEq, true_and, and_true]
  funext u
  simp only [upd]
  split <;> rfl

theorem put_put (s : State) (v : Nat) (y z : Option Cell) : (s.put v y).put v z = s.put v z := by
  simp only [State.put, State.mk.injEq, true_and, and_true]
  funext u
  simp only [upd]
  split <;> rfl

/-- A value without pointers holds something else without pointers. -/
theorem relight {A : Sheet} {s : State} (i : Rel A s) {v : Nat} {x : Content} {n : Nat} {c : Cell}
    (hv : A.val v = some (x, n)) (hc : s.cell v = some c) (hl : Light x) {y : Option (Content × Nat)} {c0 : Option Cell}
    (hp : LightPair y c0) : Rel (A.set v y) (s.put v c0) ∧ Frame v s (s.put v c0) := by
  obtain ⟨s1, _, hs, _, _, _, h⟩ := detach i hv hc
  rw [hs hl] at h
  exact h y c0 hp

/-- Only the count changes. -/
theorem recount {A : Sheet} {s : State} (i : Rel A s) {v : Nat} {x : Content} {n : Nat} {c : Cell}
    (hv : A.val v = some (x, n)) (hc : s.cell v = some c) {m : Nat} (hm : 0 < m) :
    Rel (A.set v (some (x, m))) (s.put v (some { c with count := m })) ∧
      ∀ u, loc (s.put v (some { c with count := m })) u = loc s u := by
  obtain ⟨d, hd, hn, hpos, hlen, hrep⟩ := i.alive v x n hv
  rw [hc] at hd
  cases hd
  have ho : ∀ u a, Owns (s.put v (some { c with count := m })) u a ↔ Owns s u a := by
    intro u a
    by_cases hu : u = v
    · subst hu
      simp [Owns, State.put, upd, hc]
    · simp [Owns, State.put, upd, hu]
  refine ⟨⟨i.heap, i.next, ?_, ?_, ?_, ?_, ?_, ?_, i.nextRef, i.fresh⟩, ?_⟩
  · intro u p hu
    simp only [Sheet.set, upd] at hu
    split at hu
    · rename_i e; subst e; exact i.live u _ hv
    · exact i.live u p hu
  · intro u z k hu
    simp only [Sheet.set, upd] at hu
    simp only [State.put, upd]
    split at hu
    · rename_i e
      subst e
      cases hu
      refine ⟨_, if_pos rfl, rfl, hm, hlen, ?_⟩
      match x, hrep with
      | .empty, r | .plain _ _, r | .text none, r | .bytes none, r | .part _ none, r => exact r
      | .text (some _), r | .bytes (some _), r | .part _ (some _), r => exact r
    · rename_i hne
      rw [if_neg hne]
      exact i.alive u z k hu
  · intro u hu
    simp only [Sheet.set, upd] at hu
    simp only [State.put, upd]
    split at hu
    · cases hu
    · rename_i hne
      rw [if_neg hne]
      exact i.dead u hu
  · intro u w a hu hw
    exact i.uniq u w a ((ho u a).mp hu) ((ho w a).mp hw)
  · intro a ha
    obtain ⟨u, hu⟩ := i.owned a ha
    exact ⟨u, (ho u a).mpr hu⟩
  · intro r
    have := holders_set (i.live v _ hv) (some (x, m)) r
    rw [hv] at this
    have e : refIs r (some (x, n)) = refIs r (some (x, m)) := rfl
    rw [e] at this
    have e2 := i.refs r
    show s.ref r = A.held r + (A.set v (some (x, m))).holders r
    omega
  · intro u
    by_cases hu : u = v
    · subst hu
      simp [loc, State.put, upd, hc]
    · simp [loc, State.put, upd, hu]

/-- A text or bytes are put into a value that holds no property and no object. -/
theorem setBuffer_rel {A : Sheet} {s : State} (i : Rel A s) {v : Nat} {x y : Content} {n : Nat} {bs : Bytes} {t : Tag}
    (hv : A.val v = some (x, n)) (hx : x.ref = none) (hs : bs.length + 65 < 2147483648) (ht : t.buffered = true)
    (hy : y.ref = none) (hr : ∀ h c a l, c.tag = t → c.ptr = some a → h.view a = some (l, bs) → Rep h c y) :
    ∃ s', setBuffer s v bs t = .ok s' ∧ Rel (A.set v (some (y, n))) s' ∧ Frame v s s' := by
  obtain ⟨c, hc, hn, hpos, hlen, hrep⟩ := i.alive v x n hv
  have hlt := i.live v _ hv
  -- the buffer
  have hbuf : ∃ h1 a, bufferOf s c = .ok ({ s with heap := h1 }, a) ∧ HeapInv h1 ∧ h1.view a ≠ none ∧
      (∀ b, b ≠ a → h1.view b = s.heap.view b) ∧ (∀ u, u ≠ v → ¬ Owns s u a) ∧ (∀ b, Owns s v b → b = a) := by
    by_cases ho : ∃ a, Owns s v a
    · obtain ⟨a, hoa⟩ := ho
      obtain ⟨d, hd, hb, hp⟩ := hoa
      have hoa : Owns s v a := ⟨d, hd, hb, hp⟩
      rw [hc] at hd
      cases hd
      refine ⟨s.heap, a, by simp [bufferOf, hb, Cell.pointer, hp], i.heap, rep_view hb hp hrep, fun _ _ => rfl,
        fun u hu h => hu (i.uniq u v a h hoa), fun b h => ?_⟩
      obtain ⟨d, hd, _, hp'⟩ := h
      rw [hc] at hd
      cases hd
      rw [hp] at hp'
      exact (Option.some.inj hp').symm
    · obtain ⟨h1, h2, h3, h4⟩ := create_inv i.heap
      refine ⟨s.heap.create, s.heap.nextBuf, ?_, h1, by rw [h3]; exact Option.some_ne_none _, h4, fun u hu h => ?_,
        fun b h => absurd ⟨b, h⟩ ho⟩
      · unfold bufferOf
        by_cases hb : c.tag.buffered = true
        · have hp : c.ptr = none := by
            cases hp : c.ptr with
            | none => rfl
            | some a => exact absurd ⟨a, c, hc, hb, hp⟩ ho
          have hnull : c.pointer = .null := by
            match x, hrep with
            | .empty, r => exact r.2.2
            | .plain _ _, r => rw [r.1] at hb; cases hb
            | .text none, r => exact r.2.2
            | .bytes none, r => exact r.2.2
            | .part _ none, r => exact r.2.2
            | .part _ (some _), r => cases hx
            | .text (some _), r => obtain ⟨_, _, a, _, h, _⟩ := r; rw [hp] at h; cases h
            | .bytes (some _), r => obtain ⟨_, _, a, _, h, _⟩ := r; rw [hp] at h; cases h
          rw [if_pos hb, hnull]
        · rw [if_neg hb]
      · obtain ⟨d, hd, hb, hp⟩ := h
        cases hu' : A.val u with
        | none => rw [i.dead u hu'] at hd; cases hd
        | some p =>
          obtain ⟨d', hd', _, _, _, hr'⟩ := i.alive u p.1 p.2 hu'
          rw [hd] at hd'
          cases hd'
          exact rep_view hb hp hr' h2
  obtain ⟨h1, a, hbo, hi1, hva, hsame1, hothers, hmine⟩ := hbuf
  obtain ⟨h2, l, hw, hi2, hv2, hsame2⟩ := write_inv hi1 hva hs
  have hview : ∀ b, b ≠ a → h2.view b = s.heap.view b := fun b hb => by rw [hsame2 b hb, hsame1 b hb]
  refine ⟨{ s with heap := h2 }.put v (some { c with tag := t, ptr := some a }), ?_, ?_, ?_⟩
  · simp only [setBuffer, get_ok hc, hbo, hw, Res.ok_bind, Res.pure_eq]
  · have ho : ∀ u b, Owns ({ s with heap := h2 }.put v (some { c with tag := t, ptr := some a })) u b →
        (u = v ∧ b = a) ∨ (u ≠ v ∧ b ≠ a ∧ Owns s u b) := by
      rintro u b ⟨d, hd, hb, hp⟩
      simp only [State.put, upd] at hd
      split at hd
      · rename_i e
        cases hd
        cases hp
        exact .inl ⟨e, rfl⟩
      · rename_i hu
        have : Owns s u b := ⟨d, hd, hb, hp⟩
        exact .inr ⟨hu, fun e => hothers u hu (e ▸ this), this⟩
    refine ⟨hi2, i.next, ?_, ?_, ?_, ?_, ?_, ?_, i.nextRef, i.fresh⟩
    · intro u p hu
      simp only [Sheet.set, upd] at hu
      split at hu
      · rename_i e; subst e; exact hlt
      · exact i.live u p hu
    · intro u z m hu
      simp only [Sheet.set, upd] at hu
      simp only [State.put, upd]
      split at hu
      · rename_i e
        subst e
        cases hu
        exact ⟨_, if_pos rfl, hn, hpos, hlen, hr _ _ a l rfl rfl hv2⟩
      · rename_i hne
        obtain ⟨d, e2, e3, e4, e5, e6⟩ := i.alive u z m hu
        rw [if_neg hne]
        exact ⟨d, e2, e3, e4, e5, rep_heap (fun b hb hp => hview b (fun e => hothers u hne (e ▸ ⟨d, e2, hb, hp⟩))) e6⟩
    · intro u hu
      simp only [Sheet.set, upd] at hu
      simp only [State.put, upd]
      split at hu
      · cases hu
      · rename_i hne
        rw [if_neg hne]
        exact i.dead u hu
    · intro u w b hu hw
      rcases ho u b hu with ⟨rfl, rfl⟩ | ⟨_, h3, h4⟩
      · rcases ho w b hw with ⟨rfl, _⟩ | ⟨_, h5, _⟩
        · rfl
        · exact absurd rfl h5
      · rcases ho w b hw with ⟨_, rfl⟩ | ⟨_, _, h5⟩
        · exact absurd rfl h3
        · exact i.uniq u w b h4 h5
    · intro b hb
      by_cases hba : b = a
      · subst hba
        exact ⟨v, _, by simp only [State.put, upd, if_true]; rfl, ht, rfl⟩
      · obtain ⟨u, hu⟩ := i.owned b (by rw [← hview b hba]; exact hb)
        have hne : u ≠ v := fun e => hba (hmine b (e ▸ hu))
        obtain ⟨d, e2, e3, e4⟩ := hu
        exact ⟨u, d, by simp only [State.put, upd, if_neg hne]; exact e2, e3, e4⟩
    · intro r
      have := holders_set hlt (some (y, n)) r
      simp only [hv, refIs, hx, hy] at this
      have e2 := i.refs r
      show s.ref r = A.held r + (A.set v (some (y, n))).holders r
      omega
  · intro u hu
    simp only [loc, State.put, upd, if_neg hu]
    cases hcu : s.cell u with
    | none => rfl
    | some d =>
      simp only
      split
      · rename_i hb
        cases hp : d.ptr with
        | none => rfl
        | some b =>
          simp only
          rw [hview b (fun e => hothers u hu (e ▸ ⟨d, hcu, hb, hp⟩))]
      · rfl

end Verif.Cells
