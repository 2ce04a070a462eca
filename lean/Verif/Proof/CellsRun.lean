import Verif.Proof.Cells

/-!
# Values and the memory they use: one call, and programs
-/

namespace Verif.Cells

open Verif Verif.Spec.Cells

theorem clear_len {c : Cell} (h : c.raw.length = 48) : c.clear.raw.length = 48 := by
  simp [Cell.clear, zeros, h]

theorem clear_take {c : Cell} : c.clear.raw.take 8 = zeros 8 := by
  simp [Cell.clear, zeros]

theorem clear_null {c : Cell} : c.clear.pointer = .null := by
  simp [Cell.pointer, show c.clear.ptr = none from rfl, clear_take]

theorem width_size (k : Kind) : Spec.Cells.width k = k.size := by cases k <;> rfl

theorem size_le (k : Kind) : k.size ≤ 48 := by cases k <;> decide

theorem fill_some {A A' : Sheet} {v : Nat} {y : Content} (h : A.fill v y = some A') :
    ∃ x n, A.val v = some (x, n) ∧ A' = A.set v (some (y, n)) := by
  unfold Sheet.fill at h
  cases hv : A.val v with
  | none => rw [hv] at h; cases h
  | some p =>
    rw [hv] at h
    cases h
    exact ⟨p.1, p.2, rfl, rfl⟩

/-- A call that gives up what a value holds and puts something without pointers in its place. -/
theorem light_set {A : Sheet} {s : State} (i : Rel A s) {v : Nat} {x y : Content} {n : Nat} (hv : A.val v = some (x, n))
    {g : Cell → Cell} (hg : ∀ c : Cell, c.count = n → c.raw.length = 48 → LightPair (some (y, n)) (some (g c.clear))) :
    ∃ s', (do
        let (s, c) ← freeInternal s v
        pure (s.put v (some (g c)))) = .ok s' ∧ Rel (A.set v (some (y, n))) s' ∧ Frame v s s' := by
  obtain ⟨c, hc, hn, hpos, hlen, hrep⟩ := i.alive v x n hv
  obtain ⟨s1, hd, _, _, _, _, h⟩ := detach i hv hc
  obtain ⟨h1, h2⟩ := h _ _ (hg c hn hlen)
  exact ⟨_, by simp only [freeInternal, get_ok hc, hd, Res.ok_bind, Res.pure_eq], h1, h2⟩

theorem setPlain_rel {A : Sheet} {s : State} (i : Rel A s) {v : Nat} {x : Content} {n : Nat} (hv : A.val v = some (x, n))
    {k : Kind} {bs : Bytes} (hb : bs.length = k.size) :
    ∃ s', setPlain s v k bs = .ok s' ∧ Rel (A.set v (some (.plain k bs, n))) s' ∧ Frame v s s' := by
  have hpos : 0 < n := by obtain ⟨_, _, _, h, _⟩ := i.alive v x n hv; exact h
  refine light_set (g := fun c => { c.fill bs with tag := .plain k }) i hv (fun c hn hlen => ⟨hn, hpos, ?_, trivial, fun h => ⟨rfl, rfl, ?_⟩⟩)
  · have := clear_len hlen
    have := size_le k
    simp only [Cell.fill, List.length_append, List.length_drop]
    omega
  · simp only [Cell.fill, ← hb]
    exact List.take_left

theorem setNull_rel {A : Sheet} {s : State} (i : Rel A s) {v : Nat} {x : Content} {n : Nat} (hv : A.val v = some (x, n))
    (b : Bool) :
    ∃ s', setNull s v (if b then .string else .bytes) = .ok s' ∧
      Rel (A.set v (some (if b then .text none else .bytes none, n))) s' ∧ Frame v s s' := by
  have hpos : 0 < n := by obtain ⟨_, _, _, h, _⟩ := i.alive v x n hv; exact h
  refine light_set (g := fun c => { c with tag := if b then .string else .bytes }) i hv
    (fun c hn hlen => ⟨hn, hpos, clear_len hlen, ?_, fun h => ?_⟩)
  · cases b <;> exact trivial
  · cases b <;> exact ⟨rfl, rfl, clear_null⟩

theorem cstring_ok {bs : Bytes} (h : (0 : UInt8) ∈ bs) : cstring bs = .ok (bs.takeWhile (· ≠ 0)) := by
  rw [cstring, if_pos h]

theorem takeWhile_no_zero (bs : Bytes) : (0 : UInt8) ∉ bs.takeWhile (· ≠ 0) := by
  induction bs with
  | nil => simp
  | cons b bs ih =>
    rw [List.takeWhile_cons]
    split
    · rename_i hb
      simp only [List.mem_cons, not_or]
      refine ⟨fun e => ?_, ih⟩
      subst e
      simp at hb
    · simp

theorem free_some {A : Sheet} {v : Nat} {bs : Bytes} (h : A.free v bs = true) :
    ∃ x n, A.val v = some (x, n) ∧ x.ref = none ∧ bs.length + 66 < 2147483648 := by
  unfold Sheet.free at h
  cases hv : A.val v with
  | none => rw [hv] at h; cases h
  | some p =>
    rw [hv] at h
    simp only [Bool.and_eq_true, decide_eq_true_eq] at h
    exact ⟨p.1, p.2, rfl, h.1, h.2⟩

/-- Setting a text from given bytes. -/
theorem setText_rel {A : Sheet} {s : State} (i : Rel A s) {v : Nat} {x : Content} {n : Nat} (hv : A.val v = some (x, n))
    (hx : x.ref = none) {t : Bytes} (hs : t.length + 66 < 2147483648) (h0 : (0 : UInt8) ∉ t) :
    ∃ s', setBuffer s v (t ++ [0]) .string = .ok s' ∧ Rel (A.set v (some (.text (some t), n))) s' ∧ Frame v s s' :=
  setBuffer_rel i hv hx (by simp only [List.length_append, List.length_singleton]; omega) rfl rfl
    (fun _ _ a l h1 h2 h3 => ⟨h1, ⟨h0, hs⟩, a, l, h2, h3⟩)

theorem setBin_rel {A : Sheet} {s : State} (i : Rel A s) {v : Nat} {x : Content} {n : Nat} (hv : A.val v = some (x, n))
    (hx : x.ref = none) {t : Bytes} (hs : t.length + 66 < 2147483648) :
    ∃ s', setBuffer s v t .bytes = .ok s' ∧ Rel (A.set v (some (.bytes (some t), n))) s' ∧ Frame v s s' :=
  setBuffer_rel i hv hx (by omega) rfl rfl (fun _ _ a l h1 h2 h3 => ⟨h1, hs, a, l, h2, h3⟩)

/-- The text of a value. -/
theorem textOf_text {h : Heap} {s : State} (hh : s.heap = h) {c : Cell} {t : Option Bytes} (r : Rep h c (.text t)) :
    textOf s c = .ok (t.map (· ++ [0])) := by
  subst hh
  match t, r with
  | none, r => simp [textOf, r.2.2]
  | some t, r =>
    obtain ⟨_, _, a, l, h2, h3⟩ := r
    obtain ⟨h4, h5⟩ := view_read h3
    simp [textOf, dataOf, Cell.pointer, h2, h4, h5]

theorem textOf_bytes {h : Heap} {s : State} (hh : s.heap = h) {c : Cell} {t : Option Bytes} (r : Rep h c (.bytes t)) :
    textOf s c = .ok t := by
  subst hh
  match t, r with
  | none, r => simp [textOf, r.2.2]
  | some t, r =>
    obtain ⟨_, _, a, l, h2, h3⟩ := r
    obtain ⟨h4, h5⟩ := view_read h3
    simp [textOf, dataOf, Cell.pointer, h2, h4, h5]

theorem bytesOf_rel {A : Sheet} {s : State} (i : Rel A s) {v : Nat} {x : Content} {n : Nat} (hv : A.val v = some (x, n))
    {bs : Bytes} (hd : x.data = some bs) : bytesOf s v = .ok bs := by
  obtain ⟨c, hc, hn, hpos, hlen, hrep⟩ := i.alive v x n hv
  match x, hrep, hd with
  | .empty, r, hd => cases hd; simp [bytesOf, get_ok hc, r.1]
  | .plain k b, r, hd => cases hd; simp [bytesOf, get_ok hc, r.1, r.2.2]
  | .text (some t), r, hd =>
    cases hd
    obtain ⟨h1, _, a, l, h2, h3⟩ := r
    obtain ⟨h4, h5⟩ := view_read h3
    simp [bytesOf, get_ok hc, h1, dataOf, Cell.pointer, h2, h4, h5]
  | .bytes (some t), r, hd =>
    cases hd
    obtain ⟨h1, _, a, l, h2, h3⟩ := r
    obtain ⟨h4, h5⟩ := view_read h3
    simp [bytesOf, get_ok hc, h1, dataOf, Cell.pointer, h2, h4, h5]
  | .part k none, r, hd => cases hd; simp [bytesOf, get_ok hc, r.1]
  | .part k (some _), r, hd => cases hd; simp [bytesOf, get_ok hc, r.1]

theorem source_rel {A : Sheet} {s : State} (i : Rel A s) {v : Nat} {src : Src} {bs : Bytes} (h : A.source v src = some bs) :
    src.bytes s = .ok bs ∧ src.overlaps v = false ∧ tlvBytes s v src = .ok bs := by
  cases src with
  | own b => cases h; exact ⟨rfl, rfl, rfl⟩
  | of w =>
    unfold Sheet.source at h
    simp only at h
    split at h
    · cases h
    · rename_i hne
      cases hw : A.val w with
      | none => rw [hw] at h; cases h
      | some p =>
        rw [hw] at h
        have := bytesOf_rel i hw h
        exact ⟨this, by simp [Src.overlaps, hne], by simp only [tlvBytes, if_neg hne]; exact this⟩

theorem setString_rel {A A' : Sheet} {s : State} (i : Rel A s) {v : Nat} {src : Src} (h : setText A v src = some A') :
    ∃ s', setString s v src = .ok s' ∧ Rel A' s' ∧ Frame v s s' := by
  unfold setText at h
  cases hb : A.source v src with
  | none => rw [hb] at h; cases h
  | some bs =>
    rw [hb] at h
    simp only at h
    obtain ⟨h1, h2, _⟩ := source_rel i hb
    split at h
    · rename_i hc
      obtain ⟨x, n, hv, hx, hs⟩ := free_some hc.2
      obtain ⟨_, _, hv', rfl⟩ := fill_some h
      rw [hv] at hv'
      cases hv'
      obtain ⟨s', h3, h4, h5⟩ := setText_rel i hv hx hs (takeWhile_no_zero bs)
      exact ⟨s', by simp only [setString, h1, cstring_ok hc.1, Res.ok_bind, h2, Bool.false_eq_true, if_false, h3], h4, h5⟩
    · cases h

theorem setBytes_rel {A A' : Sheet} {s : State} (i : Rel A s) {v : Nat} {src : Src} {len : Nat}
    (h : Spec.Cells.setBytes A v src len = some A') :
    ∃ s', setBytes s v src len = .ok s' ∧ Rel A' s' ∧ Frame v s s' := by
  unfold Spec.Cells.setBytes at h
  cases hb : A.source v src with
  | none => rw [hb] at h; cases h
  | some bs =>
    rw [hb] at h
    simp only at h
    obtain ⟨h1, h2, _⟩ := source_rel i hb
    split at h
    · rename_i hc
      obtain ⟨x, n, hv, hx, hs⟩ := free_some hc.2
      obtain ⟨_, _, hv', rfl⟩ := fill_some h
      rw [hv] at hv'
      cases hv'
      obtain ⟨s', h3, h4, h5⟩ := setBin_rel i hv hx hs
      exact ⟨s', by
        simp only [setBytes, h1, Res.ok_bind, h2, Bool.false_eq_true, if_false, h3, if_neg (show ¬ bs.length < len by omega)], h4, h5⟩
    · cases h

theorem setTLV_rel {A A' : Sheet} {s : State} (i : Rel A s) {v : Nat} {k : Kind} {src : Src} {len : Nat}
    (h : Spec.Cells.setPlain A v k len src = some A') :
    ∃ s', setTLV s v (.plain k) len src = .ok s' ∧ Rel A' s' ∧ Frame v s s' := by
  unfold Spec.Cells.setPlain at h
  cases hb : A.source v src with
  | none => rw [hb] at h; cases h
  | some bs =>
    rw [hb] at h
    simp only at h
    obtain ⟨_, _, h3⟩ := source_rel i hb
    split at h
    · rename_i hc
      obtain ⟨x, n, hv, rfl⟩ := fill_some h
      have hk := size_le k
      rw [width_size] at hc
      obtain ⟨s', h4, h5, h6⟩ := setPlain_rel i hv (k := k) (bs := bs.take len) (by rw [List.length_take]; omega)
      refine ⟨s', ?_, h5, h6⟩
      simp only [setTLV, h3, Res.ok_bind, if_neg (show ¬ bs.length < len by omega), if_neg (show ¬ 48 < len by omega)]
      exact h4
    · cases h

/-- A property or object is put into a value that holds a NULL one. -/
theorem attach {A : Sheet} {s : State} (i : Rel A s) {v : Nat} {k : Part} {n : Nat} {c : Cell}
    (hv : A.val v = some (.part k none, n)) (hc : s.cell v = some c) {r : Nat} (hr : 0 < s.ref r) :
    ∃ s', (s.put v (some { c with ptr := some r })).retainRef r = .ok s' ∧
      Rel (A.set v (some (.part k (some r), n))) s' ∧ Frame v s s' := by
  obtain ⟨d, hd, hn, hpos, hlen, hrep⟩ := i.alive v _ n hv
  rw [hc] at hd
  cases hd
  have hlt := i.live v _ hv
  have htag : c.tag = .part k := hrep.1
  refine ⟨{ s.put v (some { c with ptr := some r }) with ref := upd s.ref r (s.ref r + 1) }, ?_, ?_, ?_⟩
  · show (if s.ref r = 0 then Res.ub else _) = _
    rw [if_neg (by omega)]
    rfl
  · have ho : ∀ u a, Owns { s.put v (some { c with ptr := some r }) with ref := upd s.ref r (s.ref r + 1) } u a →
        u ≠ v ∧ Owns s u a := by
      rintro u a ⟨d, hd, hb, hp⟩
      simp only [State.put, upd] at hd
      split at hd
      · cases hd
        simp only [htag] at hb
        cases hb
      · rename_i hu
        exact ⟨hu, d, hd, hb, hp⟩
    refine ⟨i.heap, i.next, ?_, ?_, ?_, ?_, ?_, ?_, i.nextRef, ?_⟩
    · intro u p hu
      simp only [Sheet.set, upd] at hu
      split at hu
      · rename_i e; subst e; exact hlt
      · exact i.live u p hu
    · intro u z m hu
      simp only [Sheet.set, upd] at hu
      simp only [State.put, upd]
      split at hu
      · rename_i e
        subst e
        cases hu
        exact ⟨_, if_pos rfl, hn, hpos, hlen, htag, rfl⟩
      · rename_i hne
        rw [if_neg hne]
        exact i.alive u z m hu
    · intro u hu
      simp only [Sheet.set, upd] at hu
      simp only [State.put, upd]
      split at hu
      · cases hu
      · rename_i hne
        rw [if_neg hne]
        exact i.dead u hu
    · intro u w a hu hw
      exact i.uniq u w a (ho u a hu).2 (ho w a hw).2
    · intro a ha
      obtain ⟨u, hu⟩ := i.owned a ha
      obtain ⟨d, h2, h3, h4⟩ := hu
      have hne : u ≠ v := fun e => by
        subst e
        rw [hc] at h2
        cases h2
        rw [htag] at h3
        cases h3
      exact ⟨u, d, by simp only [State.put, upd, if_neg hne]; exact h2, h3, h4⟩
    · intro q
      have e1 := holders_set hlt (some (.part k (some r), n)) q
      have e2 := i.refs q
      simp only [hv, refIs, Content.ref] at e1
      show upd s.ref r (s.ref r + 1) q = A.held q + (A.set v (some (.part k (some r), n))).holders q
      by_cases hq : q = r
      · subst hq
        rw [upd_same]
        simp at e1
        omega
      · have : ((some r : Option Nat) == some q) = false := by
          rw [beq_eq_false_iff_ne]; intro e; cases e; exact hq rfl
        rw [upd_other _ _ hq]
        simp [this] at e1
        omega
    · intro q hq
      have e := i.fresh q hq
      show upd s.ref r (s.ref r + 1) q = 0
      rw [upd_other _ _ (fun e' => by subst e'; omega)]
      exact e
  · intro u hu
    simp only [loc, State.put, upd, if_neg hu]

theorem setPart_none_rel {A : Sheet} {s : State} (i : Rel A s) {v : Nat} {x : Content} {n : Nat} (hv : A.val v = some (x, n))
    (k : Part) : ∃ s', setPart s v k none = .ok s' ∧ Rel (A.set v (some (.part k none, n))) s' ∧ Frame v s s' := by
  have hpos : 0 < n := by obtain ⟨_, _, _, h, _⟩ := i.alive v x n hv; exact h
  exact light_set (g := fun c => { c with tag := .part k, ptr := none }) i hv
    (fun c hn hlen => ⟨hn, hpos, clear_len hlen, trivial, fun h => ⟨rfl, rfl, clear_null⟩⟩)

theorem setPart_some_rel {A : Sheet} {s : State} (i : Rel A s) {v : Nat} {x : Content} {n : Nat} (hv : A.val v = some (x, n))
    (k : Part) {r : Nat} (hr : 0 < A.held r) :
    ∃ s', setPart s v k (some r) = .ok s' ∧ Rel (A.set v (some (.part k (some r), n))) s' ∧ Frame v s s' := by
  obtain ⟨c, hc, hn, hpos, hlen, hrep⟩ := i.alive v x n hv
  obtain ⟨s1, hd, _, _, _, href, h⟩ := detach i hv hc
  obtain ⟨h1, h2⟩ := h (some (.part k none, n)) (some { c.clear with tag := .part k, ptr := none })
    ⟨hn, hpos, clear_len hlen, trivial, fun h => ⟨rfl, rfl, clear_null⟩⟩
  have hv1 : (A.set v (some (.part k none, n))).val v = some (.part k none, n) := by simp [Sheet.set, upd]
  obtain ⟨s', h3, h4, h5⟩ := attach h1 hv1 (c := { c.clear with tag := .part k, ptr := none })
    (by simp [State.put, upd]) (r := r) (href r hr)
  rw [set_set] at h4
  refine ⟨s', ?_, h4, h2.trans h5⟩
  rw [put_put] at h3
  simp only [setPart, freeInternal, get_ok hc, hd, Res.ok_bind, Res.pure_eq]
  exact h3

/-- What is left in a cleared value. -/
def cleared (c : Cell) : Content → Content
  | .empty => .empty
  | .plain k _ => .plain k (c.clear.raw.take k.size)
  | .text _ => .text none
  | .bytes _ => .bytes none
  | .part k _ => .part k none

theorem cleared_light (c : Cell) (x : Content) : Light (cleared c x) := by cases x <;> exact trivial

theorem cleared_rep {h h' : Heap} {c : Cell} {x : Content} (r : Rep h c x) : Rep h' c.clear (cleared c x) := by
  have ht := rep_tag r
  cases x with
  | empty => exact ⟨ht, rfl, clear_null⟩
  | plain k bs => exact ⟨ht, rfl, rfl⟩
  | text t => exact ⟨ht, rfl, clear_null⟩
  | bytes t => exact ⟨ht, rfl, clear_null⟩
  | part k r => exact ⟨ht, rfl, clear_null⟩

theorem upd_val {A : Sheet} {v : Nat} {y : Option (Content × Nat)} : (A.set v y).val v = y := by simp [Sheet.set, upd]

theorem takeWhile_zero {t : Bytes} (h : (0 : UInt8) ∉ t) : (t ++ [0]).takeWhile (· ≠ 0) = t := by
  induction t with
  | nil => simp
  | cons b t ih =>
    simp only [List.mem_cons, not_or] at h
    rw [List.cons_append, List.takeWhile_cons, if_pos (by simp; exact fun e => h.1 e.symm), ih h.2]

theorem copy_rel {A : Sheet} {s : State} (i : Rel A s) {dest source : Nat} {x y : Content} {n m : Nat}
    (hne : dest ≠ source) (hs : A.val source = some (x, m)) (hd : A.val dest = some (y, n))
    (hx : ¬ (x.tag = .part .property ∨ x.tag = .part .object)) :
    ∃ s', copy s dest source = .ok s' ∧ Rel (A.set dest (some (x, n))) s' ∧ Frame dest s s' := by
  obtain ⟨c, hc, hn, hpos, hlen, hrep⟩ := i.alive dest y n hd
  obtain ⟨s1, hdr, _, hcell, _, _, h⟩ := detach i hd hc
  obtain ⟨i1, f1⟩ := h (some (cleared c y, n)) (some c.clear)
    ⟨hn, hpos, clear_len hlen, cleared_light c y, fun h => cleared_rep hrep⟩
  have hs1 : (A.set dest (some (cleared c y, n))).val source = some (x, m) := by
    simp only [Sheet.set, upd, if_neg (Ne.symm hne)]
    exact hs
  obtain ⟨cs, hcs, _, _, hlens, hreps⟩ := i1.alive source x m hs1
  have start : ∀ (f : State → Cell → Res State), (do
      let (s, d) ← freeInternal s dest
      let s := s.put dest (some d)
      let c ← s.get source
      f s c) = f (s1.put dest (some c.clear)) cs := by
    intro f
    simp only [freeInternal, get_ok hc, hdr, Res.ok_bind, Res.pure_eq, get_ok hcs]
  have hval : (A.set dest (some (cleared c y, n))).val dest = some (cleared c y, n) := upd_val
  have hcd : (s1.put dest (some c.clear)).cell dest = some c.clear := by simp [State.put, upd]
  have hnull : ∀ b : Bool, ∃ s', setNull (s1.put dest (some c.clear)) dest (if b then .string else .bytes) = .ok s' ∧
      Rel (A.set dest (some (if b then .text none else .bytes none, n))) s' ∧ Frame dest s s' := by
    intro b
    obtain ⟨s', h1, h2, h3⟩ := setNull_rel i1 hval b
    rw [set_set] at h2
    exact ⟨s', h1, h2, f1.trans h3⟩
  have plainCase : Light x → cs.tag ≠ .string → cs.tag ≠ .bytes → (∀ k, cs.tag ≠ .part k) →
      ∃ s', copy s dest source = .ok s' ∧ Rel (A.set dest (some (x, n))) s' ∧ Frame dest s s' := by
    intro hl h1 h2 h3
    obtain ⟨i2, f2⟩ := relight i1 hval hcd (cleared_light c y) (y := some (x, n))
      (c0 := some { c.clear with tag := cs.tag, ptr := cs.ptr, raw := cs.raw })
      ⟨hn, hpos, hlens, hl, fun h => by
        have := light_rep (h' := h) hl hreps
        match x, this with
        | .empty, r | .plain _ _, r | .text none, r | .bytes none, r | .part _ none, r => exact r⟩
    rw [set_set] at i2
    refine ⟨_, ?_, i2, f1.trans f2⟩
    unfold copy
    rw [if_neg hne]
    simp only [freeInternal, get_ok hc, hdr, Res.ok_bind, Res.pure_eq, get_ok hcs]
  match x, hs1, hreps, hx, plainCase with
  | .empty, _, r, _, pc => exact pc trivial (by simp [r.1]) (by simp [r.1]) (by simp [r.1])
  | .plain k bs, _, r, _, pc => exact pc trivial (by simp [r.1]) (by simp [r.1]) (by simp [r.1])
  | .part .property _, _, _, hx, _ => exact absurd (.inl rfl) hx
  | .part .object _, _, _, hx, _ => exact absurd (.inr rfl) hx
  | .text t, hs1, r, _, _ =>
    have htag : cs.tag = .string := rep_tag r
    have htext := textOf_text (s := s1.put dest (some c.clear)) rfl r
    have hcopy : copy s dest source = copyText (s1.put dest (some c.clear)) dest .string (t.map (· ++ [0])) := by
      unfold copy
      rw [if_neg hne]
      simp only [freeInternal, get_ok hc, hdr, Res.ok_bind, Res.pure_eq, get_ok hcs, htag, htext]
    rw [hcopy]
    cases t with
    | none => exact hnull true
    | some t =>
      have h0 : (0 : UInt8) ∉ t := r.2.1.1
      obtain ⟨s', h1, h2, h3⟩ := setText_rel i1 hval (light_ref (cleared_light c y)) r.2.1.2 h0
      rw [set_set] at h2
      refine ⟨s', ?_, h2, f1.trans h3⟩
      have e : cstring (t ++ [0]) = .ok t := by rw [cstring_ok (by simp), takeWhile_zero h0]
      simp only [Option.map_some, copyText, if_true, setString, Src.bytes, Res.ok_bind, e, Src.overlaps, Bool.false_eq_true, if_false, h1]
  | .bytes t, hs1, r, _, _ =>
    have htag : cs.tag = .bytes := rep_tag r
    have htext := textOf_bytes (s := s1.put dest (some c.clear)) rfl r
    have hcopy : copy s dest source = copyText (s1.put dest (some c.clear)) dest .bytes t := by
      unfold copy
      rw [if_neg hne]
      simp only [freeInternal, get_ok hc, hdr, Res.ok_bind, Res.pure_eq, get_ok hcs, htag, htext]
    rw [hcopy]
    cases t with
    | none => exact hnull false
    | some t =>
      obtain ⟨s', h1, h2, h3⟩ := setBin_rel i1 hval (light_ref (cleared_light c y)) r.2.1
      rw [set_set] at h2
      refine ⟨s', ?_, h2, f1.trans h3⟩
      simp only [copyText, reduceCtorEq, if_false, setBytes, Src.bytes, Res.ok_bind, Nat.lt_irrefl, if_false, Src.overlaps, Bool.false_eq_true, List.take_length, h1]

/-! ## One call -/

/-- The outcome of a call in the model, for an outcome in the specification. -/
def Follows (s : State) (op : Op) (A' : Sheet) (o : Out) : Prop :=
  ∃ s', step s op = .ok (s', o) ∧ Rel A' s' ∧ ∀ u, target op ≠ some u → A'.val u ≠ none → loc s' u = loc s u

theorem follows_quiet {s : State} {op : Op} {A' : Sheet} {v : Nat} {r : Res State} (hs : step s op = silent r)
    (ht : target op = some v) (h : ∃ s', r = .ok s' ∧ Rel A' s' ∧ Frame v s s') : Follows s op A' .done := by
  obtain ⟨s', h1, h2, h3⟩ := h
  exact ⟨s', by rw [hs, h1]; rfl, h2, fun u hu _ => h3 u (fun e => hu (by rw [ht, e]))⟩

theorem quiet_some {A : Option Sheet} {A' : Sheet} {o : Out} (h : quiet A = some (A', o)) : A = some A' ∧ o = .done := by
  cases A with
  | none => cases h
  | some A => cases h; exact ⟨rfl, rfl⟩

theorem follows_told {A : Sheet} {s : State} (i : Rel A s) {op : Op} {A' : Sheet} {o : Out} {r : Res Out} {v : Nat}
    {f : Content → Option Out} (h : A.ask v f = some (A', o)) (hs : step s op = told s r)
    (hr : ∀ x n c, A.val v = some (x, n) → s.get v = .ok c → Rep s.heap c x → f x = some o → r = .ok o) :
    Follows s op A' o := by
  unfold Sheet.ask at h
  cases hv : A.val v with
  | none => rw [hv] at h; cases h
  | some p =>
    rw [hv] at h
    simp only [Option.map_eq_some_iff, Prod.mk.injEq] at h
    obtain ⟨o', h1, rfl, rfl⟩ := h
    obtain ⟨c, hc, _, _, _, hrep⟩ := i.alive v p.1 p.2 hv
    exact ⟨s, by rw [hs, hr p.1 p.2 c hv (get_ok hc) hrep h1]; rfl, i, fun _ _ _ => rfl⟩

theorem buffered_tag : ∀ {x : Content}, x.tag.buffered = true → (∃ t, x = .text t) ∨ ∃ t, x = .bytes t
  | .text t, _ => .inl ⟨t, rfl⟩
  | .bytes t, _ => .inr ⟨t, rfl⟩

theorem map_dropLast (t : Option Bytes) : (t.map (· ++ [(0 : UInt8)])).map List.dropLast = t := by
  cases t with
  | none => rfl
  | some t => simp

/-- Every call that the specification allows does in the model what it says. -/
theorem step_rel {A A' : Sheet} {s : State} (i : Rel A s) {op : Op} {o : Out} (h : act A op = some (A', o)) :
    Follows s op A' o := by
  cases op with
  | new =>
    cases h
    have hnew : ∀ u, u ≠ s.next → loc (new s) u = loc s u := by
      intro u hu
      simp [loc, new, State.put, upd, hu]
    have hold : A.val A.next = none := by
      cases hv : A.val A.next with
      | none => rfl
      | some p => exact absurd (i.live _ _ hv) (by omega)
    have hcold : s.cell s.next = none := by rw [i.next]; exact i.dead _ hold
    have ho : ∀ u a, Owns (new s) u a ↔ Owns s u a := by
      intro u a
      by_cases hu : u = s.next
      · subst hu
        simp [Owns, new, State.put, upd, hcold]
      · simp [Owns, new, State.put, upd, hu]
    refine ⟨new s, rfl, ⟨i.heap, by simp [new, State.put, i.next], ?_, ?_, ?_, ?_, ?_, ?_, i.nextRef, i.fresh⟩, ?_⟩
    · intro u p hu
      simp only [Sheet.set, upd] at hu ⊢
      split at hu
      · omega
      · have := i.live u p hu; omega
    · intro u z m hu
      simp only [Sheet.set, upd] at hu
      simp only [new, State.put, upd, i.next]
      split at hu
      · cases hu
        rename_i e
        exact ⟨_, if_pos e, rfl, Nat.one_pos, by decide, rfl, rfl, rfl⟩
      · rename_i hne
        rw [if_neg hne]
        exact i.alive u z m hu
    · intro u hu
      simp only [Sheet.set, upd] at hu
      simp only [new, State.put, upd, i.next]
      split at hu
      · cases hu
      · rename_i hne
        rw [if_neg hne]
        exact i.dead u hu
    · intro u w a hu hw
      exact i.uniq u w a ((ho u a).mp hu) ((ho w a).mp hw)
    · intro a ha
      obtain ⟨u, hu⟩ := i.owned a ha
      exact ⟨u, (ho u a).mpr hu⟩
    · intro r
      have e := i.refs r
      have : ({ A.set A.next (some (.empty, 1)) with next := A.next + 1 } : Sheet).holders r = A.holders r := by
        unfold Sheet.holders
        rw [List.range_succ, List.countP_append]
        have e1 : ∀ u, u ∈ List.range A.next → (({ A.set A.next (some (.empty, 1)) with next := A.next + 1 } : Sheet).holds r u ↔
            A.holds r u) := by
          intro u hu
          rw [List.mem_range] at hu
          simp only [holds_refIs, Sheet.set, upd, if_neg (show ¬ u = A.next by omega)]
        rw [List.countP_congr e1]
        simp [holds_refIs, Sheet.set, upd, refIs, Content.ref]
      show s.ref r = A.held r + _
      rw [this]
      exact e
    · intro u _ hu
      by_cases he : u = s.next
      · subst he
        simp [loc, new, State.put, upd, hcold, Tag.buffered]
      · exact hnew u he
  | retain v =>
    simp only [act] at h
    cases hv : A.val v with
    | none => rw [hv] at h; cases h
    | some p =>
      rw [hv] at h
      cases h
      obtain ⟨c, hc, hn, hpos, hlen, hrep⟩ := i.alive v p.1 p.2 hv
      obtain ⟨h1, h2⟩ := recount i hv hc (m := p.2 + 1) (by omega)
      refine ⟨_, ?_, h1, fun u _ _ => h2 u⟩
      simp only [step, silent, retain, get_ok hc, Res.ok_bind, Res.pure_eq, hn]
  | release v =>
    simp only [act] at h
    cases hv : A.val v with
    | none => rw [hv] at h; cases h
    | some p =>
      obtain ⟨x, n⟩ := p
      rw [hv] at h
      cases h
      obtain ⟨c, hc, hn, hpos, hlen, hrep⟩ := i.alive v x n hv
      by_cases h1 : n = 1
      · obtain ⟨s1, hd, _, _, _, _, hd'⟩ := detach i hv hc
        obtain ⟨h2, h3⟩ := hd' none none trivial
        rw [if_pos h1]
        refine ⟨_, ?_, h2, fun u _ hu => h3 u (fun e => hu (by rw [e]; exact upd_val))⟩
        simp only [step, silent, release, get_ok hc, Res.ok_bind, hn, if_pos h1, freeInternal, hd, Res.pure_eq]
      · obtain ⟨h2, h3⟩ := recount i hv hc (m := n - 1) (by omega)
        rw [if_neg h1]
        refine ⟨_, ?_, h2, fun u _ _ => h3 u⟩
        simp only [step, silent, release, get_ok hc, Res.ok_bind, hn, if_neg h1, Res.pure_eq]
  | setPlain v k bs =>
    simp only [act] at h
    obtain ⟨hq, rfl⟩ := quiet_some h
    replace h := hq
    split at h
    · rename_i hb
      obtain ⟨x, n, hv, rfl⟩ := fill_some h
      exact follows_quiet rfl rfl (setPlain_rel i hv (hb.trans (width_size k)))
    · cases h
  | setString v src =>
    obtain ⟨hq, rfl⟩ := quiet_some h
    replace h := hq
    exact follows_quiet rfl rfl (setString_rel i h)
  | setBytes v src len =>
    obtain ⟨hq, rfl⟩ := quiet_some h
    replace h := hq
    exact follows_quiet rfl rfl (setBytes_rel i h)
  | setNull v b =>
    obtain ⟨hq, rfl⟩ := quiet_some h
    replace h := hq
    obtain ⟨x, n, hv, rfl⟩ := fill_some h
    exact follows_quiet rfl rfl (setNull_rel i hv b)
  | setPart v k r =>
    simp only [act] at h
    obtain ⟨hq, rfl⟩ := quiet_some h
    replace h := hq
    cases r with
    | none =>
      obtain ⟨x, n, hv, rfl⟩ := fill_some h
      exact follows_quiet rfl rfl (setPart_none_rel i hv k)
    | some r =>
      simp only at h
      split at h
      · rename_i hr
        obtain ⟨x, n, hv, rfl⟩ := fill_some h
        exact follows_quiet rfl rfl (setPart_some_rel i hv k hr)
      · cases h
  | setTLV v t len src =>
    simp only [act] at h
    obtain ⟨hq, rfl⟩ := quiet_some h
    replace h := hq
    cases t with
    | string => exact follows_quiet rfl rfl (setString_rel i h)
    | bytes => exact follows_quiet rfl rfl (setBytes_rel i h)
    | plain k => exact follows_quiet rfl rfl (setTLV_rel i h)
    | empty => cases h
    | part k => cases h
  | copy dest source =>
    simp only [act] at h
    cases hv : A.val source with
    | none => rw [hv] at h; cases h
    | some p =>
      obtain ⟨x, m⟩ := p
      rw [hv] at h
      simp only at h
      split at h
      · rename_i he
        cases h
        subst he
        obtain ⟨c, hc, _⟩ := i.alive dest x m hv
        exact ⟨s, by simp [step, silent, copy, get_ok hc], i, fun _ _ _ => rfl⟩
      · rename_i hne
        split at h
        · cases h
        · rename_i hx
          obtain ⟨hq, rfl⟩ := quiet_some h
          replace h := hq
          obtain ⟨y, n, hd, rfl⟩ := fill_some h
          exact follows_quiet rfl rfl (copy_rel i hne hv hd hx)
  | newPart =>
    cases h
    have h0 : s.ref s.nextRef = 0 := i.fresh _ (Nat.le_refl _)
    have hh := i.refs s.nextRef
    refine ⟨_, rfl, ⟨i.heap, i.next, i.live, i.alive, i.dead, i.uniq, i.owned, ?_, by rw [i.nextRef], ?_⟩, fun _ _ _ => rfl⟩
    · intro r
      show upd s.ref s.nextRef 1 r = upd A.held A.nextRef 1 r + A.holders r
      rw [i.nextRef] at h0 hh ⊢
      by_cases hr : r = A.nextRef
      · subst hr
        rw [upd_same, upd_same]
        omega
      · rw [upd_other _ _ hr, upd_other _ _ hr]
        exact i.refs r
    · intro r hr
      simp only at hr ⊢
      rw [upd_other _ _ (by omega)]
      exact i.fresh r (by omega)
  | grab v k =>
    simp only [act] at h
    cases hv : A.val v with
    | none => rw [hv] at h; cases h
    | some p =>
      obtain ⟨x, n⟩ := p
      rw [hv] at h
      obtain ⟨c, hc, hn, hpos, hlen, hrep⟩ := i.alive v x n hv
      match x, h, hrep with
      | .part k' none, h, r =>
        simp only at h
        split at h
        · rename_i hk
          cases h
          subst hk
          exact ⟨s, by simp [step, silent, grab, get_ok hc, r.1, r.2.2], i, fun _ _ _ => rfl⟩
        · cases h
      | .part k' (some q), h, r =>
        simp only at h
        split at h
        · rename_i hk
          cases h
          subst hk
          have hq : 0 < s.ref q := by
            rw [i.refs q]
            have := holders_set (i.live v _ hv) none q
            simp only [hv, refIs, Content.ref, beq_self_eq_true, Bool.toNat_true, Bool.toNat_false] at this
            omega
          refine ⟨{ s with ref := upd s.ref q (s.ref q + 1) }, ?_,
            ⟨i.heap, i.next, i.live, i.alive, i.dead, i.uniq, i.owned, ?_, i.nextRef, ?_⟩, fun _ _ _ => rfl⟩
          · simp only [step, silent, grab, get_ok hc, Res.ok_bind, r.1, if_true, Cell.pointer, r.2, State.retainRef,
              if_neg (show ¬ s.ref q = 0 by omega), Res.pure_eq]
          · intro j
            show upd s.ref q (s.ref q + 1) j = upd A.held q (A.held q + 1) j + A.holders j
            by_cases hj : j = q
            · subst hj
              rw [upd_same, upd_same]
              have := i.refs j
              omega
            · rw [upd_other _ _ hj, upd_other _ _ hj]
              exact i.refs j
          · intro j hj
            have := i.fresh j hj
            show upd s.ref q (s.ref q + 1) j = 0
            rw [upd_other _ _ (fun e => by subst e; omega)]
            exact this
        · cases h
      | .empty, h, _ => cases h
      | .plain _ _, h, _ => cases h
      | .text _, h, _ => cases h
      | .bytes _, h, _ => cases h
  | releasePart q =>
    simp only [act] at h
    split at h
    · rename_i hq
      cases h
      have hr := i.refs q
      refine ⟨{ s with ref := upd s.ref q (s.ref q - 1) }, ?_,
        ⟨i.heap, i.next, i.live, i.alive, i.dead, i.uniq, i.owned, ?_, i.nextRef, ?_⟩, fun _ _ _ => rfl⟩
      · simp only [step, silent, State.releaseRef, if_neg (show ¬ s.ref q = 0 by omega), Res.ok_bind, Res.pure_eq]
      · intro j
        show upd s.ref q (s.ref q - 1) j = upd A.held q (A.held q - 1) j + A.holders j
        by_cases hj : j = q
        · subst hj
          rw [upd_same, upd_same]
          omega
        · rw [upd_other _ _ hj, upd_other _ _ hj]
          exact i.refs j
      · intro j hj
        have := i.fresh j hj
        show upd s.ref q (s.ref q - 1) j = 0
        by_cases e : j = q
        · subst e; rw [upd_same]; omega
        · rw [upd_other _ _ e]; exact this
    · cases h
  | getType v =>
    refine follows_told i h rfl (fun x n c hv hg hr hf => ?_)
    cases hf
    simp only [hg, Res.ok_bind, Res.pure_eq, rep_tag hr]
  | getPlain v k =>
    refine follows_told i h rfl (fun x n c hv hg hr hf => ?_)
    have ht := rep_tag hr
    simp only [getPlain, hg, Res.ok_bind, Res.pure_eq]
    match x, hr, hf, ht with
    | .plain k' bs, r, hf, ht =>
      cases hf
      by_cases hk : k' = k
      · subst hk
        simp [ht, Content.tag, r.2.2]
      · simp [ht, Content.tag, hk]
    | .empty, _, hf, ht => cases hf; simp [ht, Content.tag]
    | .text _, _, hf, ht => cases hf; simp [ht, Content.tag]
    | .bytes _, _, hf, ht => cases hf; simp [ht, Content.tag]
    | .part _ _, _, hf, ht => cases hf; simp [ht, Content.tag]
  | getString v =>
    refine follows_told i h rfl (fun x n c hv hg hr hf => ?_)
    have ht := rep_tag hr
    simp only [getString, hg, Res.ok_bind]
    match x, hr, hf, ht with
    | .text t, r, hf, ht =>
      cases hf
      have := textOf_text (s := s) rfl r
      simp only [ht, Content.tag, Tag.buffered, if_true, this, Res.ok_bind, map_dropLast, Res.pure_eq, textTold, List.append_nil,
        Option.map_id']
    | .bytes t, r, hf, ht =>
      cases hf
      have := textOf_bytes (s := s) rfl r
      simp [ht, Content.tag, Tag.buffered, this, textTold]
    | .empty, _, hf, ht => cases hf; simp [ht, Content.tag, Tag.buffered, textTold]
    | .plain _ _, _, hf, ht => cases hf; simp [ht, Content.tag, Tag.buffered, textTold]
    | .part _ _, _, hf, ht => cases hf; simp [ht, Content.tag, Tag.buffered, textTold]
  | getStringAny v =>
    refine follows_told i h rfl (fun x n c hv hg hr hf => ?_)
    have ht := rep_tag hr
    simp only [getStringAny, hg, Res.ok_bind]
    match x, hr, hf, ht with
    | .text t, r, hf, ht =>
      cases hf
      have := textOf_text (s := s) rfl r
      simp only [ht, Content.tag, if_true, this, Res.ok_bind, map_dropLast, Res.pure_eq]
    | .bytes t, r, hf, ht =>
      cases hf
      have := textOf_bytes (s := s) rfl r
      simp [ht, Content.tag, this]
    | .empty, r, hf, ht => cases hf; simp [ht, Content.tag, textOf, r.2.2]
    | .part _ none, r, hf, ht => cases hf; simp [ht, Content.tag, textOf, r.2.2]
    | .part _ (some _), _, hf, ht => cases hf
    | .plain _ _, _, hf, ht => cases hf
  | getBytes v =>
    refine follows_told i h rfl (fun x n c hv hg hr hf => ?_)
    have ht := rep_tag hr
    simp only [getBytes, hg, Res.ok_bind]
    match x, hr, hf, ht with
    | .text t, r, hf, ht =>
      cases hf
      have := textOf_text (s := s) rfl r
      simp only [ht, Content.tag, Tag.buffered, if_true, this, Res.ok_bind, Res.pure_eq, textTold]
    | .bytes t, r, hf, ht =>
      cases hf
      have := textOf_bytes (s := s) rfl r
      simp [ht, Content.tag, Tag.buffered, this, textTold]
    | .empty, _, hf, ht => cases hf; simp [ht, Content.tag, Tag.buffered, textTold]
    | .plain _ _, _, hf, ht => cases hf; simp [ht, Content.tag, Tag.buffered, textTold]
    | .part _ _, _, hf, ht => cases hf; simp [ht, Content.tag, Tag.buffered, textTold]
  | getPart v k =>
    refine follows_told i h rfl (fun x n c hv hg hr hf => ?_)
    have ht := rep_tag hr
    simp only [getPart, hg, Res.ok_bind]
    match x, hr, hf, ht with
    | .part k' none, r, hf, ht =>
      cases hf
      by_cases hk : k' = k
      · subst hk
        simp [ht, Content.tag, r.2.2, Ptr.part]
      · simp [ht, Content.tag, hk]
    | .part k' (some q), r, hf, ht =>
      cases hf
      by_cases hk : k' = k
      · subst hk
        simp [ht, Content.tag, Cell.pointer, r.2, Ptr.part]
      · simp [ht, Content.tag, hk]
    | .empty, _, hf, ht => cases hf; simp [ht, Content.tag]
    | .text _, _, hf, ht => cases hf; simp [ht, Content.tag]
    | .bytes _, _, hf, ht => cases hf; simp [ht, Content.tag]
    | .plain _ _, _, hf, ht => cases hf; simp [ht, Content.tag]
  | getTLV v =>
    refine follows_told i h rfl (fun x n c hv hg hr hf => ?_)
    obtain ⟨bs, hd, rfl⟩ := Option.map_eq_some_iff.mp hf
    simp only [getTLV, hg, bytesOf_rel i hv hd, Res.ok_bind, Res.pure_eq, rep_tag hr]

/-! ## Programs -/

theorem init_rel : Rel Sheet.init State.init where
  heap := ⟨fun _ _ h => (by cases h), fun _ _ h => (by cases h), fun _ _ h => (by cases h), fun _ _ _ h => (by cases h),
    fun _ _ _ _ _ h => (by cases h)⟩
  next := rfl
  live := fun _ _ h => by cases h
  alive := fun _ _ _ h => by cases h
  dead := fun _ _ => rfl
  uniq := fun _ _ _ h => by obtain ⟨_, h, _⟩ := h; cases h
  owned := fun _ h => absurd rfl h
  refs := fun _ => rfl
  nextRef := rfl
  fresh := fun _ _ => rfl

theorem run_rel : ∀ {ops : List Op} {A A' : Sheet} {s : State} {os : List Out}, Rel A s →
    Spec.Cells.run A ops = some (A', os) → ∃ s', run s ops = .ok (s', os) ∧ Rel A' s'
  | [], A, A', s, os, i, h => by
    cases h
    exact ⟨s, rfl, i⟩
  | op :: ops, A, A', s, os, i, h => by
    unfold Spec.Cells.run at h
    cases ha : act A op with
    | none => rw [ha] at h; cases h
    | some p =>
      rw [ha] at h
      simp only at h
      cases hr : Spec.Cells.run p.1 ops with
      | none => rw [hr] at h; cases h
      | some q =>
        rw [hr] at h
        cases h
        obtain ⟨s1, h1, i1, _⟩ := step_rel i ha
        obtain ⟨s2, h2, i2⟩ := run_rel i1 hr
        exact ⟨s2, by simp only [run, h1, h2, Res.ok_bind, Res.pure_eq], i2⟩

/-- What a call changes in the specification. -/
inductive Shape (A A' : Sheet) (op : Op) : Prop where
  | same (h : A'.val = A.val) (hn : A'.next = A.next)
  | fill (v : Nat) (x y : Content) (n : Nat) (ht : target op = some v) (hv : A.val v = some (x, n)) (h : A' = A.set v (some (y, n)))
  | count (v : Nat) (x : Content) (n : Nat) (y : Option (Content × Nat)) (hv : A.val v = some (x, n))
      (hy : y = none ∨ ∃ m, y = some (x, m)) (h : A' = A.set v y)
  | new (h : A'.val = upd A.val A.next (some (.empty, 1))) (hn : A'.next = A.next + 1)

theorem act_shape {A A' : Sheet} {op : Op} {o : Out} (h : act A op = some (A', o)) : Shape A A' op := by
  have fin : ∀ {v : Nat} {y : Content}, target op = some v → A.fill v y = some A' → Shape A A' op := fun ht h => by
    obtain ⟨x, n, hv, h⟩ := fill_some h
    exact .fill _ x _ n ht hv h
  have told : ∀ {v : Nat} {f : Content → Option Out}, A.ask v f = some (A', o) → Shape A A' op := by
    intro v f h
    unfold Sheet.ask at h
    split at h
    · simp only [Option.map_eq_some_iff, Prod.mk.injEq] at h
      obtain ⟨o', h1, rfl, rfl⟩ := h
      exact .same rfl rfl
    · cases h
  have text : ∀ {v : Nat} {src : Src}, target op = some v → setText A v src = some A' → Shape A A' op := by
    intro v src ht h
    unfold setText at h
    split at h
    · simp only at h
      split at h
      · exact fin ht h
      · cases h
    · cases h
  have bin : ∀ {v : Nat} {src : Src} {len : Nat}, target op = some v → Spec.Cells.setBytes A v src len = some A' → Shape A A' op := by
    intro v src len ht h
    unfold Spec.Cells.setBytes at h
    split at h
    · split at h
      · exact fin ht h
      · cases h
    · cases h
  cases op with
  | new => cases h; exact .new rfl rfl
  | retain v =>
    simp only [act] at h
    split at h
    · rename_i x n hv
      cases h
      exact .count v x n _ hv (.inr ⟨_, rfl⟩) rfl
    · cases h
  | release v =>
    simp only [act] at h
    split at h
    · rename_i x n hv
      cases h
      refine .count v x n _ hv ?_ rfl
      split
      · exact .inl rfl
      · exact .inr ⟨_, rfl⟩
    · cases h
  | setPlain v k bs =>
    obtain ⟨hq, rfl⟩ := quiet_some h
    split at hq
    · exact fin rfl hq
    · cases hq
  | setString v src => exact text rfl (quiet_some h).1
  | setBytes v src len => exact bin rfl (quiet_some h).1
  | setNull v b => exact fin rfl (quiet_some h).1
  | setPart v k r =>
    obtain ⟨hq, rfl⟩ := quiet_some h
    cases r with
    | none => exact fin rfl hq
    | some r =>
      simp only at hq
      split at hq
      · exact fin rfl hq
      · cases hq
  | setTLV v t len src =>
    obtain ⟨hq, rfl⟩ := quiet_some h
    cases t with
    | string => exact text rfl hq
    | bytes => exact bin rfl hq
    | plain k =>
      simp only [Spec.Cells.setPlain] at hq
      split at hq
      · split at hq
        · exact fin rfl hq
        · cases hq
      · cases hq
    | empty => cases hq
    | part k => cases hq
  | copy dest source =>
    simp only [act] at h
    split at h
    · split at h
      · cases h; exact .same rfl rfl
      · split at h
        · cases h
        · exact fin rfl (quiet_some h).1
    · cases h
  | newPart => cases h; exact .same rfl rfl
  | grab v k =>
    simp only [act] at h
    split at h
    · split at h
      · cases h
        split <;> exact .same rfl rfl
      · cases h
    · cases h
  | releasePart q =>
    simp only [act] at h
    split at h
    · cases h; exact .same rfl rfl
    · cases h
  | getType v => exact told h
  | getPlain v k => exact told h
  | getString v => exact told h
  | getStringAny v => exact told h
  | getBytes v => exact told h
  | getPart v k => exact told h
  | getTLV v => exact told h

theorem shape_next {A A' : Sheet} {op : Op} (h : Shape A A' op) : A.next ≤ A'.next := by
  cases h with
  | same h hn => omega
  | fill v x y n ht hv h => subst h; exact Nat.le_refl _
  | count v x n y hv hy h => subst h; exact Nat.le_refl _
  | new h hn => omega

/-- What is freed stays freed. -/
theorem act_dead {A A' : Sheet} {op : Op} {o : Out} {u : Nat} (h : act A op = some (A', o)) (hu : A.val u = none)
    (hl : u < A.next) : A'.val u = none ∧ u < A'.next := by
  have hs := act_shape h
  have hn := shape_next hs
  refine ⟨?_, by omega⟩
  have other : ∀ {v p y}, A.val v = some p → A' = A.set v y → A'.val u = none := by
    rintro v p y hv rfl
    simp only [Sheet.set, upd]
    split
    · rename_i e; subst e; rw [hu] at hv; cases hv
    · exact hu
  cases hs with
  | same h hn => rw [h]; exact hu
  | fill v x y n ht hv h => exact other hv h
  | count v x n y hv hy h => exact other hv h
  | new h hn => rw [h, upd_other _ _ (by omega)]; exact hu

/-- What is not set keeps what it holds. -/
theorem act_keep {A A' : Sheet} {op : Op} {o : Out} {u n : Nat} {x : Content} (h : act A op = some (A', o))
    (hu : A.val u = some (x, n)) (hl : u < A.next) (ht : target op ≠ some u) :
    A'.val u = none ∨ ∃ m, A'.val u = some (x, m) := by
  cases act_shape h with
  | same h hn => rw [h]; exact .inr ⟨n, hu⟩
  | fill v z y m ht' hv h =>
    subst h
    have : u ≠ v := fun e => ht (by rw [ht', e])
    exact .inr ⟨n, by simp only [Sheet.set, upd_other _ _ this]; exact hu⟩
  | count v z m y hv hy h =>
    subst h
    by_cases e : u = v
    · subst e
      rw [hu] at hv
      cases hv
      simp only [Sheet.set, upd_same]
      exact hy
    · exact .inr ⟨n, by simp only [Sheet.set, upd_other _ _ e]; exact hu⟩
  | new h hn => rw [h, upd_other _ _ (by omega)]; exact .inr ⟨n, hu⟩

theorem run_dead : ∀ {ops : List Op} {A A' : Sheet} {os : List Out} {u : Nat}, Spec.Cells.run A ops = some (A', os) →
    A.val u = none → u < A.next → A'.val u = none
  | [], A, A', os, u, h, hu, hl => by cases h; exact hu
  | op :: ops, A, A', os, u, h, hu, hl => by
    unfold Spec.Cells.run at h
    cases ha : act A op with
    | none => rw [ha] at h; cases h
    | some p =>
      rw [ha] at h
      simp only at h
      cases hr : Spec.Cells.run p.1 ops with
      | none => rw [hr] at h; cases h
      | some q =>
        rw [hr] at h
        cases h
        obtain ⟨h1, h2⟩ := act_dead ha hu hl
        exact run_dead hr h1 h2

/-- A value that is not set and not freed holds the same, at the same place. -/
theorem run_loc : ∀ {ops : List Op} {A A' : Sheet} {s s' : State} {os os' : List Out} {u n : Nat} {x : Content}, Rel A s →
    Spec.Cells.run A ops = some (A', os) → run s ops = .ok (s', os') → (∀ op ∈ ops, target op ≠ some u) →
    A.val u = some (x, n) → A'.val u ≠ none → loc s' u = loc s u ∧ ∃ m, A'.val u = some (x, m)
  | [], A, A', s, s', os, os', u, n, x, i, h, hm, _, h0, _ => by
    cases hm
    cases h
    exact ⟨rfl, n, h0⟩
  | op :: ops, A, A', s, s', os, os', u, n, x, i, h, hm, ht, h0, hu => by
    unfold Spec.Cells.run at h
    cases ha : act A op with
    | none => rw [ha] at h; cases h
    | some p =>
      rw [ha] at h
      simp only at h
      cases hr : Spec.Cells.run p.1 ops with
      | none => rw [hr] at h; cases h
      | some q =>
        rw [hr] at h
        cases h
        obtain ⟨s1, h1, i1, h2⟩ := step_rel i ha
        obtain ⟨s2, h3, _⟩ := run_rel i1 hr
        simp only [run, h1, h3, Res.ok_bind, Res.pure_eq, Res.ok.injEq, Prod.mk.injEq] at hm
        obtain ⟨rfl, _⟩ := hm
        have hl := i.live u _ h0
        rcases act_keep ha h0 hl (ht op List.mem_cons_self) with hn | ⟨m, hm⟩
        · exact absurd (run_dead hr hn (Nat.lt_of_lt_of_le hl (shape_next (act_shape ha)))) hu
        · obtain ⟨h4, h5⟩ := run_loc i1 hr h3 (fun o ho => ht o (List.mem_cons_of_mem _ ho)) hm hu
          exact ⟨by rw [h4, h2 u (ht op List.mem_cons_self) (by rw [hm]; exact Option.some_ne_none _)], h5⟩

theorem loc_text {A : Sheet} {s : State} (i : Rel A s) {v n : Nat} {x : Content} {t bs : Bytes} (hv : A.val v = some (x, n))
    (hx : (x = .text (some t) ∧ bs = t ++ [0]) ∨ (x = .bytes (some t) ∧ bs = t)) :
    ∃ l, pointerTo s v = .ok l ∧ loc s v = some l ∧ s.heap.read l = .ok bs := by
  obtain ⟨c, hc, _, _, _, hrep⟩ := i.alive v x n hv
  rcases hx with ⟨rfl, rfl⟩ | ⟨rfl, rfl⟩
  · obtain ⟨h1, _, a, l, h2, h3⟩ := hrep
    obtain ⟨h4, h5⟩ := view_read h3
    exact ⟨l, by simp [pointerTo, get_ok hc, Cell.pointer, h2, h4], by simp [loc, hc, h1, Tag.buffered, h2, h3], h5⟩
  · obtain ⟨h1, _, a, l, h2, h3⟩ := hrep
    obtain ⟨h4, h5⟩ := view_read h3
    exact ⟨l, by simp [pointerTo, get_ok hc, Cell.pointer, h2, h4], by simp [loc, hc, h1, Tag.buffered, h2, h3], h5⟩

end Verif.Cells
