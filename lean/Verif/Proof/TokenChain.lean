import Verif.Model.TokenChain
import Verif.Spec.EventName

/-!
# Token chains: making and matching
-/

namespace Verif.TokenChain

open Verif Verif.Element
open Verif.Spec.EventName (Part Step addresses dotted written Proper AllProper IsRowNumber number stepsUp
  path belowTable)

theorem belowTable_eq (l : List Info) : belowTable l = parentIsTable l := by
  match l with
  | [] => rfl
  | [_] => rfl
  | _ :: _ :: _ => rfl

theorem addresses_length : ∀ ps ss, addresses ps ss = true → ps.length = ss.length
  | [], [], _ => rfl
  | _ :: ps, _ :: ss, h => by
    simp only [addresses, Bool.and_eq_true] at h
    simp [addresses_length ps ss h.2]
  | [], _ :: _, h => by simp [addresses] at h
  | _ :: _, [], h => by simp [addresses] at h

theorem addresses_snoc (p : Part) (s : Step) : ∀ ps ss,
    addresses (ps ++ [p]) (ss ++ [s]) = (p.fits s && addresses ps ss)
  | [], [] => by simp [addresses]
  | q :: ps, t :: ss => by
    simp only [List.cons_append, addresses, addresses_snoc p s ps ss]
    cases q.fits t <;> cases p.fits s <;> simp
  | [], t :: ss => by
    cases ss <;> simp [addresses]
  | q :: ps, [] => by
    cases ps <;> simp [addresses]

theorem addresses_reverse : ∀ ps ss, addresses ps.reverse ss.reverse = addresses ps ss
  | [], [] => rfl
  | p :: ps, s :: ss => by
    simp only [List.reverse_cons, addresses_snoc, addresses, addresses_reverse ps ss]
  | [], s :: ss => by
    simp only [addresses]
    rw [Bool.eq_false_iff]
    intro h
    have := addresses_length _ _ h
    simp at this
  | p :: ps, [] => by
    simp only [addresses]
    rw [Bool.eq_false_iff]
    intro h
    have := addresses_length _ _ h
    simp at this

theorem allProper_length : ∀ ps ss, AllProper ps ss → ps.length = ss.length
  | [], [], _ => rfl
  | _ :: ps, _ :: ss, h => by simp [allProper_length ps ss h.2]
  | [], _ :: _, h => h.elim
  | _ :: _, [], h => h.elim

theorem allProper_append : ∀ ps ss p s, AllProper ps ss → Proper p s →
    AllProper (ps ++ [p]) (ss ++ [s])
  | [], [], _, _, _, h => ⟨h, trivial⟩
  | _ :: ps, _ :: ss, p, s, h, hp => ⟨h.1, allProper_append ps ss p s h.2 hp⟩
  | [], _ :: _, _, _, h, _ => h.elim
  | _ :: _, [], _, _, h, _ => h.elim

theorem allProper_reverse : ∀ ps ss, AllProper ps ss → AllProper ps.reverse ss.reverse
  | [], [], _ => trivial
  | p :: ps, s :: ss, h => by
    simp only [List.reverse_cons]
    exact allProper_append _ _ _ _ (allProper_reverse ps ss h.2) h.1
  | [], _ :: _, h => h.elim
  | _ :: _, [], h => h.elim

/-! ### Numbers -/

theorem digitsVal_fold (t : Bytes) : ∀ v, (∀ c ∈ t, 48 ≤ c.toNat ∧ c.toNat ≤ 57) →
    digitsVal v t = t.foldl (fun v c => v * 10 + (c.toNat - 48)) v := by
  induction t with
  | nil => intro v _; rfl
  | cons c cs ih =>
    intro v h
    rw [digitsVal, if_pos (h c (by simp)), List.foldl_cons]
    exact ih _ (fun d hd => h d (by simp [hd]))

theorem digitsVal_number (t : Bytes) (h : ∀ c ∈ t, 48 ≤ c.toNat ∧ c.toNat ≤ 57) :
    digitsVal 0 t = number t := digitsVal_fold t 0 h

theorem isRowNumber_head {t : Bytes} (h : IsRowNumber t) :
    ∃ c cs, t = c :: cs ∧ 48 ≤ c.toNat ∧ c.toNat ≤ 57 := by
  obtain ⟨hne, hd, -⟩ := h
  match t, hne with
  | c :: cs, _ => exact ⟨c, cs, rfl, hd c (by simp)⟩

theorem atoiPos_row {t : Bytes} (h : IsRowNumber t) : atoiPos t = true := by
  obtain ⟨c, cs, rfl, h1, h2⟩ := isRowNumber_head h
  obtain ⟨-, hd, hp, hlt⟩ := h
  have hsp : isSpace c = false := by
    simp only [isSpace, Bool.or_eq_false_iff, decide_eq_false_iff_not]
    refine ⟨?_, ?_⟩
    · rintro rfl; simp at h1
    · simp only [Bool.and_eq_false_iff, decide_eq_false_iff_not]; omega
  have hne1 : c ≠ 45 := by rintro rfl; simp at h1
  have hne2 : c ≠ 43 := by rintro rfl; simp at h1
  have hdw : (c :: cs).dropWhile isSpace = c :: cs := by
    rw [List.dropWhile_cons, hsp]; rfl
  unfold atoiPos
  rw [hdw]
  simp only
  split
  · next r he => simp at he; exact (hne1 he.1).elim
  · next r he => simp at he; exact (hne2 he.1).elim
  · simp only [Bool.false_eq_true, if_false, decide_eq_true_eq]
    rw [digitsVal_number _ hd]
    generalize number (c :: cs) = n at *
    have : min ((n : Nat) : Int) (2 ^ 63 - 1) = (n : Nat) := by omega
    rw [this, Int.bmod_eq_of_le (by omega) (by omega)]
    omega

/-! ### Making the chain -/

/-- The token made for a part at a registered step. -/
def tokOf (p : Part) (type : Nat) (row : Bool) : Token :=
  match p with
  | .exactly t => ⟨t, if row then .instNum else .nonRow, type, row⟩
  | .anyRow => ⟨star, .wildcard, type, row⟩
  | .rowCalled a => ⟨a ++ [0], .alias, type, row⟩

theorem cut_close : ∀ a : Bytes, 93 ∉ a → cut (a ++ [93]) = some (a ++ [0])
  | [], _ => rfl
  | c :: cs, h => by
    simp only [List.mem_cons, not_or] at h
    rw [List.cons_append, cut, if_neg (Ne.symm h.1), cut_close cs h.2]
    rfl

theorem classify_proper {p : Part} {s : Step} (hp : Proper p s) (type : Nat) (later : List Token) :
    classify p.text type s.row later = .ok (tokOf p type s.row, later) := by
  cases p with
  | exactly t =>
    obtain ⟨hne, hdot, hnul, hrow⟩ := hp
    simp only [Part.text, tokOf]
    cases hr : s.row with
    | false => simp [classify]
    | true =>
      have hn := hrow hr
      obtain ⟨c, cs, rfl, h1, h2⟩ := isRowNumber_head hn
      have hpos := atoiPos_row hn
      have hne1 : c ≠ 91 := by rintro rfl; simp at h2
      have hne2 : (c :: cs) ≠ star := by
        intro h; simp only [star, List.cons.injEq] at h; obtain ⟨rfl, -⟩ := h; simp at h1
      unfold classify
      rw [if_pos rfl]
      split
      next m heq => simp only [List.cons.injEq] at heq; exact (hne1 heq.1).elim
      next => rw [if_neg hne2, if_pos hpos]; rfl
  | anyRow =>
    have hr : s.row = true := hp
    simp [Part.text, tokOf, hr, classify, star]
  | rowCalled a =>
    obtain ⟨hr, hne, hdot, hnul, hbr⟩ := hp
    cases a with
    | nil => exact (hne rfl).elim
    | cons c r =>
      simp only [List.mem_cons, not_or] at hbr
      simp only [Part.text, tokOf, hr, classify, if_true, List.cons_append]
      rw [cut_close r hbr.2]

/-- The name up to a part, reversed; parts from the last one. -/
def back : List Part → Bytes
  | [] => []
  | [p] => p.text.reverse
  | p :: q :: ps => p.text.reverse ++ dot :: back (q :: ps)

theorem dotted_snoc : ∀ (ts : List Bytes) (u : Bytes), ts ≠ [] → dotted (ts ++ [u]) = dotted ts ++ 46 :: u
  | [t], u, _ => rfl
  | t :: v :: ts, u, _ => by
    have := dotted_snoc (v :: ts) u (by simp)
    simp only [List.cons_append] at this ⊢
    rw [dotted, this, dotted]
    simp
  | [], _, h => (h rfl).elim

theorem back_eq : ∀ ps : List Part, (dotted (ps.reverse.map Part.text)).reverse = back ps
  | [] => rfl
  | [p] => by simp [dotted, back]
  | p :: q :: ps => by
    have ih := back_eq (q :: ps)
    rw [List.reverse_cons, List.map_append, List.map_singleton, dotted_snoc _ _ (by simp),
      List.reverse_append, ih, back]
    simp [dot]

theorem text_ne {p : Part} {s : Step} (hp : Proper p s) : p.text ≠ [] := by
  cases p with
  | exactly t => exact hp.1
  | anyRow => simp [Part.text]
  | rowCalled a => simp [Part.text]

theorem text_dot {p : Part} {s : Step} (hp : Proper p s) : dot ∉ p.text := by
  cases p with
  | exactly t => exact hp.2.1
  | anyRow => simp [Part.text, dot]
  | rowCalled a =>
    obtain ⟨-, -, hd, -⟩ := hp
    simp only [Part.text, dot, List.cons_append, List.mem_cons, List.mem_append, List.not_mem_nil,
      or_false, not_or]
    exact ⟨by decide, hd, by decide⟩

theorem scan_to_dot : ∀ (w : Bytes) (acc r : Bytes), dot ∉ w → r ≠ [] →
    scan acc (w ++ dot :: r) = (w.reverse ++ acc, dot :: r)
  | [], acc, r, _, hr => by
    match r, hr with
    | d :: r, _ => simp [scan]
  | c :: w, acc, r, h, hr => by
    simp only [List.mem_cons, not_or] at h
    have ih := scan_to_dot w (c :: acc) r h.2 hr
    have hne : w ++ dot :: r ≠ [] := by simp
    match hw : w ++ dot :: r, hne with
    | d :: r', _ =>
      rw [List.cons_append, hw, scan, if_neg (Ne.symm h.1), ← hw, ih]
      simp

theorem scan_to_start : ∀ (w acc : Bytes) (c : UInt8), dot ∉ w →
    scan acc (w ++ [c]) = (w.reverse ++ acc, [c])
  | [], acc, c, _ => by simp [scan]
  | d :: w, acc, c, h => by
    simp only [List.mem_cons, not_or] at h
    have ih := scan_to_start w (d :: acc) c h.2
    have hne : w ++ [c] ≠ [] := by simp
    match hw : w ++ [c], hne with
    | e :: r', _ =>
      rw [List.cons_append, hw, scan, if_neg (Ne.symm h.1), ← hw, ih]
      simp

theorem back_ne {p : Part} {ps : List Part} {s : Step} (hp : Proper p s) : back (p :: ps) ≠ [] := by
  have := text_ne hp
  cases ps <;> simp [back, this]

/-- Tokens of an element's parts, the element's first. -/
def toksUp : List Part → List Info → List Token
  | p :: ps, i :: up => tokOf p i.type (parentIsTable (i :: up)) :: toksUp ps up
  | _, _ => []

theorem build_proper : ∀ (up : List Info) (ps : List Part) (rev : Bytes) (toks : List Token),
    AllProper ps (stepsUp up) → ps ≠ [] → (rev = back ps ∨ rev = dot :: back ps) → 2 ≤ rev.length →
    ∃ c, c ≠ dot ∧ build up rev toks = .ok ((toksUp ps up).reverse ++ toks, [c])
  | [], [], _, _, _, h, _, _ => (h rfl).elim
  | [], _ :: _, _, _, h, _, _, _ => h.elim
  | _ :: _, [], _, _, _, h, _, _ => (h rfl).elim
  | i :: up, p :: ps, rev, toks, hpr, _, hrev, hlen => by
    obtain ⟨hp, hps⟩ := hpr
    rw [belowTable_eq] at hp
    have htne := text_ne hp
    have htd := text_dot hp
    have hdrop : (if rev.head? = some dot then rev.tail else rev) = back (p :: ps) := by
      rcases hrev with rfl | rfl
      · have : (back (p :: ps)).head? ≠ some dot := by
          have hl : p.text.reverse ≠ [] := by simpa using htne
          match hx : p.text.reverse, hl with
          | c :: w, _ =>
            have hc : c ≠ dot := by
              rintro rfl
              exact htd (by rw [← List.mem_reverse, hx]; simp)
            cases ps <;> simp [back, hx, hc]
        rw [if_neg this]
      · rfl
    have hcl := fun toks => classify_proper hp i.type (toks)
    simp only [build]
    rw [if_neg (by omega), hdrop]
    cases ps with
    | nil =>
      match hup : up, hps with
      | [], _ =>
        match hx : p.text, htne with
        | c :: w, _ =>
          rw [hx] at htd
          simp only [List.mem_cons, not_or] at htd
          have hs : scan [] (back [p]) = (w, [c]) := by
            rw [back, hx, List.reverse_cons, scan_to_start _ _ _ (by simpa using htd.2)]
            simp
          rw [hs]
          have ht : textAt (w, [c]) = p.text := by
            simp only [textAt, if_neg (Ne.symm htd.1), hx]
          rw [ht]
          have := hcl toks
          simp only at this
          rw [this]
          refine ⟨c, Ne.symm htd.1, ?_⟩
          simp [build, toksUp]
    | cons q ps =>
      match up, hps with
      | j :: up, hps =>
        have hbne : back (q :: ps) ≠ [] := back_ne hps.1
        have hs : scan [] (back (p :: q :: ps)) = (p.text, dot :: back (q :: ps)) := by
          rw [back, scan_to_dot _ _ _ (by simpa using htd) hbne]
          simp
        rw [hs]
        have ht : textAt (p.text, dot :: back (q :: ps)) = p.text := by simp [textAt]
        rw [ht]
        have := hcl toks
        simp only at this
        rw [this]
        have hl : 2 ≤ (dot :: back (q :: ps)).length := by
          have := List.length_pos_iff.mpr hbne
          simp only [List.length_cons]; omega
        obtain ⟨c, hc, hb⟩ := build_proper (j :: up) (q :: ps) (dot :: back (q :: ps))
          (tokOf p i.type (parentIsTable (i :: j :: up)) :: toks) hps (by simp) (.inr rfl) hl
        refine ⟨c, hc, ?_⟩
        simp only [hb, toksUp]
        simp

/-! ### Matching -/

theorem takeWhile_ne_zero (w r : Bytes) (h : (0 : UInt8) ∉ w) :
    (w ++ 0 :: r).takeWhile (· ≠ 0) = w := by
  induction w with
  | nil => simp
  | cons c w ih =>
    simp only [List.mem_cons, not_or] at h
    rw [List.cons_append, List.takeWhile_cons, if_pos (by simpa using Ne.symm h.1), ih h.2]

theorem takeWhile_ne_zero' (w : Bytes) (h : (0 : UInt8) ∉ w) : w.takeWhile (· ≠ 0) = w := by
  induction w with
  | nil => rfl
  | cons c w ih =>
    simp only [List.mem_cons, not_or] at h
    rw [List.takeWhile_cons, if_pos (by simpa using Ne.symm h.1), ih h.2]

theorem matchFrom_proper : ∀ (up : List Info) (ps : List Part) (inst : List Info) (rc : Bool),
    AllProper ps (stepsUp up) →
    ((∃ a, .rowCalled a ∈ ps) → ∀ s ∈ stepsUp inst, s.row = true → s.alias ≠ none) →
    matchFrom rc (toksUp ps up) inst =
      .ok (decide (up.map (·.type) = inst.map (·.type)) && decide (up.length = inst.length) &&
        addresses ps (stepsUp inst) &&
        decide ((stepsUp up).map (·.row) = (stepsUp inst).map (·.row)))
  | [], [], [], _, _, _ => by simp [toksUp, matchFrom, addresses, stepsUp]
  | [], [], _ :: _, _, _, _ => by simp [toksUp, matchFrom]
  | [], _ :: _, _, _, h, _ => h.elim
  | _ :: _, [], _, _, h, _ => h.elim
  | i :: up, p :: ps, [], rc, _, _ => by simp [toksUp, matchFrom]
  | i :: up, p :: ps, j :: inst, rc, hpr, hal => by
    obtain ⟨hp, hps⟩ := hpr
    rw [belowTable_eq] at hp
    have ih := fun rc => matchFrom_proper up ps inst rc hps (by
      rintro ⟨a, ha⟩ s hs
      exact hal ⟨a, by simp [ha]⟩ s (by simp [stepsUp, belowTable_eq, hs]))
    have hal0 : ∀ a, p = .rowCalled a → parentIsTable (j :: inst) = true → j.alias ≠ none := by
      rintro a rfl hr
      exact hal ⟨a, by simp⟩ ⟨j.name, j.alias, parentIsTable (j :: inst)⟩ (by simp [stepsUp, belowTable_eq]) hr
    simp only [toksUp, matchFrom]
    rcases Decidable.em (i.type ≠ j.type) with hty | hty
    · rw [if_pos]
      · simp [hty]
      · cases p <;> simp [tokOf, hty]
    rw [Decidable.not_not] at hty
    have hty' : ∀ x, (tokOf p i.type x).type = i.type := by intro x; cases p <;> rfl
    have hrow' : ∀ x, (tokOf p i.type x).row = x := by intro x; cases p <;> rfl
    rw [if_neg (by rw [hty']; simpa using hty), hrow']
    cases hri : parentIsTable (i :: up) with
    | false =>
      cases p with
      | anyRow =>
        have h : parentIsTable (i :: up) = true := hp
        rw [hri] at h
        cases h
      | rowCalled a =>
        have h : parentIsTable (i :: up) = true := hp.1
        rw [hri] at h
        cases h
      | exactly t =>
        obtain ⟨hne, hdot, hnul, -⟩ := hp
        have htx : (tokOf (.exactly t) i.type false).text = t := takeWhile_ne_zero' t hnul
        simp only [htx, Bool.false_eq_true, if_false]
        by_cases hn : j.name = t
        · rw [if_pos hn, ih]
          cases hrj : parentIsTable (j :: inst) with
          | false => simp [stepsUp, belowTable_eq, hri, hrj, hty, addresses, Part.fits, hn]
          | true =>
            -- the parents' types differ
            simp only [stepsUp, belowTable_eq, hri, hrj]
            have : ¬ (up.map (·.type) = inst.map (·.type)) := by
              intro he
              cases up with
              | nil => cases inst with
                | nil => simp [parentIsTable] at hrj
                | cons => simp at he
              | cons u up =>
                cases inst with
                | nil => simp at he
                | cons v inst =>
                  simp only [List.map_cons, List.cons.injEq] at he
                  simp only [parentIsTable] at hri hrj
                  rw [he.1] at hri
                  rw [hri] at hrj
                  cases hrj
            simp [this]
        · rw [if_neg hn]
          simp [stepsUp, belowTable_eq, addresses, Part.fits, Ne.symm hn]
    | true =>
      simp only [if_true]
      cases hrj : parentIsTable (j :: inst) with
      | false => simp [stepsUp, belowTable_eq, hri, hrj]
      | true =>
        simp only [if_true]
        cases p with
        | anyRow =>
          simp only [tokOf]
          rw [ih]
          simp [stepsUp, belowTable_eq, hri, hrj, hty, addresses, Part.fits]
        | rowCalled a =>
          obtain ⟨-, hne, hdot, hnul, hbr⟩ := hp
          have htx : (⟨a ++ [0], .alias, i.type, true⟩ : Token).text = a :=
            takeWhile_ne_zero a [] hnul
          have := hal0 a rfl hrj
          simp only [tokOf, htx]
          cases ha : j.alias with
          | none => exact (this ha).elim
          | some b =>
            simp only
            by_cases hb : b = a
            · rw [if_pos hb, ih]
              simp [stepsUp, belowTable_eq, hri, hrj, hty, addresses, Part.fits, ha, hb]
            · rw [if_neg hb]
              simp [stepsUp, belowTable_eq, addresses, Part.fits, ha, hb]
        | exactly t =>
          obtain ⟨hne, hdot, hnul, -⟩ := hp
          have htx : (⟨t, .instNum, i.type, true⟩ : Token).text = t := takeWhile_ne_zero' t hnul
          simp only [tokOf, if_true, htx]
          by_cases hn : j.name = t
          · rw [if_pos hn, ih]
            simp [stepsUp, belowTable_eq, hri, hrj, hty, addresses, Part.fits, hn]
          · rw [if_neg hn]
            simp [stepsUp, belowTable_eq, addresses, Part.fits, Ne.symm hn]

theorem rows_of_types : ∀ (a b : List Info), a.map (·.type) = b.map (·.type) →
    (stepsUp a).map (·.row) = (stepsUp b).map (·.row)
  | [], [], _ => rfl
  | [], _ :: _, h => by simp at h
  | _ :: _, [], h => by simp at h
  | i :: a, j :: b, h => by
    simp only [List.map_cons, List.cons.injEq] at h
    have ih := rows_of_types a b h.2
    simp only [stepsUp, belowTable_eq, List.map_cons, ih, List.cons.injEq, and_true]
    cases a with
    | nil => cases b with
      | nil => rfl
      | cons => simp at h
    | cons u a => cases b with
      | nil => simp at h
      | cons v b =>
        simp only [List.map_cons, List.cons.injEq] at h
        simp [parentIsTable, h.2.1]

end Verif.TokenChain
