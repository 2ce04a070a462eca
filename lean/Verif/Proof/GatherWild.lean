import Verif.Proof.Gather

/-!
# Proofs about wildcard queries
-/

namespace Verif.GatherProof

open Verif Verif.Element Verif.Subs Verif.Gather Verif.Spec.Provider Verif.Spec.Rows Verif.Spec.Gather Verif.RowsProof

/-- A component without special characters. -/
def Tok (t : Element.Token) : Prop := Exact [t] ∧ (42 : UInt8) ∉ t ∧ (123 : UInt8) ∉ t

theorem Tok.parts {t : Element.Token} (h : Tok t) : t ≠ [] ∧ (46 : UInt8) ∉ t := ⟨(h.1 t (by simp)).1, (h.1 t (by simp)).2.1⟩

theorem tok_exact {p : Path} (h : ∀ t ∈ p, Tok t) : Exact p := fun t ht => (h t ht).1 t (by simp)

theorem tok_decimal {i : Nat} : Tok (decimal i) := by
  refine ⟨exact_decimal i, ?_, ?_⟩
  · intro h
    have := decimal_digits i _ h
    simp at this
  · intro h
    have := decimal_digits i _ h
    simp at this

/-! ### Texts -/

theorem join_append (p q : Path) : join (p ++ q) = join p ++ join q := by simp [join]

theorem join_cons (t : Element.Token) (p : Path) : join (t :: p) = t ++ 46 :: join p := by simp [join]

theorem join_full : ∀ {p : Path}, p ≠ [] → fullText p ++ [46] = join p := by
  intro p
  induction p with
  | nil => intro h; exact absurd rfl h
  | cons t p ih =>
    intro _
    cases p with
    | nil => simp [fullText, join]
    | cons u p =>
      rw [join_cons, ← ih (by simp)]
      simp [fullText, dot]

theorem full_append (p : Path) : ∀ {q : Path}, q ≠ [] → fullText (p ++ q) = join p ++ fullText q := by
  induction p with
  | nil => intro q _; simp [join]
  | cons t p ih =>
    intro q hq
    have hne : p ++ q ≠ [] := by simp [hq]
    rw [List.cons_append, join_cons]
    cases hpq : p ++ q with
    | nil => exact absurd hpq hne
    | cons u r => rw [fullText, ← hpq, ih hq]; simp [dot]

theorem join_no42 {p : Path} (h : ∀ t ∈ p, Tok t) : (42 : UInt8) ∉ join p := by
  induction p with
  | nil => simp [join]
  | cons t p ih =>
    rw [join_cons]
    have h1 := (h t (by simp)).2.1
    have h2 := ih (fun u hu => h u (by simp [hu]))
    simp [h1, h2]

theorem full_sub {p : Path} {b : UInt8} (h : b ∈ fullText p) : b ∈ join p := by
  cases p with
  | nil => exact h
  | cons t p => rw [← join_full (by simp)]; simp [h]

theorem full_no42 {p : Path} (h : ∀ t ∈ p, Tok t) : (42 : UInt8) ∉ fullText p := fun h' => join_no42 h (full_sub h')

theorem full_no123 {p : Path} (h : ∀ t ∈ p, Tok t) : (123 : UInt8) ∉ fullText p := by
  intro h'
  have := full_sub h'
  clear h'
  induction p with
  | nil => simp [join] at this
  | cons t p ih =>
    rw [join_cons, List.mem_append, List.mem_cons] at this
    rcases this with h1 | h1 | h1
    · exact (h t (by simp)).2.2 h1
    · simp at h1
    · exact ih (fun u hu => h u (by simp [hu])) h1

theorem hasTemplate_no {s : Bytes} (h : (123 : UInt8) ∉ s) : hasTemplate s = false := by
  induction s with
  | nil => rfl
  | cons c s ih =>
    simp only [List.mem_cons, not_or] at h
    simp only [hasTemplate, ih h.2, Bool.or_false, template, List.isPrefixOf]
    simp [h.1]

theorem pieces_full {p : Path} (h : ∀ t ∈ p, t ≠ [] ∧ (46 : UInt8) ∉ t) : pieces (fullText p) = p := by
  rcases List.eq_nil_or_concat p with rfl | ⟨q, t, rfl⟩
  · rfl
  · rw [List.concat_eq_append] at h ⊢
    rw [full_append q (by simp)]
    have ht := h t (by simp)
    have hq : ∀ u ∈ q, u ≠ [] ∧ (46 : UInt8) ∉ u := fun u hu => h u (by simp [hu])
    show pieces (join q ++ t) = _
    by_cases hq0 : q = []
    · subst hq0
      simp [join, pieces, cut_plain ht.2, ht.1]
    · rw [pieces_snoc (by rw [← join_full hq0]; simp) ht.2 ht.1, pieces_join hq]

theorem full_last {p : Path} {t : Element.Token} (h : Tok t) : ∃ b, (fullText (p ++ [t])).getLast? = some b ∧ b ≠ 46 ∧ b ≠ 42 := by
  rw [full_append p (by simp)]
  show ∃ b, (join p ++ t).getLast? = some b ∧ _
  have ht := h.parts
  obtain ⟨b, hb⟩ : ∃ b, t.getLast? = some b := by
    cases hl : t.getLast? with
    | none => simp at hl; exact absurd hl ht.1
    | some b => exact ⟨b, rfl⟩
  have hm := List.mem_of_getLast? hb
  refine ⟨b, by rw [List.getLast?_append, hb]; rfl, ?_, ?_⟩
  · rintro rfl; exact ht.2 hm
  · rintro rfl; exact h.2.1 hm

theorem retrieve_path {T : Tree} (hg : Good T) {p : Path} (hp : p ≠ []) (h : Exact p) {s : Bytes} (hs : pieces s = p) :
    retrieveInstance T s = nodeOf p T.root := by
  rw [retrieve_eq hg.neat (by rw [hs]; exact h), hs, if_neg hp]

/-! ### Rows -/

theorem getBelow_append (H : Handlers) (V : View) (n : Nat) (xs ys : List Path) (calls : List Gather.Call) :
    getBelow H V n (xs ++ ys) calls =
      if (getBelow H V n xs calls).1 = 0 then getBelow H V n ys (getBelow H V n xs calls).2 else getBelow H V n xs calls := by
  induction xs generalizing calls with
  | nil => rfl
  | cons x xs ih =>
    simp only [List.cons_append, getBelow]
    by_cases h : V x = none
    · simp [h]
    · simp only [if_neg h]; exact ih _

theorem getEach_none {H : Handlers} {V : View} {p : Path} {ps : List Path} {calls : List Gather.Call} (h : V p = none) :
    getEach H V (p :: ps) calls = (17, calls) := by
  simp only [getEach, h]

theorem getEach_skip {H : Handlers} {V : View} {p : Path} {ps : List Path} {calls : List Gather.Call} {e : Entry}
    (h : V p = some e) (hg : getter e = none) : getEach H V (p :: ps) calls = getEach H V ps calls := by
  simp only [getEach, h, hg]

theorem getEach_ask {H : Handlers} {V : View} {p : Path} {ps : List Path} {calls : List Gather.Call} {e : Entry} {g : Nat}
    (h : V p = some e) (hg : getter e = some g) : getEach H V (p :: ps) calls =
      if (H calls g (fullText p)).code = 0 then getEach H V ps (Spec.Gather.ask H calls p g)
      else ((H calls g (fullText p)).code, Spec.Gather.ask H calls p g) := by
  simp only [getEach, h, hg]

theorem getEach_append (H : Handlers) (V : View) (xs ys : List Path) (calls : List Gather.Call) :
    getEach H V (xs ++ ys) calls =
      if (getEach H V xs calls).1 = 0 then getEach H V ys (getEach H V xs calls).2 else getEach H V xs calls := by
  induction xs generalizing calls with
  | nil => rfl
  | cons x xs ih =>
    rw [List.cons_append]
    cases h : V x with
    | none => rw [getEach_none h, getEach_none h]; simp
    | some e =>
      cases hg : getter e with
      | none => rw [getEach_skip h hg, getEach_skip h hg]; exact ih _
      | some g =>
        rw [getEach_ask h hg, getEach_ask h hg]
        by_cases hc : (H calls g (fullText x)).code = 0
        · simp only [if_pos hc]; exact ih _
        · simp only [if_neg hc]

/-- What a function gives as result of a query. -/
def giving (r : Nat × List Gather.Call) : Gather.Out (Nat × St) := .done (r.1, stOf r.2)

theorem overRows_run {f : Bytes → St → Gather.Out (Nat × St)} {R : List Path → List Gather.Call → Nat × List Gather.Call}
    (hnil : ∀ c, R [] c = (0, c))
    (happ : ∀ xs ys c, R (xs ++ ys) c = if (R xs c).1 = 0 then R ys (R xs c).2 else R xs c)
    (g : Element.Token → List Path) (pre post : Bytes) : ∀ (cs : List Node),
    (∀ c ∈ cs, c.info.name ≠ template → ∀ calls, f ((pre ++ c.info.name ++ post).take (maxName - 1)) (stOf calls) =
      giving (R (g c.info.name) calls)) → ∀ calls,
    overRows f pre post cs (stOf calls) = giving (R (((cs.map (·.info.name)).filter (· ≠ template)).flatMap g) calls) := by
  intro cs
  induction cs with
  | nil => intro _ calls; simp [overRows, hnil, giving]
  | cons c cs ih =>
    intro h calls
    have ih := ih (fun d hd => h d (by simp [hd]))
    by_cases hn : c.info.name = template
    · simp only [overRows, if_pos hn, ih]
      congr 3
      simp [hn]
    · simp only [overRows, if_neg hn, h c (by simp) hn, giving, done_bind]
      have hl : ((c :: cs).map (·.info.name)).filter (· ≠ template) = c.info.name :: (cs.map (·.info.name)).filter (· ≠ template) := by
        simp [hn]
      rw [hl, List.flatMap_cons, happ]
      by_cases h0 : (R (g c.info.name) calls).1 = 0
      · rw [if_pos h0, if_pos h0, ih]; rfl
      · rw [if_neg h0, if_neg h0]; rfl

theorem uniform {α : Type} {P : Nat → α → Prop} : ∀ {l : List α}, (∀ a ∈ l, ∃ n0, ∀ n, n0 ≤ n → P n a) →
    ∃ n0, ∀ n, n0 ≤ n → ∀ a ∈ l, P n a := by
  intro l
  induction l with
  | nil => intro _; exact ⟨0, fun n _ a ha => by cases ha⟩
  | cons b l ih =>
    intro h
    obtain ⟨n1, h1⟩ := ih (fun a ha => h a (by simp [ha]))
    obtain ⟨n2, h2⟩ := h b (by simp)
    refine ⟨max n1 n2, fun n hn a ha => ?_⟩
    rcases List.mem_cons.mp ha with rfl | ha
    · exact h2 n (by omega)
    · exact h1 n (by omega) a ha

theorem take_all {s : Bytes} (h : s.length ≤ 255) : s.take (maxName - 1) = s := List.take_of_length_le (by simpa [maxName] using h)

theorem decimal_length {i : Nat} (h : i < 2 ^ 32) : (decimal i).length ≤ 10 := by
  have : (decimal i).length = (Nat.toDigits 10 i).length := by simp [decimal]
  rw [this]
  rw [Nat.length_toDigits_le_iff (by omega) (by omega)]
  omega

/-! ### Queries -/

theorem wild_row {T : Tree} (hg : Good T) (hs : Shape [] T.root) {p : Path} (hp : p ≠ []) {e : Entry} (hV : seen T p = some e)
    (ht : e.type = tTable) (hex : Exact p) : ∃ m, nodeOf p T.root = some m ∧ m.info.type = tTable ∧
    Spec.Gather.rows (seen T) p = (m.children.map (·.info.name)).filter (· ≠ template) ∧
    ∀ c ∈ m.children, c.info.name ≠ template → ∃ i, i < 2 ^ 32 ∧ c.info.name = decimal i := by
  have hV' := hV
  rw [seen_eq hg.neat hex, if_neg hp] at hV
  cases hm : nodeOf p T.root with
  | none => rw [hm] at hV; cases hV
  | some m =>
    rw [hm] at hV
    simp only [Option.map_some, Option.some.injEq] at hV
    subst hV
    refine ⟨m, rfl, ht, ?_, ?_⟩
    · simp only [Spec.Gather.rows, hV', entry]
    · intro c hc hne
      obtain ⟨_, tm, rs, hch, htm, hrs⟩ := (hg.neat.nodeOf hm).ok.table ht
      rw [hch] at hc
      rcases List.mem_cons.mp hc with rfl | hc
      · exact absurd htm hne
      · exact (hrs c hc).1

theorem count_star {ts : Path} : ts.count star ≤ (join ts).count 42 := by
  induction ts with
  | nil => simp
  | cons t ts ih =>
    rw [join_cons, List.count_append, List.count_cons, List.count_cons]
    by_cases h : t = star
    · subst h
      simp [star] at ih ⊢
      omega
    · simp [h]
      omega

/-- Queries that end with a dot. -/
theorem wild_join {T : Tree} (hg : Good T) (hs : Shape [] T.root) {H : Handlers} (hH : Single H) : ∀ (ts p : Path) (fuel : Nat),
    (∀ t ∈ p, Tok t) → (∀ t ∈ ts, t = star ∨ Tok t) → StarsFit (seen T) p ts → p ++ ts ≠ [] → ts.count star < fuel →
    (join (p ++ ts)).length + 9 * ts.count star ≤ 255 →
    ∃ n0, ∀ n, n0 ≤ n → ∀ calls, wildcard H T fuel (join (p ++ ts)) (stOf calls) =
      giving (getBelow H (seen T) n (expand (seen T) p ts) calls) := by
  intro ts
  induction ts with
  | nil =>
    intro p fuel hp _ _ hne hf hlen
    simp only [List.append_nil] at hne hlen ⊢
    simp only [List.count_nil] at hf hlen
    obtain ⟨fuel, rfl⟩ : ∃ k, fuel = k + 1 := ⟨fuel - 1, by omega⟩
    have h42 := join_no42 hp
    have hlast : (join p).getLast? = some dot := by rw [← join_full hne]; simp [dot]
    have hns : join p ≠ star := by intro h; rw [h] at h42; simp [star] at h42
    have hsuf : ¬ (dot :: star <:+ join p) := by
      rintro ⟨x, hx⟩
      rw [← hx] at h42
      simp [star] at h42
    have hcon : (join p).contains 42 = false := by simpa using h42
    have hret := retrieve_path hg hne (tok_exact hp) (pieces_join (fun t ht => (hp t ht).parts))
    simp only [wildcard, take_all (show (join p).length ≤ 255 by omega), if_neg hns, if_neg hsuf, hcon, Bool.false_eq_true,
      if_false, hlast, if_true, wildPartial, hret]
    cases hm : nodeOf p T.root with
    | none =>
      refine ⟨0, fun n _ calls => ?_⟩
      have : seen T p = none := by rw [seen_eq hg.neat (tok_exact hp), if_neg hne, hm]; rfl
      simp [expand, getBelow, this, giving]
    | some m =>
      have hsm := hs.nodeOf hm
      rw [List.nil_append] at hsm
      obtain ⟨n0, h0⟩ := below_run hg hs hH hsm hne hm
      refine ⟨n0, fun n hn calls => ?_⟩
      have : seen T p = some (entry m) := seen_node hg hs hne hm
      simp only [hsm.ok.full, hasTemplate_no (full_no123 hp), Bool.false_eq_true, if_false, h0 n hn calls, done_bind, expand,
        getBelow, this, giving, out_pure]
      simp
  | cons t ts ih =>
    intro p fuel hp hts hfit hne hf hlen
    by_cases hstar : t = star
    · subst hstar
      simp only [StarsFit, if_true] at hfit
      obtain ⟨⟨e, hV, htab⟩, hfit⟩ := hfit
      have hpne : p ≠ [] := by rintro rfl; rw [seen_nil] at hV; cases hV
      obtain ⟨m, hm, hmt, hrows, hdec⟩ := wild_row hg hs hpne hV htab (tok_exact hp)
      rw [List.count_cons_self] at hf hlen
      obtain ⟨fuel, rfl⟩ : ∃ k, fuel = k + 1 := ⟨fuel - 1, by omega⟩
      have htext : join (p ++ star :: ts) = join p ++ 42 :: 46 :: join ts := by
        rw [join_append, join_cons]; rfl
      have hrow : ∀ c ∈ m.children, ∃ n0, ∀ n, n0 ≤ n → c.info.name ≠ template → ∀ calls,
          wildcard H T fuel ((join p ++ c.info.name ++ 46 :: join ts).take (maxName - 1)) (stOf calls) =
            giving (getBelow H (seen T) n (expand (seen T) (p ++ [c.info.name]) ts) calls) := by
        intro c hc
        by_cases hct : c.info.name = template
        · exact ⟨0, fun n _ h => absurd hct h⟩
        · obtain ⟨i, hi, hci⟩ := hdec c hc hct
          have hl10 := decimal_length hi
          have heq : join p ++ c.info.name ++ 46 :: join ts = join ((p ++ [c.info.name]) ++ ts) := by
            rw [join_append, join_append, join_cons]; simp [join]
          have hlen' : (join ((p ++ [c.info.name]) ++ ts)).length + 9 * ts.count star ≤ 255 := by
            rw [← heq, hci]
            rw [htext] at hlen
            simp only [List.length_append, List.length_cons] at hlen ⊢
            omega
          obtain ⟨n0, h0⟩ := ih (p ++ [c.info.name]) fuel
            (by
              intro u hu
              rcases List.mem_append.mp hu with hu | hu
              · exact hp u hu
              · rw [List.mem_singleton] at hu
                rw [hu, hci]
                exact tok_decimal)
            (fun u hu => hts u (by simp [hu]))
            (hfit _ (by rw [hrows]; exact List.mem_filter.mpr ⟨List.mem_map_of_mem hc, by simpa using hct⟩))
            (by simp) (by omega) hlen'
          refine ⟨n0, fun n hn _ calls => ?_⟩
          rw [heq, take_all (by omega)]
          exact h0 n hn calls
      obtain ⟨n0, h0⟩ := uniform hrow
      refine ⟨n0, fun n hn calls => ?_⟩
      have hfull : wildcard H T (fuel + 1) (join (p ++ star :: ts)) (stOf calls) =
          overRows (wildcard H T fuel) (join p) (46 :: join ts) m.children (stOf calls) := by
        have hlast : (join (p ++ star :: ts)).getLast? = some 46 := by rw [← join_full (by simp)]; simp
        have hns : join (p ++ star :: ts) ≠ star := by intro h; rw [h] at hlast; simp [star] at hlast
        have hsuf : ¬ (dot :: star <:+ join (p ++ star :: ts)) := by
          rintro ⟨x, hx⟩
          rw [← hx] at hlast
          simp [star] at hlast
        have hcon : (join (p ++ star :: ts)).contains 42 = true := by rw [htext]; simp
        have htake : (join (p ++ star :: ts)).takeWhile (· ≠ 42) = join p := by
          rw [htext, List.takeWhile_append_of_pos]
          · simp
          · intro b hb
            have := join_no42 hp
            simp only [ne_eq, decide_eq_true_eq]
            rintro rfl
            exact this hb
        have hdrop : (join (p ++ star :: ts)).dropWhile (· ≠ 42) = 42 :: 46 :: join ts := by
          rw [htext, List.dropWhile_append_of_pos]
          · simp
          · intro b hb
            have := join_no42 hp
            simp only [ne_eq, decide_eq_true_eq]
            rintro rfl
            exact this hb
        have hret := retrieve_path hg hpne (tok_exact hp) (pieces_join (fun t ht => (hp t ht).parts))
        simp only [wildcard, take_all (show (join (p ++ star :: ts)).length ≤ 255 by omega), if_neg hns, if_neg hsuf, hcon,
          if_true, htake, hdrop, hret, hm, hmt, List.drop_succ_cons, List.drop_zero]
      rw [hfull, overRows_run (fun _ => rfl) (getBelow_append H (seen T) n) (fun r => expand (seen T) (p ++ [r]) ts) _ _ _
        (fun c hc => h0 n hn c hc)]
      simp only [expand, if_true, hrows]
    · have hT : Tok t := (hts t (by simp)).resolve_left hstar
      have hsplit : p ++ t :: ts = (p ++ [t]) ++ ts := by simp
      rw [List.count_cons_of_ne hstar] at hf hlen
      simp only [StarsFit, if_neg hstar] at hfit
      rw [hsplit] at hlen ⊢
      simp only [expand, if_neg hstar]
      exact ih (p ++ [t]) fuel
        (by
          intro u hu
          rcases List.mem_append.mp hu with hu | hu
          · exact hp u hu
          · rw [List.mem_singleton] at hu; rw [hu]; exact hT)
        (fun u hu => hts u (by simp [hu])) hfit (by simp) hf hlen

/-- Queries that do not end with a dot, nor with a wildcard. -/
theorem wild_full {T : Tree} (hg : Good T) (hs : Shape [] T.root) {H : Handlers} (hH : Single H) : ∀ (ts p : Path) (fuel : Nat),
    (∀ t ∈ p, Tok t) → (∀ t ∈ ts, t = star ∨ Tok t) → StarsFit (seen T) p ts → (∃ u, (p ++ ts).getLast? = some u ∧ u ≠ star) →
    ts.count star < fuel → (fullText (p ++ ts)).length + 9 * ts.count star ≤ 255 →
    ∀ calls, wildcard H T fuel (fullText (p ++ ts)) (stOf calls) =
      giving (getEach H (seen T) (expand (seen T) p ts) calls) := by
  intro ts
  have hend : ∀ w : Path, (∀ t ∈ w, t = star ∨ Tok t) → (∃ u, w.getLast? = some u ∧ u ≠ star) →
      (fullText w).getLast? ≠ some dot ∧ fullText w ≠ star ∧ ¬ (dot :: star <:+ fullText w) := by
    rintro w hw ⟨u, hu, hus⟩
    obtain ⟨v, rfl⟩ := List.getLast?_eq_some_iff.mp hu
    obtain ⟨b, hb, h46, h42⟩ := full_last (p := v) ((hw u (by simp)).resolve_left hus)
    refine ⟨by rw [hb]; simpa [dot] using h46, ?_, ?_⟩
    · intro h
      rw [h] at hb
      simp [star] at hb
      exact h42 hb.symm
    · rintro ⟨x, hx⟩
      rw [← hx] at hb
      simp [star] at hb
      exact h42 hb.symm
  induction ts with
  | nil =>
    intro p fuel hp _ _ hl hf hlen calls
    simp only [List.append_nil] at hl hlen ⊢
    simp only [List.count_nil] at hf hlen
    obtain ⟨fuel, rfl⟩ : ∃ k, fuel = k + 1 := ⟨fuel - 1, by omega⟩
    have hne : p ≠ [] := by rintro rfl; obtain ⟨u, hu, _⟩ := hl; cases hu
    obtain ⟨hnd, hns, hsuf⟩ := hend p (fun t ht => .inr (hp t ht)) hl
    have h42 := full_no42 hp
    have hcon : (fullText p).contains 42 = false := by simpa using h42
    have hret := retrieve_path hg hne (tok_exact hp) (pieces_full (fun t ht => (hp t ht).parts))
    simp only [wildcard, take_all (show (fullText p).length ≤ 255 by omega), if_neg hns, if_neg hsuf, hcon, Bool.false_eq_true,
      if_false, if_neg hnd, wildLeaf, hret, expand]
    cases hm : nodeOf p T.root with
    | none =>
      have : seen T p = none := by rw [seen_eq hg.neat (tok_exact hp), if_neg hne, hm]; rfl
      rw [getEach_none this]
      rfl
    | some m =>
      have hV : seen T p = some (entry m) := seen_node hg hs hne hm
      have hget : getter (entry m) = if m.info.type = tTable then none else m.info.cb.get := rfl
      simp only
      cases hgm : (if m.info.type = tTable then none else m.info.cb.get) with
      | none => rw [getEach_skip hV (hget.trans hgm)]; rfl
      | some g =>
        rw [getEach_ask hV (hget.trans hgm)]
        simp only [ask_property hH]
        by_cases hc : (H calls g (fullText p)).code = 0
        · rw [if_pos hc, hc]; rfl
        · rw [if_neg hc]; rfl
  | cons t ts ih =>
    intro p fuel hp hts hfit hl hf hlen calls
    by_cases hstar : t = star
    · subst hstar
      simp only [StarsFit, if_true] at hfit
      obtain ⟨⟨e, hV, htab⟩, hfit⟩ := hfit
      have hpne : p ≠ [] := by rintro rfl; rw [seen_nil] at hV; cases hV
      obtain ⟨m, hm, hmt, hrows, hdec⟩ := wild_row hg hs hpne hV htab (tok_exact hp)
      have hts0 : ts ≠ [] := by
        rintro rfl
        obtain ⟨u, hu, hus⟩ := hl
        rw [List.getLast?_append] at hu
        simp at hu
        exact hus hu.symm
      rw [List.count_cons_self] at hf hlen
      obtain ⟨fuel, rfl⟩ : ∃ k, fuel = k + 1 := ⟨fuel - 1, by omega⟩
      have htext : fullText (p ++ star :: ts) = join p ++ 42 :: 46 :: fullText ts := by
        rw [full_append p (by simp)]
        have : star :: ts = [star] ++ ts := rfl
        rw [this, full_append [star] hts0]
        rfl
      have hrow : ∀ c ∈ m.children, c.info.name ≠ template → ∀ calls,
          wildcard H T fuel ((join p ++ c.info.name ++ 46 :: fullText ts).take (maxName - 1)) (stOf calls) =
            giving (getEach H (seen T) (expand (seen T) (p ++ [c.info.name]) ts) calls) := by
        intro c hc hct calls
        obtain ⟨i, hi, hci⟩ := hdec c hc hct
        have hl10 := decimal_length hi
        have heq : join p ++ c.info.name ++ 46 :: fullText ts = fullText ((p ++ [c.info.name]) ++ ts) := by
          rw [full_append _ hts0, join_append]; simp [join]
        have hlen' : (fullText ((p ++ [c.info.name]) ++ ts)).length + 9 * ts.count star ≤ 255 := by
          rw [← heq, hci]
          rw [htext] at hlen
          simp only [List.length_append, List.length_cons] at hlen ⊢
          omega
        rw [heq, take_all (by omega)]
        refine ih (p ++ [c.info.name]) fuel ?_ (fun u hu => hts u (by simp [hu])) ?_ ?_ (by omega) hlen' calls
        · intro u hu
          rcases List.mem_append.mp hu with hu | hu
          · exact hp u hu
          · rw [List.mem_singleton] at hu
            rw [hu, hci]
            exact tok_decimal
        · exact hfit _ (by rw [hrows]; exact List.mem_filter.mpr ⟨List.mem_map_of_mem hc, by simpa using hct⟩)
        · obtain ⟨u, hu, hus⟩ := hl
          refine ⟨u, ?_, hus⟩
          rw [List.getLast?_append] at hu ⊢
          rw [List.getLast?_cons_of_ne_nil hts0] at hu
          cases hz : ts.getLast? with
          | none => simp at hz; exact absurd hz hts0
          | some z => rw [hz] at hu; simpa using hu
      obtain ⟨hnd, hns, hsuf⟩ := hend (p ++ star :: ts)
        (by
          intro u hu
          rcases List.mem_append.mp hu with hu | hu
          · exact .inr (hp u hu)
          · exact hts u hu) hl
      have hfull : wildcard H T (fuel + 1) (fullText (p ++ star :: ts)) (stOf calls) =
          overRows (wildcard H T fuel) (join p) (46 :: fullText ts) m.children (stOf calls) := by
        have hcon : (fullText (p ++ star :: ts)).contains 42 = true := by rw [htext]; simp
        have htake : (fullText (p ++ star :: ts)).takeWhile (· ≠ 42) = join p := by
          rw [htext, List.takeWhile_append_of_pos]
          · simp
          · intro b hb
            have := join_no42 hp
            simp only [ne_eq, decide_eq_true_eq]
            rintro rfl
            exact this hb
        have hdrop : (fullText (p ++ star :: ts)).dropWhile (· ≠ 42) = 42 :: 46 :: fullText ts := by
          rw [htext, List.dropWhile_append_of_pos]
          · simp
          · intro b hb
            have := join_no42 hp
            simp only [ne_eq, decide_eq_true_eq]
            rintro rfl
            exact this hb
        have hret := retrieve_path hg hpne (tok_exact hp) (pieces_join (fun t ht => (hp t ht).parts))
        simp only [wildcard, take_all (show (fullText (p ++ star :: ts)).length ≤ 255 by omega), if_neg hns, if_neg hsuf, hcon,
          if_true, htake, hdrop, hret, hm, hmt, List.drop_succ_cons, List.drop_zero]
      rw [hfull, overRows_run (fun _ => rfl) (getEach_append H (seen T)) (fun r => expand (seen T) (p ++ [r]) ts) _ _ _ hrow]
      simp only [expand, if_true, hrows]
    · have hT : Tok t := (hts t (by simp)).resolve_left hstar
      have hsplit : p ++ t :: ts = (p ++ [t]) ++ ts := by simp
      rw [List.count_cons_of_ne hstar] at hf hlen
      simp only [StarsFit, if_neg hstar] at hfit
      rw [hsplit] at hlen hl ⊢
      simp only [expand, if_neg hstar]
      exact ih (p ++ [t]) fuel
        (by
          intro u hu
          rcases List.mem_append.mp hu with hu | hu
          · exact hp u hu
          · rw [List.mem_singleton] at hu; rw [hu]; exact hT)
        (fun u hu => hts u (by simp [hu])) hfit hl hf hlen calls

/-- Queries that end with a wildcard are like those that end with the dot before it. -/
theorem wild_star {T : Tree} (hg : Good T) (hs : Shape [] T.root) {H : Handlers} {w : Path} {fuel : Nat} (hw : w ≠ [])
    (hts : ∀ t ∈ w, t = star ∨ Tok t) (hlen : (join w).length + 1 ≤ 255) (s : St) :
    wildcard H T (fuel + 1) (join w ++ [42]) s = wildcard H T (fuel + 1) (join w) s := by
  have hlast : (join w).getLast? = some dot := by rw [← join_full hw]; simp [dot]
  have hnil : join w ≠ [] := by intro h; rw [h] at hlast; cases hlast
  have hns : join w ++ [42] ≠ star := by
    intro h
    have := congrArg List.length h
    simp [star] at this
    exact hnil this
  have hns' : join w ≠ star := by intro h; rw [h] at hlast; simp [star, dot] at hlast
  have hsuf : dot :: star <:+ join w ++ [42] := by
    obtain ⟨x, hx⟩ := List.getLast?_eq_some_iff.mp hlast
    exact ⟨x, by rw [hx]; simp [star]⟩
  have hsuf' : ¬ (dot :: star <:+ join w) := by
    rintro ⟨x, hx⟩
    rw [← hx] at hlast
    simp [star, dot] at hlast
  simp only [wildcard, take_all (show (join w ++ [42]).length ≤ 255 by simpa using hlen),
    take_all (show (join w).length ≤ 255 by omega), if_neg hns, if_neg hns', if_pos hsuf, if_neg hsuf', List.dropLast_concat]
  by_cases hcon : (join w).contains 42 = true
  · rw [if_pos hcon, if_pos hcon]
  · rw [if_neg hcon, if_neg hcon, if_pos hlast, if_pos hlast]
    have hns : ∀ t ∈ w, Tok t := by
      intro t ht
      refine (hts t ht).resolve_left ?_
      rintro rfl
      refine hcon ?_
      obtain ⟨a, b, rfl⟩ := List.append_of_mem ht
      rw [join_append, join_cons]
      simp [star]
    simp only [wildPartial]
    rw [retrieve_path hg hw (tok_exact hns) (pieces_join (fun t ht => (hns t ht).parts))]
    cases hm : nodeOf w T.root with
    | none => rfl
    | some m =>
      have hsm := hs.nodeOf hm
      rw [List.nil_append] at hsm
      simp only [hsm.ok.full, hasTemplate_no (full_no123 hns), Bool.false_eq_true, if_false]

end Verif.GatherProof
