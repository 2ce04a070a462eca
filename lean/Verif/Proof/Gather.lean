import Verif.Proof.GatherShape

/-!
# Proofs about partial paths: what is called
-/

namespace Verif.GatherProof

open Verif Verif.Element Verif.Subs Verif.Gather Verif.Spec.Provider Verif.Spec.Rows Verif.Spec.Gather Verif.RowsProof

@[simp] theorem done_bind {α β : Type} (a : α) (f : α → Gather.Out β) : ((Gather.Out.done a : Gather.Out α) >>= f) = f a := rfl

@[simp] theorem out_pure {α : Type} (a : α) : (pure a : Gather.Out α) = .done a := rfl

/-- The state after calls of handlers that append nothing. -/
def stOf (calls : List Gather.Call) : St := ⟨calls, values calls, (values calls).length⟩

/-- Handlers that append nothing. -/
def Single (H : Handlers) : Prop := ∀ calls h n, (H calls h n).more = []

theorem values_append (a b : List Gather.Call) : values (a ++ b) = values a ++ values b := by
  simp [values, List.filter_append]

theorem ask_property {H : Handlers} (hH : Single H) (p : Path) (h : Nat) (calls : List Gather.Call) :
    askProperty H (fullText p) h (stOf calls) = (stOf (Spec.Gather.ask H calls p h), (H calls h (fullText p)).code) := by
  simp only [askProperty, Gather.call, stOf, Spec.Gather.ask, values_append, hH calls h (fullText p)]
  congr 1
  by_cases hc : (H calls h (fullText p)).code = 0
  · simp [hc, values]
  · simp [hc, values]

theorem askAll_append (H : Handlers) (xs ys : List (Path × Nat)) (calls : List Gather.Call) :
    askAll H (xs ++ ys) calls = askAll H ys (askAll H xs calls) := by
  induction xs generalizing calls with
  | nil => rfl
  | cons x xs ih => simp only [List.cons_append, askAll, ih]

/-- What is called below one name. -/
def branch (V : View) (n : Nat) (p : Path) (t : Element.Token) : List (Path × Nat) :=
  match (V (p ++ [t])).bind getter with
  | some h => [(p ++ [t], h)]
  | none => under V n (p ++ [t])

theorem under_succ (V : View) (n : Nat) (p : Path) {e : Entry} (h : V p = some e) :
    under V (n + 1) p = (e.below.filter (· ≠ template)).flatMap (branch V n p) := by
  simp only [under, h]
  rfl

theorem child_self {n c : Node} (hn : (n.children.map (·.info.name)).Nodup) (hc : c ∈ n.children) :
    child n c.info.name = some c := by
  obtain ⟨a, b, hab⟩ := List.append_of_mem hc
  unfold child
  rw [hab] at hn ⊢
  rw [List.map_append, List.map_cons, List.nodup_append] at hn
  rw [List.find?_append]
  have : List.find? (fun d => decide (d.info.name = c.info.name)) a = none := by
    rw [List.find?_eq_none]
    intro d hd hdn
    exact hn.2.2 _ (List.mem_map_of_mem hd) c.info.name (by simp) (by simpa using hdn)
  rw [this]
  simp

theorem nodeOf_snoc {p : Path} {r m c : Node} (hm : nodeOf p r = some m) (hn : Neat m) (hc : c ∈ m.children) :
    nodeOf (p ++ [c.info.name]) r = some c := by
  rw [nodeOf_append, hm]
  simp only [Option.bind_some, nodeOf, child_self hn.ok.nodup hc]

theorem seen_node {T : Tree} (hg : Good T) (hs : Shape [] T.root) {p : Path} (hp : p ≠ []) {m : Node}
    (hm : nodeOf p T.root = some m) : seen T p = some (entry m) := by
  rw [seen_eq hg.neat (hs.exact hm), if_neg hp, hm]
  rfl

/-- Below a node exactly the handlers of `under` are called. -/
theorem below_run {T : Tree} (hg : Good T) (hs : Shape [] T.root) {H : Handlers} (hH : Single H) {p : Path} {m : Node}
    (hsm : Shape p m) : p ≠ [] → nodeOf p T.root = some m →
    ∃ n0, ∀ n, n0 ≤ n → ∀ calls, Gather.below H none m (stOf calls) = .done (stOf (askAll H (under (seen T) n p) calls)) := by
  induction hsm with
  | @node p m hok hsub ih =>
    intro hp hm
    have hneat := hg.neat.nodeOf hm
    have hsp := seen_node hg hs hp hm
    have key : ∀ cs : List Node, (∀ c ∈ cs, c ∈ m.children) → ∃ n0, ∀ n, n0 ≤ n → ∀ calls,
        Gather.children H none (decide (m.info.type = tTable)) cs (stOf calls) =
          .done (stOf (askAll H (((cs.map (·.info.name)).filter (· ≠ template)).flatMap (branch (seen T) n p)) calls)) := by
      intro cs
      induction cs with
      | nil => intro _; exact ⟨0, fun n _ calls => by simp [Gather.children, askAll]⟩
      | cons c cs ihc =>
        intro hcs
        have hc := hcs c (by simp)
        obtain ⟨n1, h1⟩ := ihc (fun d hd => hcs d (by simp [hd]))
        have hcm := nodeOf_snoc hm hneat hc
        have hsc := seen_node hg hs (by simp) hcm
        obtain ⟨n2, h2⟩ := ih c hc (by simp) hcm
        have hfull := (hsub c hc).ok.full
        refine ⟨max n1 n2, fun n hn calls => ?_⟩
        have h1 := h1 n (by omega)
        have h2 := h2 n (by omega)
        obtain ⟨a, i, gs⟩ := c
        simp only at hfull hsc hcm
        have hget : getter (entry ⟨a, i, gs⟩) = if i.type = tTable then none else i.cb.get := rfl
        simp only [Gather.children]
        cases hgh : (if i.type = tTable then none else i.cb.get) with
        | some h =>
          have hgne : i.cb.get ≠ none := by
            intro h0
            rw [h0] at hgh
            simp at hgh
          have hne : i.name ≠ template := by
            intro h0
            have hob := hok.tobj _ hc h0
            exact hgne ((hsub _ hc).ok.obj hob)
          simp only [nameFor, done_bind, hfull, ask_property hH, h1]
          rw [List.map_cons, List.filter_cons, if_pos (by simpa using hne), List.flatMap_cons, askAll_append]
          have hbr : branch (seen T) n p i.name = [(p ++ [i.name], h)] := by
            simp only [branch, hsc, Option.bind_some, hget, hgh]
          rw [hbr]
          rfl
        | none =>
          simp only
          by_cases hne : i.name = template
          · have hob := hok.tobj _ hc hne
            have hgn := (hsub _ hc).ok.obj hob
            have hmt : m.info.type = tTable := by
              apply Decidable.byContradiction
              intro h0
              exact hok.tmpl h0 _ hc hne
            rw [if_neg (by intro h0; exact h0.2 ⟨by simp [hmt], hne, hgn⟩), h1]
            rw [List.map_cons, List.filter_cons, if_neg (by simp [hne])]
          · have hl : (((⟨a, i, gs⟩ : Node) :: cs).map (·.info.name)).filter (· ≠ template) =
                i.name :: (cs.map (·.info.name)).filter (· ≠ template) := by
              simp [hne]
            rw [hl, List.flatMap_cons, askAll_append]
            have hbr : branch (seen T) n p i.name = under (seen T) n (p ++ [i.name]) := by
              simp only [branch, hsc, Option.bind_some, hget, hgh]
            rw [hbr]
            by_cases hgs : gs = []
            · rw [if_neg (by intro h0; exact h0.1 hgs), h1]
              have : under (seen T) n (p ++ [i.name]) = [] := by
                cases n with
                | zero => rfl
                | succ n => rw [under_succ _ _ _ hsc]; simp [entry, hgs]
              rw [this]
              rfl
            · rw [if_pos ⟨hgs, fun h0 => hne h0.2.1⟩, h2]
              simp only [done_bind, h1]
    obtain ⟨n0, h0⟩ := key m.children (fun c hc => hc)
    refine ⟨n0 + 1, fun n hn calls => ?_⟩
    obtain ⟨n', rfl⟩ : ∃ n', n = n' + 1 := ⟨n - 1, by omega⟩
    rw [under_succ _ _ _ hsp]
    have h0 := h0 n' (by omega) calls
    obtain ⟨a, i, gs⟩ := m
    simp only at h0
    simp only [Gather.below, entry]
    by_cases ht : i.type = tTable
    · have hgn := (hneat.ok.table ht).1
      simp only at hgn
      rw [if_pos ht, hgn]
      simp only [ht, decide_true] at h0
      exact h0
    · rw [if_neg ht]
      simp only [ht, decide_false] at h0
      exact h0

/-! ### What `under` lists -/

theorem child_below {n c : Node} {t : Element.Token} (h : child n t = some c) : t ∈ (entry n).below := by
  obtain ⟨h1, h2⟩ := child_mem h
  simp only [entry]
  rw [← h2]
  exact List.mem_map_of_mem h1

theorem under_mem {T : Tree} (hg : Good T) (hs : Shape [] T.root) {p : Path} {m : Node}
    (hsm : Shape p m) : p ≠ [] → nodeOf p T.root = some m →
    ∃ n0, ∀ n, n0 ≤ n → (∀ q h, (q, h) ∈ under (seen T) n p ↔
      ∃ r, r ≠ [] ∧ q = p ++ r ∧ template ∉ r ∧ ∃ c, nodeOf r m = some c ∧ getter (entry c) = some h) ∧
      ((under (seen T) n p).map (·.1)).Nodup := by
  induction hsm with
  | @node p m hok hsub ih =>
    intro hp hm
    have hneat := hg.neat.nodeOf hm
    have hsp := seen_node hg hs hp hm
    have key : ∀ cs : List Node, (∀ c ∈ cs, c ∈ m.children) → ∃ n0, ∀ n, n0 ≤ n → ∀ c ∈ cs,
        (∀ q h, (q, h) ∈ branch (seen T) n p c.info.name ↔ ∃ r, q = p ++ c.info.name :: r ∧ template ∉ r ∧
          ∃ d, nodeOf r c = some d ∧ getter (entry d) = some h) ∧
        ((branch (seen T) n p c.info.name).map (·.1)).Nodup := by
      intro cs
      induction cs with
      | nil => intro _; exact ⟨0, fun n _ c hc => by cases hc⟩
      | cons c cs ihc =>
        intro hcs
        have hc := hcs c (by simp)
        obtain ⟨n1, h1⟩ := ihc (fun d hd => hcs d (by simp [hd]))
        have hcm := nodeOf_snoc hm hneat hc
        have hsc := seen_node hg hs (by simp) hcm
        obtain ⟨n2, h2⟩ := ih c hc (by simp) hcm
        refine ⟨max n1 n2, fun n hn d hd => ?_⟩
        rcases List.mem_cons.mp hd with rfl | hd
        · obtain ⟨h3, h4⟩ := h2 n (by omega)
          have hdok := (hsub d hc).ok
          simp only [branch, hsc, Option.bind_some]
          cases hgd : getter (entry d) with
          | some g =>
            refine ⟨?_, by simp⟩
            have hleaf : d.children = [] := by
              have hgd' : (if d.info.type = tTable then none else d.info.cb.get) = some g := hgd
              by_cases ht : d.info.type = tTable
              · rw [if_pos ht] at hgd'; cases hgd'
              · rw [if_neg ht] at hgd'
                exact hdok.leaf ht (by rw [hgd']; simp)
            intro q h
            simp only [List.mem_singleton, Prod.mk.injEq]
            constructor
            · rintro ⟨rfl, rfl⟩
              exact ⟨[], by simp, by simp, d, rfl, hgd⟩
            · rintro ⟨r, hq, _, e, he, hge⟩
              cases r with
              | nil =>
                simp only [nodeOf, Option.some.injEq] at he
                subst he
                rw [hgd] at hge
                exact ⟨hq, by cases hge; rfl⟩
              | cons t r =>
                simp only [nodeOf, child, hleaf, List.find?_nil] at he
                cases he
          | none =>
            refine ⟨?_, h4⟩
            intro q h
            simp only
            rw [h3]
            constructor
            · rintro ⟨r, _, hq, ht, e, he, hge⟩
              exact ⟨r, by rw [hq]; simp, ht, e, he, hge⟩
            · rintro ⟨r, hq, ht, e, he, hge⟩
              refine ⟨r, ?_, by rw [hq]; simp, ht, e, he, hge⟩
              intro h0
              subst h0
              simp only [nodeOf, Option.some.injEq] at he
              subst he
              rw [hgd] at hge
              cases hge
        · exact h1 n (by omega) d hd
    obtain ⟨n0, h0⟩ := key m.children (fun c hc => hc)
    refine ⟨n0 + 1, fun n hn => ?_⟩
    obtain ⟨n', rfl⟩ : ∃ n', n = n' + 1 := ⟨n - 1, by omega⟩
    rw [under_succ _ _ _ hsp]
    have h0 := h0 n' (by omega)
    constructor
    · intro q h
      rw [List.mem_flatMap]
      constructor
      · rintro ⟨t, ht, hq⟩
        rw [List.mem_filter] at ht
        obtain ⟨ht, hnt⟩ := ht
        obtain ⟨c, hc, rfl⟩ := List.mem_map.mp ht
        obtain ⟨r, hr, htr, d, hd, hgd⟩ := ((h0 c hc).1 q h).mp hq
        refine ⟨c.info.name :: r, by simp, hr, ?_, d, ?_, hgd⟩
        · simp only [List.mem_cons, not_or]
          exact ⟨fun h => by simp [h] at hnt, htr⟩
        · simp only [nodeOf, child_self hneat.ok.nodup hc, hd]
      · rintro ⟨r, hr, hq, htr, d, hd, hgd⟩
        cases r with
        | nil => exact absurd rfl hr
        | cons t r =>
          simp only [List.mem_cons, not_or] at htr
          simp only [nodeOf] at hd
          cases hc : child m t with
          | none => simp only [hc] at hd; cases hd
          | some c =>
            simp only [hc] at hd
            obtain ⟨hcm, hcn⟩ := child_mem hc
            refine ⟨t, List.mem_filter.mpr ⟨child_below hc, by simpa using Ne.symm htr.1⟩, ?_⟩
            rw [← hcn]
            exact ((h0 c hcm).1 q h).mpr ⟨r, by rw [hcn]; exact hq, htr.2, d, hd, hgd⟩
    · have hnd : ((entry m).below.filter (· ≠ template)).Nodup := hneat.ok.nodup.filter _
      have hall : ∀ t ∈ (entry m).below.filter (· ≠ template), ((branch (seen T) n' p t).map (·.1)).Nodup ∧
          ∀ q ∈ (branch (seen T) n' p t).map (·.1), ∃ r, q = p ++ t :: r := by
        intro t ht
        obtain ⟨c, hc, rfl⟩ := List.mem_map.mp (List.mem_filter.mp ht).1
        refine ⟨(h0 c hc).2, ?_⟩
        intro q hq
        obtain ⟨⟨q', h⟩, hx, rfl⟩ := List.mem_map.mp hq
        obtain ⟨r, hr, _⟩ := ((h0 c hc).1 q' h).mp hx
        exact ⟨r, hr⟩
      generalize (entry m).below.filter (· ≠ template) = l at hnd hall
      induction l with
      | nil => simp
      | cons t l ihl =>
        rw [List.nodup_cons] at hnd
        rw [List.flatMap_cons, List.map_append, List.nodup_append]
        refine ⟨(hall t (by simp)).1, ihl hnd.2 (fun u hu => hall u (by simp [hu])), ?_⟩
        intro a ha b hb hab
        obtain ⟨r, hr⟩ := (hall t (by simp)).2 a ha
        obtain ⟨x, hx, hxb⟩ := List.mem_map.mp hb
        obtain ⟨u, hu, hxu⟩ := List.mem_flatMap.mp hx
        obtain ⟨r', hr'⟩ := (hall u (by simp [hu])).2 b (by rw [← hxb]; exact List.mem_map_of_mem hxu)
        rw [hab, hr'] at hr
        have := List.append_cancel_left hr
        simp only [List.cons.injEq] at this
        exact hnd.1 (this.1 ▸ hu)

end Verif.GatherProof
