import Verif.Proof.GetExt
import Verif.Props.Gather
import Verif.Props.Params

/-!
# C83: getting one name, or one query from several providers
-/

namespace Verif.Props

open Verif Verif.Params Verif.GetExt
open Verif.Spec.GetExt (contribution contributions collect EventOrMethod)

/-! ## A small world for the examples -/

private def xA : Comp := [65]
private def xB : Comp := [66]
private def xC : Comp := [67]

/-- The query `D.` -/
private def xQuery : Name := [68, 46]

/-- Providers with an element `x` and given answers to queries. -/
private def xWorld (wild : Comp → Nat × List Prop') (fates : List Fate) : World :=
  ⟨fun c => ⟨fun n => if n = [120] then some ⟨true, true⟩ else none, fun _ => wild c, fun _ => some [7], [], []⟩,
    fun n => if n = [120] then [xA] else [], fates, []⟩

/-- One value of `A`, two of `B`. -/
private def xValues : Comp → Nat × List Prop' := fun c =>
  if c = xA then (0, [([68, 46, 97], some [1])]) else if c = xB then (0, [([68, 46, 98], some [2]), ([68, 46, 99], none)]) else (0, [])

/-! ## Single names -/

private theorem validQuery_iff (n : Name) : validQuery n = true ↔ ¬ EventOrMethod n := by
  simp [validQuery, EventOrMethod]
  grind

/-- Getting a single name: the first provider that the router has for it gets one request, and its get handler is called once,
for this name. With success the caller gets exactly the value the handler gave. An element without a get handler and a missing
one are told apart; codes of handlers below 100 arrive as they are. -/
theorem C83_single {w : World} {n : Name} (hn : isWildcard n = false) (hv : ¬ EventOrMethod n) {c : Comp} {cs : List Comp}
    (hr : w.routes n = c :: cs) (hf : w.fate = .answered) :
    (getOne w n).2 =
      (match (w.at' c).elem n with
      | none => (17, none)
      | some e =>
        if e.get then
          if (w.at' c).code = 0 then (0, some ((w.at' c).store n))
          else if (w.at' c).code = 100 then (8, none) else (readCode (w.at' c).code, none)
        else (9, none)) ∧
    ((getOne w n).1.at' c).calls = (w.at' c).calls ++
      (match (w.at' c).elem n with
      | some e => if e.get then [.get n (w.at' c).code] else []
      | none => []) ∧
    ∀ d, d ≠ c → (getOne w n).1.at' d = w.at' d := by
  have hv := (validQuery_iff n).mpr hv
  have hone : handleGet (w.at' c) [n] = getLoop [n] [] (w.at' c) := by simp [handleGet]
  simp only [getOne, hv, Bool.not_true, Bool.false_eq_true, if_false, hn, hr, invoke, hf, hone]
  cases he : (w.at' c).elem n with
  | none =>
    simp only [getLoop, hn, Bool.false_eq_true, if_false, he]
    refine ⟨rfl, by simp [World.put, isSuccess, eElementMissing, eSuccess, legacySuccess], ?_⟩
    intro d hd
    simp [isSuccess, eElementMissing, eSuccess, legacySuccess, World.put, hd]
  | some e =>
    by_cases hg : e.get = true
    · by_cases hc : (w.at' c).code = 0
      · simp [getLoop, hn, he, hg, callGet, hc, isSuccess, eSuccess, World.put]
        intro d hd h; exact absurd h hd
      · by_cases h100 : (w.at' c).code = 100
        · simp [getLoop, hn, he, hg, callGet, h100, isSuccess, eSuccess, legacySuccess, World.put, eInvalidResponse]
          intro d hd h; exact absurd h hd
        · simp [getLoop, hn, he, hg, callGet, hc, h100, isSuccess, eSuccess, legacySuccess, World.put]
          intro d hd h; exact absurd h hd
    · simp [getLoop, hn, he, hg, isSuccess, eSuccess, legacySuccess, World.put, eInvalidOperation, readCode]
      intro d hd h; exact absurd h hd

example : (getOne (xWorld xValues []) [120]).2 = (0, some (some [7])) := by decide +kernel

/-- Names of events and methods, and queries with wildcards, are refused without a request. -/
theorem C83_refused {w : World} {n : Name} (h : isWildcard n = true ∨ EventOrMethod n) :
    (getOne w n).1 = w ∧ (EventOrMethod n → (getOne w n).2 = (2, none)) ∧ (¬ EventOrMethod n → (getOne w n).2 = (18, none)) := by
  have hv := validQuery_iff n
  unfold getOne
  by_cases he : EventOrMethod n
  · have : validQuery n = false := by
      cases hx : validQuery n
      · rfl
      · exact absurd he (hv.mp hx)
    simp [this, he, eInvalidInput]
  · have h1 := hv.mpr he
    have h2 := h.resolve_right he
    simp [h1, h2, he, eAccess]

example : isWildcard xQuery = true ∧ EventOrMethod [120, 40, 41] ∧ EventOrMethod [120, 33] :=
  ⟨by decide +kernel, by simp [EventOrMethod], by simp [EventOrMethod]⟩

/-- A request that is lost, or whose answer is lost, or that no provider is there for, gives an error and no value. -/
theorem C83_lost {w : World} {n : Name} (h : w.routes n = [] ∨ w.fate ≠ .answered) :
    (getOne w n).2.1 ≠ 0 ∧ (getOne w n).2.2 = none := by
  unfold getOne
  split
  · exact ⟨Nat.succ_ne_zero _, rfl⟩
  · split
    · exact ⟨Nat.succ_ne_zero _, rfl⟩
    · cases hr : w.routes n with
      | nil => exact ⟨Nat.succ_ne_zero _, rfl⟩
      | cons c cs =>
        have hf := h.resolve_left (by simp [hr])
        simp only [invoke]
        cases hw : w.fate with
        | answered => exact absurd hw hf
        | lost e => exact ⟨GetExtProof.core_ne e, rfl⟩
        | unanswered e => exact ⟨GetExtProof.core_ne e, rfl⟩

example : (getOne (xWorld xValues [.lost .timedOut]) [120]).2 = (20, none) := by decide +kernel

/-- With a list of one name that is not a query, the number of values is 1 exactly with success, and the list then has the one
value under its name; otherwise the list is NULL. -/
theorem C83_list_of_one {w : World} {n : Name} (hn : isWildcard n = false) (found : Option (List Comp)) (null : Bool) :
    (getExt w [n] found null).1 = (getOne w n).1 ∧
    (∀ v, (getOne w n).2 = (0, some v) → (getExt w [n] found null).2 = .ok ⟨0, some 1, .list [(n, v)]⟩) ∧
    (∀ e, e ≠ 0 → (getOne w n).2.1 = e → (getExt w [n] found null).2 = .ok ⟨e, some 0, .null⟩) := by
  have hc : ∀ v, (getOne w n).2.2 = some v → (getOne w n).2.1 = 0 := by
    intro v
    unfold getOne
    repeat' split
    all_goals (intro h; first | rfl | (simp at h; done))
  simp only [getExt, hn, Bool.false_eq_true, if_false]
  revert hc
  generalize getOne w n = x
  obtain ⟨w', c, o⟩ := x
  intro hc
  cases o with
  | none =>
    refine ⟨rfl, ?_, ?_⟩
    · intro v h; simp at h
    · intro e _ h; simp only at h; subst h; rfl
  | some v =>
    have : c = 0 := hc v rfl
    subst this
    refine ⟨rfl, ?_, ?_⟩
    · intro v' h
      simp only [Prod.mk.injEq, Option.some.injEq, true_and] at h
      subst h; rfl
    · intro e he h; exact absurd h.symm he

example : (getExt (xWorld xValues []) [[120]] none false).2 = .ok ⟨0, some 1, .list [([120], some [7])]⟩ := by
  rw [(C83_list_of_one (by decide +kernel) none false).2.1 _ rfl]
  rfl

/-! ## Queries -/

/-- A query goes to the destinations the router has for it, one after another. If the first of them gives values, the caller
gets success and the values of all destinations up to the first one that fails, in order, and their number; whatever the
caller's pointer was before. Missing: first destinations that give no values, see the findings. -/
theorem C83_query_partial {w : World} {n : Name} (hn : isWildcard n = true) {c : Comp} {cs : List Comp} (null : Bool)
    (h2 : (contribution w.fate (w.at' c) n).2 ≠ []) :
    (getExt w [n] (some (c :: cs)) null).2 =
      .ok ⟨0, some (collect (contributions w n w.fates (c :: cs))).2.length,
        .list (collect (contributions w n w.fates (c :: cs))).2⟩ := by
  have key : (wildLoop n (c :: cs) true false 0 .before w).2 =
      .ok ⟨(collect (contributions w n w.fates (c :: cs))).1, some (collect (contributions w n w.fates (c :: cs))).2.length,
        .list (collect (contributions w n w.fates (c :: cs))).2⟩ := by
    obtain ⟨w', ha, hf, _, hc⟩ := GetExtProof.invoke_wild (w := w) (c := c) hn
    have hfate : w.fate = w.fates.headD .answered := rfl
    rw [hfate] at h2
    rcases hc with ⟨e, hi, hc⟩ | ⟨r, hi, hc⟩
    · rw [hc] at h2; exact absurd rfl h2
    · by_cases hs : isSuccess r.code = true
      · rw [if_pos hs] at hc
        have hp : r.props ≠ [] := by rw [hc] at h2; exact h2
        have := GetExtProof.loop_rest hn cs (0 + r.props.length) r.props w'
        rw [GetExtProof.contributions_congr ha, hf] at this
        have hd : (decide (r.props ≠ []) : Bool) = true := decide_eq_true hp
        simp only [wildLoop, hi, if_pos hs, if_true, takeFirst, if_neg hp, hd, this, contributions, hc, collect]
        simp
      · rw [if_neg hs] at hc
        rw [hc] at h2
        exact absurd rfl h2
  have hsplit : ∀ x : World × Res Result, x.2 = (wildLoop n (c :: cs) true false 0 .before w).2 →
      (match x with
        | (w', .ok r) => (w', (.ok (wildCode null r) : Res Result))
        | (w', .fail) => (w', .fail)
        | (w', .ub) => (w', .ub)).2 =
      .ok ⟨0, some (collect (contributions w n w.fates (c :: cs))).2.length,
        .list (collect (contributions w n w.fates (c :: cs))).2⟩ := by
    rintro ⟨w', r⟩ hx
    rw [key] at hx
    simp only at hx
    subst hx
    simp only [wildCode, eSuccess]
    split
    · rfl
    next h0 =>
      have : (collect (contributions w n w.fates (c :: cs))).1 = 0 := by
        apply Decidable.byContradiction
        intro h
        exact h0 (by simp [h])
      rw [this]
  simp only [getExt, hn, if_true]
  exact hsplit _ rfl

/-- Two providers give values. -/
example : (getExt (xWorld xValues []) [xQuery] (some [xA, xB]) true).2 =
    .ok ⟨0, some 3, .list [([68, 46, 97], some [1]), ([68, 46, 98], some [2]), ([68, 46, 99], none)]⟩ := by
  rw [C83_query_partial (by decide +kernel) true (by decide +kernel)]
  decide +kernel

/-- If all requests are answered with success and the first destination gives values, the caller gets all values of all
destinations. -/
theorem C83_complete_partial {w : World} {n : Name} (hn : isWildcard n = true) {c : Comp} {cs : List Comp} (null : Bool)
    (hf : ∀ f ∈ w.fates.take (cs.length + 1), f = .answered) (hall : ∀ d ∈ c :: cs, ((w.at' d).wild n).1 = 0)
    (h2 : ((w.at' c).wild n).2 ≠ []) :
    (getExt w [n] (some (c :: cs)) null).2 =
      .ok ⟨0, some ((c :: cs).flatMap fun d => ((w.at' d).wild n).2).length, .list ((c :: cs).flatMap fun d => ((w.at' d).wild n).2)⟩ := by
  have key : ∀ (cs : List Comp) (fs : List Fate), (∀ f ∈ fs.take cs.length, f = .answered) → (∀ d ∈ cs, ((w.at' d).wild n).1 = 0) →
      collect (contributions w n fs cs) = (0, cs.flatMap fun d => ((w.at' d).wild n).2) := by
    intro cs
    induction cs with
    | nil => intro fs _ _; rfl
    | cons d cs ih =>
      intro fs hf hall
      have hh : fs.headD .answered = .answered := by
        cases fs with
        | nil => rfl
        | cons f fs => exact hf f (by simp)
      have ih := ih fs.tail (by
        intro f hf'
        cases fs with
        | nil => simp at hf'
        | cons g fs => exact hf f (by simp only [List.tail_cons] at hf'; simp [hf'])) (fun e he => hall e (by simp [he]))
      simp only [contributions, hh, contribution, hall d (by simp), if_true, collect, ih, List.flatMap_cons]
  have hfate : w.fate = .answered := by
    unfold World.fate
    cases hfs : w.fates with
    | nil => rfl
    | cons f fs => exact hf f (by rw [hfs]; simp)
  have hc0 : contribution w.fate (w.at' c) n = (0, ((w.at' c).wild n).2) := by
    rw [hfate]
    simp [contribution, hall c (by simp)]
  rw [C83_query_partial hn null (by rw [hc0]; exact h2), key (c :: cs) w.fates hf hall]

example : ∀ d ∈ [xA, xB], ((xWorld xValues []).at' d).wild xQuery = xValues d := by decide +kernel

/-- If no destination gives a value and the caller's pointer was NULL, the code is that of the first destination that fails,
or success, and the pointer stays NULL. -/
theorem C83_nothing_partial {w : World} {n : Name} (hn : isWildcard n = true) {cs : List Comp} (hne : cs ≠ [])
    (he : ∀ x ∈ contributions w n w.fates cs, x.2 = []) :
    (getExt w [n] (some cs) true).2 = .ok ⟨(collect (contributions w n w.fates cs)).1, some 0, .before⟩ := by
  have key := GetExtProof.loop_empty hn cs true 0 w he
  have hsplit : ∀ x : World × Res Result, x.2 = (wildLoop n cs true false 0 .before w).2 →
      (match x with
        | (w', .ok r) => (w', (.ok (wildCode true r) : Res Result))
        | (w', .fail) => (w', .fail)
        | (w', .ub) => (w', .ub)).2 = .ok ⟨(collect (contributions w n w.fates cs)).1, some 0, .before⟩ := by
    rintro ⟨w', r⟩ hx
    rw [key] at hx
    simp only at hx
    subst hx
    simp [wildCode]
  cases cs with
  | nil => exact absurd rfl hne
  | cons c cs =>
    simp only [getExt, hn, if_true]
    exact hsplit _ rfl

/-- The only destination does not answer. -/
example : (getExt (xWorld xValues [.lost .timedOut]) [xQuery] (some [xA]) true).2 = .ok ⟨20, some 0, .before⟩ := by
  rw [C83_nothing_partial (by decide +kernel) (by decide) (by decide +kernel)]
  decide +kernel

/-! ## From the elements of several providers to one answer -/

/-- A partial path asked of several providers, all of which have it, and whose handlers succeed, gives the value of every
readable element below it at every provider, and no other values. Missing: as before. -/
theorem C83_end_to_end_partial {w : World} {D : Comp → List Spec.Provider.Decl} {h : Comp → List (Rows.Op × Rows.Out)}
    {T : Comp → Element.Tree} {f : Comp → Nat → Bytes → Value} {p : Element.Path} {c : Comp} {cs : List Comp} (null : Bool)
    (hu : ∀ d ∈ c :: cs, Spec.Rows.Usage (D d) (h d) (T d)) (hp : ∀ d ∈ c :: cs, Spec.Gather.Proper (D d))
    (hw : p ≠ [] ∧ ∀ t ∈ p, Spec.Rows.Exact [t] ∧ (42 : UInt8) ∉ t ∧ (123 : UInt8) ∉ t)
    (hex : ∀ d ∈ c :: cs, Spec.Rows.seen (T d) p ≠ none) (hlen : (Spec.Rows.join p).length ≤ 255)
    (hwild : ∀ d ∈ c :: cs, ∀ code vs calls, Gather.answer (fun _ g n => ⟨0, f d g n, []⟩) (T d) (Spec.Rows.join p) =
      .done (code, vs, calls) → (w.at' d).wild (Spec.Rows.join p) = (code, vs))
    (hf : ∀ x ∈ w.fates.take (cs.length + 1), x = .answered)
    (hfirst : ∃ r g, r ≠ [] ∧ Spec.Rows.Exact r ∧ Element.template ∉ r ∧
      (Spec.Rows.seen (T c) (p ++ r)).bind Spec.Gather.getter = some g) :
    ∃ vs, (getExt w [Spec.Rows.join p] (some (c :: cs)) null).2 = .ok ⟨0, some vs.length, .list vs⟩ ∧
      ∀ n v, (n, v) ∈ vs ↔ ∃ d ∈ c :: cs, ∃ r g, r ≠ [] ∧ Spec.Rows.Exact r ∧ Element.template ∉ r ∧
        n = Subs.fullText (p ++ r) ∧ (Spec.Rows.seen (T d) (p ++ r)).bind Spec.Gather.getter = some g ∧ v = f d g n := by
  have hone : ∀ d ∈ c :: cs, ((w.at' d).wild (Spec.Rows.join p)).1 = 0 ∧ ∀ n v, (n, v) ∈ ((w.at' d).wild (Spec.Rows.join p)).2 ↔
      ∃ r g, r ≠ [] ∧ Spec.Rows.Exact r ∧ Element.template ∉ r ∧ n = Subs.fullText (p ++ r) ∧
        (Spec.Rows.seen (T d) (p ++ r)).bind Spec.Gather.getter = some g ∧ v = f d g n := by
    intro d hd
    obtain ⟨vs, calls, ha, _, hm⟩ := C82_values_partial (hu d hd) (hp d hd) (f := f d) hw (hex d hd) hlen
    rw [hwild d hd 0 vs calls ha]
    exact ⟨rfl, hm⟩
  have hwc : isWildcard (Spec.Rows.join p) = true := by
    rw [← GatherProof.join_full hw.1]
    simp [isWildcard]
  refine ⟨_, C83_complete_partial hwc null hf (fun d hd => (hone d hd).1) ?_, ?_⟩
  · intro h0
    obtain ⟨r, g, h1, h2, h3, h4⟩ := hfirst
    have := ((hone c (by simp)).2 (Subs.fullText (p ++ r)) (f c g (Subs.fullText (p ++ r)))).mpr ⟨r, g, h1, h2, h3, rfl, h4, rfl⟩
    rw [h0] at this
    cases this
  · intro n v
    rw [List.mem_flatMap]
    constructor
    · rintro ⟨d, hd, hx⟩; exact ⟨d, hd, ((hone d hd).2 n v).mp hx⟩
    · rintro ⟨d, hd, hx⟩; exact ⟨d, hd, ((hone d hd).2 n v).mpr hx⟩

/-! ## Findings -/

/-- If the first destination fails and the caller's pointer was not NULL before the call, the caller gets success, no values, and
its pointer as it was, though the interface says it is set. -/
theorem C83_stale_fails : (getExt (xWorld xValues [.lost .timedOut]) [xQuery] (some [xA, xB]) false).2 =
    .ok ⟨0, some 0, .before⟩ := by decide +kernel

/-- With no error at all the caller's pointer stays as it was if no destination has values. -/
theorem C83_unset_fails : (getExt (xWorld (fun _ => (0, [])) []) [xQuery] (some [xA, xB]) false).2 =
    .ok ⟨0, some 0, .before⟩ := by decide +kernel

/-- If the first destination has no values and the second has, the caller gets success and a pointer to properties that were
freed. -/
theorem C83_freed_fails : (getExt (xWorld xValues []) [xQuery] (some [xC, xA]) true).2 = .ok ⟨0, some 1, .freed⟩ := by
  decide +kernel

/-- With a third destination that has values, the freed properties are used in the call itself. -/
theorem C83_use_after_free_fails : (getExt (xWorld xValues []) [xQuery] (some [xC, xA, xB]) true).2 = .ub := by
  decide +kernel

/-- A destination that fails after others gave values is not reported: the caller gets success and part of the values, and the
destinations behind it are not asked. -/
theorem C83_hidden_failure_fails :
    (getExt (xWorld (fun c => if c = xB then (1, []) else xValues xA) []) [xQuery] (some [xA, xB, xC]) true).2 =
      .ok ⟨0, some 1, .list [([68, 46, 97], some [1])]⟩ := by decide +kernel

/-- If the destinations of a query cannot be found, neither the number of values nor the pointer is written. -/
theorem C83_number_unset_fails (w : World) (null : Bool) : (getExt w [xQuery] none null).2 = .ok ⟨17, none, .before⟩ := by
  rfl

end Verif.Props
