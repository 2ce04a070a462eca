import Verif.Proof.ParamsGet

/-!
# C37, C38, C39, C63, C64, C65: setting and getting several parameters

A provider's handlers are a store and a list of codes for the coming handler calls; see Model/Params.
`Known p n`: the provider has parameter `n` with a get and a set handler. `failures p`: how many of the coming
handler calls will fail. `after s l`: the values `s` with those of `l` put in. `Answered w`: no call on the bus
is lost. `Routed w names`: each name has one provider.
-/

namespace Verif.Props

open Verif Verif.Params
open Verif.Spec.Params

/-! ## A small world for the examples -/

/-- A provider whose parameters all hold 0; `codes` are the results of the coming handler calls. -/
def zeros (codes : List Nat) : Provider :=
  { elem := fun _ => some ⟨true, true⟩, wild := fun _ => (0, []), store := fun _ => some [48], codes, calls := [] }

/-- The same, without the parameter `x`. -/
def withoutX (codes : List Nat) : Provider :=
  { zeros codes with elem := fun n => if n = [120] then none else some ⟨true, true⟩ }

/-- Setting `a`, `b`, `c` to 1. -/
def three : List Item := [⟨[97], some [49], false⟩, ⟨[98], some [49], false⟩, ⟨[99], some [49], false⟩]

/-- `a` is at provider `A`, `b` at `B`, `c` at `C`, and nothing else is anywhere. -/
def homes : Name → List Comp := fun n =>
  if n = [97] then [[65]] else if n = [98] then [[66]] else if n = [99] then [[67]] else []

/-- Providers with the given codes to come, and the fates of the coming calls. -/
def trio (a b c : List Nat) (fates : List Fate) : World :=
  { at' := fun d => zeros (if d = [65] then a else if d = [66] then b else if d = [67] then c else []),
    routes := homes, fates, answers := [] }

/-- Setting parameters to 1. -/
def ones (names : Bytes) : List Prop' := names.map fun n => ([n], some [49])

/-! ## C37: one provider -/

/-- C37. When a set request succeeds, the provider's values are the old ones with those of the request put in. -/
theorem C37_success (p : Provider) (r : SetRequest) (h : (handleSet p r).2.code = 0) :
    (handleSet p r).1.store = after p.store (asked r.items) := by
  rw [after_writes]; exact handleSet_store h

example : (handleSet (zeros []) ⟨[65], true, three, true⟩).2.code = 0 ∧
    (handleSet (zeros []) ⟨[65], true, three, true⟩).1.store [98] = some [49] := by decide +kernel

/-- C37. Whatever happens, parameters that are not in the request keep their values. -/
theorem C37_others_untouched (p : Provider) (r : SetRequest) (n : Name) (h : n ∉ r.items.map (·.name)) :
    (handleSet p r).1.store n = p.store n := by
  unfold handleSet
  split
  · rfl
  · split
    · rfl
    · exact setLoop_untouched _ _ _ _ _ _ h (by simp)

example : [100] ∉ three.map (·.name) ∧
    (handleSet (zeros [0, 0, 0, 7]) ⟨[65], true, three, true⟩).2.code = 7 := by decide +kernel

/-- C37, in part. When a request of a multi-parameter set fails, nothing changed, if no name is repeated, all
parameters can be read and written, and only one handler call fails. Missing: repeated names
(`C37_repeated_fails`), parameters that are not there or cannot be written (`C37_missing_fails`), and handlers
that also fail during the rollback. -/
theorem C37_restored_partial (p : Provider) (comp : Comp) (commit : Bool) (items : List Item)
    (hk : ∀ i ∈ items, Known p i.name) (hnd : (items.map (·.name)).Nodup) (hone : failures p ≤ 1)
    (h : (handleSet p ⟨comp, true, items, commit⟩).2.code ≠ 0) :
    (handleSet p ⟨comp, true, items, commit⟩).1.store = p.store := by
  unfold handleSet at h ⊢
  split
  · rfl
  · split
    · rfl
    · rename_i x hx hb
      simp only [hx, hb] at h
      exact setLoop_restores commit p.store items [] p hk hnd (by simp) hone rfl (by simpa using h)

example : (∀ i ∈ three, Known (zeros [0, 0, 0, 0, 0, 7]) i.name) ∧ (three.map (·.name)).Nodup ∧
    failures (zeros [0, 0, 0, 0, 0, 7]) ≤ 1 ∧
    (handleSet (zeros [0, 0, 0, 0, 0, 7]) ⟨[65], true, three, true⟩).2.code ≠ 0 :=
  ⟨fun _ _ => rfl, by decide +kernel, by decide +kernel, by decide +kernel⟩

/-- C37 fails: when a parameter of the request is not there or cannot be written, the ones before it keep
their new values though the request reports failure, even if every handler works. -/
theorem C37_missing_fails (p : Provider) (comp : Comp) (commit : Bool) (before : List Item) (x : Item)
    (rest : List Item) (hgood : ∀ i ∈ before ++ x :: rest, i.bad = false)
    (hb : ∀ i ∈ before, Known p i.name) (hz : failures p = 0)
    (hx : ∀ e, p.elem x.name = some e → e.set = false) :
    (handleSet p ⟨comp, true, before ++ x :: rest, commit⟩).2.code ≠ 0 ∧
      (handleSet p ⟨comp, true, before ++ x :: rest, commit⟩).1.store = after p.store (asked before) := by
  rw [handleSet_good _ _ (by simp) hgood, after_writes]
  obtain ⟨h1, h2⟩ := setLoop_stops true commit before x rest [] p (fun i hi => ⟨_, hb i hi, rfl⟩)
    (failures_zero (Nat.le_of_eq hz)) hx
  exact ⟨h2, h1⟩

example : (handleSet (withoutX []) ⟨[65], true, three ++ [⟨[120], some [49], false⟩], true⟩).2.code = eElementMissing ∧
    (handleSet (withoutX []) ⟨[65], true, three ++ [⟨[120], some [49], false⟩], true⟩).1.store [97] = some [49] ∧
    (withoutX []).store [97] = some [48] := by decide +kernel

/-- C37 fails: a parameter named twice is left with its first new value when a later one fails, because the
kept values are put back in the order in which they were kept. -/
theorem C37_repeated_fails : ∃ (p : Provider) (items : List Item), (∀ i ∈ items, Known p i.name) ∧
    failures p = 1 ∧ (handleSet p ⟨[65], true, items, true⟩).2.code ≠ 0 ∧
    (handleSet p ⟨[65], true, items, true⟩).1.store [97] ≠ p.store [97] :=
  ⟨zeros [0, 0, 0, 0, 0, 7],
    [⟨[97], some [49], false⟩, ⟨[97], some [50], false⟩, ⟨[98], some [49], false⟩],
    fun _ _ => rfl, by decide +kernel, by decide +kernel, by decide +kernel⟩

/-- C37 fails: a value that cannot be decoded is handed to the set handler as no value, and the request
succeeds, unless it is the last one. -/
theorem C37_undecodable_fails : ∃ (p : Provider) (items : List Item), (∃ i ∈ items, i.bad = true) ∧
    (handleSet p ⟨[65], true, items, true⟩).2.code = 0 ∧
    (handleSet p ⟨[65], true, items, true⟩).1.store [97] = none ∧ p.store [97] ≠ none :=
  ⟨zeros [], [⟨[97], none, true⟩, ⟨[98], some [49], false⟩], ⟨⟨[97], none, true⟩, by simp, rfl⟩, by decide +kernel,
    by decide +kernel, by decide +kernel⟩

/-! ## C63: committing -/

/-- C63. A request that succeeds calls the set handlers in order, once for each parameter with its value, and
only the last call commits, if the request asks for that at all. -/
theorem C63_commit_last (p : Provider) (r : SetRequest) (h : (handleSet p r).2.code = 0) :
    setCalls (handleSet p r).1.calls = setCalls p.calls ++
      r.items.mapIdx fun i it => (it.name, it.value, r.commit && decide (i + 1 = r.items.length)) := by
  unfold handleSet at h ⊢
  split at h
  · simp [eInvalidInput] at h
  · split at h
    · simp [eInvalidInput] at h
    · rename_i hb
      rw [if_neg hb]
      exact (setLoop_success _ _ _ _ _ h).2.2

example : (handleSet (zeros []) ⟨[65], true, three, true⟩).2.code = 0 ∧
    setCalls (handleSet (zeros []) ⟨[65], true, three, true⟩).1.calls =
      [([97], some [49], false), ([98], some [49], false), ([99], some [49], true)] := by decide +kernel

/-! ## C38: several providers -/

/-- C38, in part. A multi-parameter set that reports success has set every parameter at its provider and
nothing else, if no call is lost, each parameter has one provider and no set handler answers 100. Missing:
`C38_lost_fails`, `C38_legacy_fails`. -/
theorem C38_success_partial (w : World) (comp : Comp) (props : List Prop') (commit tell : Bool)
    (ha : Answered w) (hr : Routed w (props.map (·.1)))
    (h100 : ∀ y ∈ props, ∀ c, w.routes y.1 = [c] → legacySuccess ∉ (w.at' c).codes)
    (h : (setMulti w comp props.length props commit tell).2.code = 0) (c : Comp) (n : Name) :
    ((setMulti w comp props.length props commit tell).1.at' c).store n =
      if w.routes n = [c] then after (w.at' c).store props n else (w.at' c).store n := by
  rw [after_writes]
  exact setProps_success comp true commit tell _ w props ha hr h100 h c n

theorem routed_abc (names : List Name) (h : ∀ n ∈ names, n ∈ [[97], [98], [99]]) (a b c : List Nat) (f : List Fate) :
    Routed (trio a b c f) names := by
  intro n hn
  have := h n hn
  simp only [List.mem_cons, List.not_mem_nil, or_false] at this
  rcases this with rfl | rfl | rfl
  · exact ⟨[65], rfl⟩
  · exact ⟨[66], rfl⟩
  · exact ⟨[67], rfl⟩

example : Answered (trio [] [] [] []) ∧ Routed (trio [] [] [] []) ((ones [97, 98, 99]).map (·.1)) ∧
    (setMulti (trio [] [] [] []) [] 3 (ones [97, 98, 99]) true false).2.code = 0 ∧
    ((setMulti (trio [] [] [] []) [] 3 (ones [97, 98, 99]) true false).1.at' [66]).store [98] = some [49] :=
  ⟨by simp [Answered, trio], routed_abc _ (by decide +kernel) _ _ _ _, by decide +kernel, by decide +kernel⟩

/-- C38, in part. A multi-parameter set over two providers that reports failure has changed nothing anywhere,
if no call is lost, no name is repeated, all parameters can be read and written and have a value, and only one
handler call fails. Missing: three providers (`C38_three_fails`) and what C37 misses. -/
theorem C38_failure_partial (w : World) (comp : Comp) (props : List Prop') (commit tell : Bool) (c1 c2 bad : Comp)
    (ha : Answered w) (hnd : (props.map (·.1)).Nodup)
    (hr : ∀ y ∈ props, w.routes y.1 = [c1] ∨ w.routes y.1 = [c2])
    (hk : ∀ y ∈ props, ∀ c, w.routes y.1 = [c] → Known (w.at' c) y.1 ∧ (w.at' c).store y.1 ≠ none)
    (hone : ∀ c, failures (w.at' c) ≤ if c = bad then 1 else 0)
    (h : (setMulti w comp props.length props commit tell).2.code ≠ 0) (c : Comp) :
    ((setMulti w comp props.length props commit tell).1.at' c).store = (w.at' c).store :=
  setMulti_fails w comp props commit tell c1 c2 bad ha hnd hr hk hone h c

example : (setMulti (trio [] [0, 7] [] []) [] 2 (ones [97, 98]) true false).2.code = 7 ∧
    Answered (trio [] [0, 7] [] []) ∧ ((ones [97, 98]).map (·.1)).Nodup ∧
    (∀ y ∈ ones [97, 98], homes y.1 = [[65]] ∨ homes y.1 = [[66]]) ∧
    (∀ c, failures ((trio [] [0, 7] [] []).at' c) ≤ if c = [66] then 1 else 0) := by
  refine ⟨by decide +kernel, by simp [Answered, trio], by decide +kernel, by decide +kernel, fun c => ?_⟩
  by_cases h1 : c = [65]
  · subst h1; decide +kernel
  · by_cases h2 : c = [66]
    · subst h2; decide +kernel
    · simp [trio, zeros, failures, h1, h2]

/-- C38 fails: when the call to one provider is lost and the call to the next succeeds, the set reports
success though the first provider never got its parameter. -/
theorem C38_lost_fails : ∃ (w : World) (props : List Prop'), Routed w (props.map (·.1)) ∧
    (setMulti w [] props.length props true false).2.code = 0 ∧
    ∃ y ∈ props, ∃ c, w.routes y.1 = [c] ∧
      ((setMulti w [] props.length props true false).1.at' c).store y.1 ≠ y.2 :=
  ⟨trio [] [] [] [.answered, .lost .timedOut], ones [97, 98], routed_abc _ (by decide +kernel) _ _ _ _,
    by decide +kernel, ([97], some [49]), by decide +kernel, [65], rfl, by decide +kernel⟩

/-- C38 fails: with three providers, a failure at the third leaves the first one changed, though no call is
lost and no other handler fails. -/
theorem C38_three_fails : ∃ (w : World) (props : List Prop'), Answered w ∧ Routed w (props.map (·.1)) ∧
    (props.map (·.1)).Nodup ∧ (∀ c n, Known (w.at' c) n ∧ (w.at' c).store n ≠ none) ∧
    (∀ c, failures (w.at' c) ≤ if c = [67] then 1 else 0) ∧
    (setMulti w [] props.length props true false).2.code ≠ 0 ∧
    ((setMulti w [] props.length props true false).1.at' [65]).store [97] ≠ (w.at' [65]).store [97] := by
  refine ⟨trio [] [] [0, 7] [], ones [97, 98, 99], by simp [Answered, trio], routed_abc _ (by decide +kernel) _ _ _ _,
    by decide +kernel, fun c n => ⟨rfl, by simp [trio, zeros]⟩, fun c => ?_, by decide +kernel, by decide +kernel⟩
  by_cases h3 : c = [67]
  · subst h3; decide +kernel
  · simp [trio, zeros, failures, h3]

/-- C38 fails: a set handler that refuses with code 100 makes the set report success. -/
theorem C38_legacy_fails : ∃ (w : World) (props : List Prop'), Answered w ∧ Routed w (props.map (·.1)) ∧
    (setMulti w [] props.length props true false).2.code = 0 ∧
    ((setMulti w [] props.length props true false).1.at' [66]).store [98] = (w.at' [66]).store [98] ∧
    ([98], some [49]) ∈ props ∧ (w.at' [66]).store [98] = some [48] :=
  ⟨trio [] [0, 100] [] [], ones [97, 98], by simp [Answered, trio], routed_abc _ (by decide +kernel) _ _ _ _,
    by decide +kernel, by decide +kernel, by decide +kernel, by decide +kernel⟩

/-! ## C39: getting -/

/-- C39, in part. A multi-parameter get that reports success returns each requested parameter once, with the
value its provider has, whatever becomes of the calls, if no name is a wildcard, no name has several providers,
and every answer that arrived said success. Missing: answers that did not (`C39_hidden_fails`), wildcards
(`C39_wildcard_fails`). -/
theorem C39_complete_partial (w : World) (names : List Name) (l : List Nat)
    (hr : ∀ n ∈ names, (w.routes n).length ≤ 1) (hw : ∀ n ∈ names, isWildcard n = false)
    (hl : (getMany w names).1.answers = w.answers ++ l) (hz : ∀ k ∈ l, k = 0)
    (h : (getMany w names).2.code = 0) :
    ((getMany w names).2.props.map (·.1)).Perm names ∧ (getMany w names).2.num = names.length ∧
      ∀ y ∈ (getMany w names).2.props, ∃ c, w.routes y.1 = [c] ∧ y.2 = (w.at' c).store y.1 :=
  getMany_complete w names l hr hw hl hz h

example : (getMany (trio [] [] [] []) [[97], [98], [99]]).2.code = 0 ∧
    (getMany (trio [] [] [] []) [[97], [98], [99]]).1.answers = [] ++ [0, 0, 0] ∧
    (getMany (trio [] [] [] []) [[97], [98], [99]]).2.props =
      [([97], some [48]), ([98], some [48]), ([99], some [48])] := by decide +kernel

/-- C39, in part: the same for parameters of one provider, without looking at the answers, if none of its
handlers answers 100. -/
theorem C39_one_provider_partial (w : World) (names : List Name) (c : Comp) (hne : names ≠ [])
    (hr : ∀ n ∈ names, w.routes n = [c]) (hw : ∀ n ∈ names, isWildcard n = false)
    (h100 : legacySuccess ∉ (w.at' c).codes) (h : (getMany w names).2.code = 0) :
    ((getMany w names).2.props.map (·.1)).Perm names ∧ (getMany w names).2.num = names.length ∧
      ∀ y ∈ (getMany w names).2.props, y.2 = (w.at' c).store y.1 := by
  obtain ⟨l, hl, hz⟩ := getMany_one w names c hne hr hw h100 h
  obtain ⟨h1, h2, h3⟩ := getMany_complete w names l (fun n hn => by simp [hr n hn]) hw hl hz h
  refine ⟨h1, h2, fun y hy => ?_⟩
  obtain ⟨d, hd, hv⟩ := h3 y hy
  have := hr y.1 (h1.mem_iff.1 (List.mem_map_of_mem hy))
  rw [hd] at this
  rw [hv]
  simp at this
  rw [this]

/-- All parameters are at provider `A`. -/
def solo (a : List Nat) : World :=
  { at' := fun d => zeros (if d = [65] then a else []), routes := fun _ => [[65]], fates := [], answers := [] }

example : (getMany (solo []) [[97], [98]]).2.code = 0 ∧ (getMany (solo []) [[97], [98]]).2.num = 2 ∧
    (getMany (solo [0, 9]) [[97], [98]]).2.code = 9 ∧
    (∀ n ∈ ([[97], [98]] : List Name), isWildcard n = false) := by decide +kernel

/-- C39 fails: a failure reported by one provider is forgotten when a later provider succeeds. -/
theorem C39_hidden_fails : ∃ (w : World) (names : List Name), Answered w ∧ Routed w names ∧
    (∀ n ∈ names, isWildcard n = false) ∧ (getMany w names).2.code = 0 ∧
    ∃ n ∈ names, n ∉ (getMany w names).2.props.map (·.1) :=
  ⟨trio [17] [] [] [], [[97], [98]], by simp [Answered, trio], routed_abc _ (by decide +kernel) _ _ _ _,
    by decide +kernel, by decide +kernel, [97], by decide +kernel, by decide +kernel⟩

/-- C39 fails: a wildcard name in the list makes its provider answer for that name alone. -/
theorem C39_wildcard_fails : ∃ (w : World) (names : List Name), Answered w ∧ Routed w names ∧
    (getMany w names).2.code = 0 ∧ ∃ n ∈ names, isWildcard n = false ∧ n ∉ (getMany w names).2.props.map (·.1) :=
  ⟨solo [], [[97], [84, 46]], by simp [Answered, solo], fun _ _ => ⟨[65], rfl⟩, by decide +kernel,
    [97], by decide +kernel, by decide +kernel, by decide +kernel⟩

/-! ## C64: to whom a request goes -/

/-- C64, in part. Whatever becomes of the calls and whatever the handlers answer, a multi-parameter set calls
handlers of a provider, rollbacks included, only for parameters of that provider, if no name of the request
has several providers. Missing: `C64_shifted_fails`. -/
theorem C64_set_partial (w : World) (comp : Comp) (numProps : Nat) (props : List Prop') (commit tell : Bool)
    (hr : ∀ y ∈ props, (w.routes y.1).length ≤ 1) (c : Comp) :
    ∃ l, Made (w.at' c) ((setMulti w comp numProps props commit tell).1.at' c) l ∧
      ∀ k ∈ l, w.routes (about k) = [c] :=
  (setMulti_honest w comp numProps props commit tell hr).2 c

example : (∀ y ∈ ones [97, 98], (homes y.1).length ≤ 1) ∧
    ((setMulti (trio [] [0, 7] [] []) [] 2 (ones [97, 98]) true false).1.at' [65]).calls =
      [.get [97] 0, .set [97] (some [49]) true 0, .set [97] (some [48]) true 0] := by decide +kernel

/-- C64, in part: the same for a multi-parameter get. -/
theorem C64_get_partial (w : World) (names : List Name) (hr : ∀ n ∈ names, (w.routes n).length ≤ 1) (c : Comp) :
    ∃ l, Made (w.at' c) ((getMany w names).1.at' c) l ∧ ∀ k ∈ l, w.routes (about k) = [c] :=
  (getMany_honest w names hr).2 c

example : ((getMany (trio [] [] [] []) [[97], [98]]).1.at' [66]).calls = [.get [98] 0] ∧
    ∀ n ∈ ([[97], [98]] : List Name), (homes n).length ≤ 1 := by decide +kernel

/-- Routes where `b` has no provider and `T.` has two. -/
def uneven : World :=
  { trio [] [] [] [] with routes := fun n =>
      if n = [97] then [[65]] else if n = [84, 46] then [[66], [67]] else [] }

/-- C64 fails: when a name has no provider and a later one has two, the later one's providers are taken for
those of the names before, so that a provider is asked for a parameter which is not its own. -/
theorem C64_shifted_fails : ∃ (w : World) (names : List Name) (c : Comp), Answered w ∧
    ∃ k ∈ ((getMany w names).1.at' c).calls, k ∉ (w.at' c).calls ∧ c ∉ w.routes (about k) :=
  ⟨uneven, [[97], [98], [84, 46]], [66], by simp [Answered, uneven, trio], .get [98] 0, by decide +kernel,
    by decide +kernel, by decide +kernel⟩

/-! ## C65: which parameter failed -/

/-- C65, in part. When a multi-parameter set at one provider fails, the name handed back is that of a parameter
of the request which is not there, or cannot be written, or whose set handler refused; the code is the matching
one. Missing: several providers (`C65_second_fails`) and requests with one parameter (`C65_single_fails`). -/
theorem C65_named_partial (w : World) (comp : Comp) (props : List Prop') (commit : Bool) (c : Comp)
    (ha : Answered w) (h2 : 2 ≤ props.length) (hr : ∀ y ∈ props, w.routes y.1 = [c])
    (hok : ∀ y ∈ props, isWildcard y.1 = false ∧ y.2 ≠ none)
    (h : (setMulti w comp props.length props commit true).2.code ≠ 0) :
    ∃ y ∈ props, (setMulti w comp props.length props commit true).2.failed = some y.1 ∧
      (((w.at' c).elem y.1 = none ∧ (setMulti w comp props.length props commit true).2.code = eElementMissing) ∨
        (∃ e, (w.at' c).elem y.1 = some e ∧ e.set = false ∧
          (setMulti w comp props.length props commit true).2.code = eNotWritable) ∨
        ∃ l b code, Made (w.at' c) ((setMulti w comp props.length props commit true).1.at' c) l ∧
          .set y.1 y.2 b code ∈ l ∧ code ≠ 0 ∧
          (setMulti w comp props.length props commit true).2.code = readCode code) := by
  obtain ⟨h1, h3, h4⟩ := setMulti_one w comp props commit true c ha h2 hr hok _ rfl
  have hs : isSuccess (setLoop true commit (toItems props) [] (w.at' c)).2.code = false := by
    cases hs : isSuccess (setLoop true commit (toItems props) [] (w.at' c)).2.code with
    | false => rfl
    | true => rw [h3] at h; exact absurd ((readCode_zero _).2 hs) h
  have hne : (setLoop true commit (toItems props) [] (w.at' c)).2.code ≠ 0 := by
    intro h0; rw [h0] at hs; exact absurd hs (by decide)
  have h4 := h4 hs
  obtain ⟨x, hx, hf, hcase⟩ := setLoop_failed true commit (toItems props) [] (w.at' c) hne
  obtain ⟨y, hy, rfl⟩ := List.mem_map.1 hx
  refine ⟨y, hy, by rw [h4, hf]; rfl, ?_⟩
  rw [h3, h1]
  rcases hcase with ⟨hA, hB⟩ | ⟨e, hA, hB, hC⟩ | ⟨k, b, hA, hB⟩
  · exact .inl ⟨hA, by rw [hB]; rfl⟩
  · exact .inr (.inl ⟨e, hA, hB, by rw [hC]; rfl⟩)
  · exact .inr (.inr ⟨k, b, _, hA, hB, hne, rfl⟩)

example : Answered (solo [0, 0, 0, 7]) ∧ 2 ≤ (ones [97, 98, 99]).length ∧
    (setMulti (solo [0, 0, 0, 7]) [] 3 (ones [97, 98, 99]) true true).2 = ⟨7, some [98]⟩ :=
  ⟨by simp [Answered, solo], by decide, by decide +kernel⟩

/-- C65 fails: a failure at the second provider is reported without a name. -/
theorem C65_second_fails : ∃ (w : World) (props : List Prop'), Answered w ∧ Routed w (props.map (·.1)) ∧
    (setMulti w [] props.length props true true).2.code ≠ 0 ∧
    (setMulti w [] props.length props true true).2.failed = none :=
  ⟨trio [] [0, 7] [] [], ones [97, 98], by simp [Answered, trio], routed_abc _ (by decide +kernel) _ _ _ _,
    by decide +kernel, by decide +kernel⟩

/-- C65 fails: a request with one parameter never names it. -/
theorem C65_single_fails (w : World) (comp : Comp) (x : Prop') (commit : Bool) :
    (setMulti w comp 1 [x] commit true).2.failed = none := by
  unfold setMulti setProps setOne
  simp only [Nat.one_ne_zero, if_false, if_true]
  split
  · rfl
  · split
    · rfl
    · split
      · rfl
      · split <;> rfl

example : (setMulti (solo [7]) [] 1 (ones [97]) true true).2 = ⟨7, none⟩ := by decide +kernel

end Verif.Props
