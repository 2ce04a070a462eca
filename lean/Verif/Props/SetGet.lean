import Verif.Proof.SetGet
import Verif.Props.Wire

/-!
# Setting and getting values from end to end (C86)
-/

namespace Verif.Props

open Verif Verif.Message Verif.Value Verif.Wire Verif.SetGet
open Verif.Method (Fate coreToRbus)

/-- An application with parameters "A" and "B" that remembers what is set, "C" that can only be read, "D" that can only be
set and refuses with code 5, and "E" whose handler cannot read it. -/
private def memory : App where
  elem n := if n = [65] ∨ n = [66] then some (true, true) else if n = [67] ∨ n = [69] then some (true, false)
    else if n = [68] then some (false, true) else none
  get calls a := if a.name = [69] then ⟨7, a.name, .scalar .none⟩ else
    match (sets calls).reverse.find? (fun x => x.1.name = a.name) with
    | some x => ⟨0, a.name, x.1.value⟩
    | none => ⟨0, a.name, .scalar (.int32 0)⟩
  set _ a := if a.name = [68] then 5 else 0

private theorem memory_codes : Codes memory := by
  constructor
  · intro calls a
    simp only [memory]
    split <;> decide
  · intro calls a
    simp only [memory]
    split
    · simp
    · split <;> simp

private theorem memory_remembers : Remembers memory [65] := by
  intro before a later r ha hl
  have h : (sets (before ++ .set a 0 :: later)).reverse.find? (fun x => decide (x.1.name = [65])) = some (a, 0) := by
    have h2 : (sets later).reverse.find? (fun x => decide (x.1.name = [65])) = none := by
      rw [List.find?_eq_none]
      intro x hx
      simpa using hl x (List.mem_reverse.mp hx)
    rw [sets_append, show sets (.set a 0 :: later) = (a, 0) :: sets later from rfl, List.reverse_append, List.reverse_cons,
      List.find?_append, List.find?_append, h2]
    simp [ha]
  have hne : ¬ ([65] : Bytes) = [69] := by decide
  simp only [memory, hne, if_false, h, and_self]

/-- C86, setting one value. The set handler of the element is called once, with the name, the value, the session and the
wish to commit that the caller gave, and the caller's name; the caller gets the handler's code. (Missing: values of
gigabyte size or with NULL texts, below.) -/
theorem C86_set_partial (fc : FloatConv) (app : App) (calls : List Call) {parent state requester n : Bytes} {v : WVal}
    {opts : Option (BitVec 32 × Bool)} {session : BitVec 32} {commit : Bool}
    (hp : Name parent) (hs : Name state) (hr : Short requester) (hn : Short n) (hsi : Simple n) (hv : Sendable fc [(n, v)])
    (ht : v.ty ≠ .none) (ho : Meant opts session commit) (hc : Codes app) {readable : Bool}
    (he : app.elem n = some (readable, true)) :
    SetGet.set fc app calls .delivered parent state requester n v opts =
      .ok (calls ++ [.set ⟨n, v, session, some requester, commit⟩ (app.set calls ⟨n, v, session, some requester, commit⟩)],
        app.set calls ⟨n, v, session, some requester, commit⟩) := by
  rw [set_delivered fc app calls hp hs hr hn hsi hv ht ho]
  have hlt := hc.1 calls ⟨n, v, session, some requester, commit⟩
  have hx : setLoop app ⟨session, requester, false, [(n, v)], commit⟩ [(n, v)] [] calls =
      (calls ++ [.set ⟨n, v, session, some requester, commit⟩ (app.set calls ⟨n, v, session, some requester, commit⟩)],
        if app.set calls ⟨n, v, session, some requester, commit⟩ = 0 then ⟨0, [], []⟩
        else ⟨app.set calls ⟨n, v, session, some requester, commit⟩, n, []⟩) := by
    simp only [setLoop, he, backup, callSet, Bool.false_and, Bool.false_eq_true, if_false, List.isEmpty_nil, Bool.and_true]
    split <;> rfl
  rw [hx]
  simp only
  split
  · rename_i h0
    rw [h0]
    rfl
  · rw [readCode_small hlt]

example : memory.elem [68] = some (false, true) ∧ memory.set [] ⟨[68], .scalar (.int32 3), 9, some [80], true⟩ = 5 ∧
    Short [68] ∧ Simple [68] ∧ Meant (some (9, true)) 9 true ∧ Codes memory ∧
    Sendable someConv [([68], .scalar (.int32 3))] :=
  ⟨rfl, rfl, by simp [Short], by simp [Simple], .inl rfl, memory_codes,
    (sendable_plain someConv (v := .int 3) (by simp [Short]) (by simp)).1⟩

/-- C86, setting an element that does not exist (code 17) or has no set handler (code 27): nothing is called. -/
theorem C86_set_impossible (fc : FloatConv) (app : App) (calls : List Call) {parent state requester n : Bytes} {v : WVal}
    (opts : Option (BitVec 32 × Bool))
    (hp : Name parent) (hs : Name state) (hr : Short requester) (hn : Short n) (hsi : Simple n) (hv : Sendable fc [(n, v)])
    (ht : v.ty ≠ .none) :
    (app.elem n = none → SetGet.set fc app calls .delivered parent state requester n v opts = .ok (calls, 17)) ∧
    (∀ readable, app.elem n = some (readable, false) →
      SetGet.set fc app calls .delivered parent state requester n v opts = .ok (calls, 27)) := by
  obtain ⟨session, commit, ho⟩ : ∃ session commit, Meant opts session commit := by
    cases opts with
    | none => exact ⟨0, true, .inr ⟨rfl, rfl, rfl⟩⟩
    | some o => exact ⟨o.1, o.2, .inl rfl⟩
  constructor
  · intro he
    rw [set_delivered fc app calls hp hs hr hn hsi hv ht ho]
    simp only [setLoop, he, readCode_small (show (17 : BitVec 32).toNat < 100 by decide)]
  · intro b he
    rw [set_delivered fc app calls hp hs hr hn hsi hv ht ho]
    simp only [setLoop, he, readCode_small (show (27 : BitVec 32).toNat < 100 by decide)]

example : memory.elem [70] = none ∧ memory.elem [67] = some (true, false) := ⟨rfl, rfl⟩

/-- C86, requests that are not sent: setting a wildcard or partial path, or a value without type (code 2); getting an event or
a method (code 2), or a wildcard or partial path (code 18) with the function for one value. Nothing is called. -/
theorem C86_refused (fc : FloatConv) (app : App) (calls : List Call) (fate : Fate) (parent state requester n : Bytes) (v : WVal)
    (opts : Option (BitVec 32 × Bool)) :
    ((n.getLast? = some 46 ∨ (42 : UInt8) ∈ n ∨ v = .scalar .none) →
      SetGet.set fc app calls fate parent state requester n v opts = .ok (calls, 2)) ∧
    ((n.getLast? = some 33 ∨ n.getLast? = some 41 ∨ (40 : UInt8) ∈ n) →
      SetGet.get fc app calls fate parent state requester n = .ok (calls, 2, none)) ∧
    ((n.getLast? = some 46 ∨ (42 : UInt8) ∈ n) → n.getLast? ≠ some 33 → n.getLast? ≠ some 41 → (40 : UInt8) ∉ n →
      SetGet.get fc app calls fate parent state requester n = .ok (calls, 18, none)) := by
  refine ⟨?_, ?_, ?_⟩
  · rintro (h | h | rfl)
    · simp [SetGet.set, Params.isWildcard, h]
    · simp [SetGet.set, Params.isWildcard, h]
    · simp [SetGet.set, WVal.ty, Scalar.ty]
  · rintro (h | h | h) <;> simp [SetGet.get, eventOrMethod, h]
  · rintro (h | h) h1 h2 h3
    · have h1' : eventOrMethod n = false := by simp [eventOrMethod, h1, h2, h3]
      simp only [SetGet.get, h1', Bool.false_eq_true, if_false]
      simp [Params.isWildcard, h]
    · have h1' : eventOrMethod n = false := by simp [eventOrMethod, h1, h2, h3]
      simp only [SetGet.get, h1', Bool.false_eq_true, if_false]
      simp [Params.isWildcard, h]

example : ([65, 46] : Bytes).getLast? = some 46 ∧ (42 : UInt8) ∈ ([65, 46, 42, 46, 66] : Bytes) ∧
    ([65, 40, 41] : Bytes).getLast? = some 41 := by decide

/-- C86, setting several values at a provider. With success, each set handler was called once, in the order given, with its
value, the session and the caller's name; only the last was told to commit, if the caller wants that; and all succeeded. With
rolling back, the value of every element that can be read was read before, and these are the old values the caller gets.
Otherwise the caller gets the name of the property that failed and why: there is no such element (17), it has no set handler
(27), or its handler gave this code. The handlers of the properties before it were called as above and succeeded, no handler
of those after it was, and if its own handler was called and rolling back is wanted, the values read before are set again.
(Missing: as above; the get handlers are not told who asks, below.) -/
theorem C86_set_many_partial (fc : FloatConv) (app : App) (calls : List Call) {parent state requester : Bytes} {rollBack : Bool}
    {props : List (Bytes × WVal)} {opts : Option (BitVec 32 × Bool)} {session : BitVec 32} {commit : Bool}
    (hp : Name parent) (hs : Name state) (hr : Short requester) (hne : props ≠ []) (hl : Sendable fc props)
    (hn : ∀ x ∈ props, Short x.1) (ho : Meant opts session commit) (hc : Codes app) (hg : Gives fc app (props.map (·.1))) :
    ∃ new code failed old, setMany fc app calls .delivered parent state requester rollBack props opts =
        .ok (calls ++ new, ⟨code, failed, old⟩) ∧
      (code = 0 → failed = none ∧ old = gots new ∧ sets new = (orders session requester commit props).map (fun a => (a, 0)) ∧
        (asked new).map (·.name) = if rollBack then (props.map (·.1)).filter (fun n => (app.elem n).any (·.1)) else []) ∧
      (code ≠ 0 → old = [] ∧ ∃ before x after first second, props = before ++ x :: after ∧ failed = some x.1 ∧
        new = first ++ second ∧ sets first = before.map (fun y => (⟨y.1, y.2, session, some requester, false⟩, 0)) ∧
        (asked first).map (·.name) = (if rollBack then (before.map (·.1)).filter (fun n => (app.elem n).any (·.1)) else []) ∧
        ((app.elem x.1 = none ∧ code = 17 ∧ second = []) ∨
         ((∃ b, app.elem x.1 = some (b, false)) ∧ code = 27 ∧ second = []) ∨
         ((∃ b, app.elem x.1 = some (b, true)) ∧ ∃ back,
           sets second = (⟨x.1, x.2, session, some requester, commit && after.isEmpty⟩, code) :: back ∧
           back.map (fun y => (y.1.name, y.1.value)) = (if rollBack then gots first else []) ∧
           ∀ y ∈ back, y.1.session = session ∧ y.1.requester = some requester))) := by
  obtain ⟨req, h1, h2⟩ := serveSet_request fc app calls (session := session) (rollBack := rollBack) (commit := commit) hp hs hr hl hne
  obtain ⟨new, g1, g2⟩ := setLoop_spec app ⟨session, requester, rollBack, props, commit⟩ props [] calls
  generalize hout : setLoop app ⟨session, requester, rollBack, props, commit⟩ props [] calls = out at h2 g1 g2
  rcases g2 with hd | hf
  · obtain ⟨m, k1, k2, rest, k3⟩ := (set_answer fc out.2 (hg _ (by simpa using hd.length) (by
      intro y hy
      rcases hd.origin y hy with h | h
      · simp at h
      · exact h))).1 hd.code
    refine ⟨new, 0, none, out.2.old, ?_, ?_, by simp⟩
    · simp only [setMany, ho.eqs.1, ho.eqs.2, h1, Res.ok_bind, exchange, h2, k1, Res.pure_eq, k2, readCode_zero, if_true, k3,
        ofList_toList, g1]
    · refine fun _ => ⟨rfl, by rw [hd.old]; rfl, hd.sets, ?_⟩
      rw [hd.asked, List.map_map, show ((·.name) ∘ fun n : Bytes => (⟨n, none⟩ : GetArgs)) = id from rfl, List.map_id]
      cases rollBack
      · simp
      · simp only [Bool.true_and, if_true]
  · obtain ⟨before, x, after, first, second, e1, e2, e3, e4, e6, e5⟩ := hf.how
    have hmem : x ∈ props := by rw [e1]; simp
    obtain ⟨m, k1, k2, rest, k3⟩ := (set_answer fc out.2 (by rw [hf.old]; exact sendable_nil fc)).2 hf.code
      (by rw [e2]; exact hn x hmem)
    have hlt : out.2.code.toNat < 100 := by
      rcases e5 with ⟨_, h, _⟩ | ⟨_, h, _⟩ | ⟨_, back, _, _, cs, h⟩
      · rw [h]; decide
      · rw [h]; decide
      · rw [h]; exact hc.1 _ _
    refine ⟨new, out.2.code, some x.1, [], ?_, fun h => absurd h hf.code,
      fun _ => ⟨rfl, before, x, after, first, second, e1, rfl, e3, e4, ?_, ?_⟩⟩
    · have h0 : ¬ readCode out.2.code = 0 := by rw [readCode_small hlt]; exact hf.code
      have h0' : ¬ out.2.code = 0 := hf.code
      simp only [setMany, ho.eqs.1, ho.eqs.2, h1, Res.ok_bind, exchange, h2, k1, Res.pure_eq, k2, readCode_small hlt, h0', if_false,
        k3, g1, e2]
    · rw [e6, List.map_map, show ((·.name) ∘ fun n : Bytes => (⟨n, none⟩ : GetArgs)) = id from rfl, List.map_id]
      cases rollBack
      · simp
      · simp only [Bool.true_and, if_true]
    · rcases e5 with h | h | ⟨h, back, h', h'', _⟩
      · exact .inl h
      · exact .inr (.inl h)
      · refine .inr (.inr ⟨h, back, h', ?_, ?_⟩)
        · rw [show back.map (fun y => (y.1.name, y.1.value)) = (back.map (·.1)).map (fun a => (a.name, a.value)) by simp, h'']
          cases rollBack
          · simp
          · simp only [if_true, List.nil_append, List.map_map]
            exact (List.map_congr_left (fun y _ => rfl)).trans (List.map_id _)
        · intro y hy
          have : y.1 ∈ back.map (·.1) := List.mem_map_of_mem hy
          rw [h''] at this
          cases rollBack
          · simp at this
          · simp only [if_true, List.nil_append, List.mem_map] at this
            obtain ⟨z, _, hz⟩ := this
            rw [← hz]
            exact ⟨rfl, rfl⟩

private theorem ints_sendable : Sendable someConv [([65], .scalar (.int32 3)), ([68], .scalar (.int32 4))] := by
  refine ⟨?_, by simp, ?_⟩
  · simp [SendableVal, SendableScalar, Name]
  · intro d h
    have : appendProps someConv (toList [([65], .scalar (.int32 3)), ([68], .scalar (.int32 4))]) =
      .ok (setString [65] ++ ((setInt32 (BitVec.ofNat 32 Ty.int32.code) ++ setInt32 3) ++
        (setString [68] ++ ((setInt32 (BitVec.ofNat 32 Ty.int32.code) ++ setInt32 4) ++ [])))) := rfl
    rw [this] at h
    simp only [Res.ok.injEq] at h
    subst h
    decide

/-- Setting "A" and "D" where "D" is refused: "A" is set, and set back. -/
example : (setLoop memory ⟨0, [80], true, [([65], .scalar (.int32 3)), ([68], .scalar (.int32 4))], true⟩
      [([65], .scalar (.int32 3)), ([68], .scalar (.int32 4))] [] []).2.code = 5 ∧
    (sets (setLoop memory ⟨0, [80], true, [([65], .scalar (.int32 3)), ([68], .scalar (.int32 4))], true⟩
      [([65], .scalar (.int32 3)), ([68], .scalar (.int32 4))] [] []).1).map (fun x => (x.1.name, x.2)) =
        [([65], 0), ([68], 5), ([65], 0)] ∧
    Sendable someConv [([65], .scalar (.int32 3)), ([68], .scalar (.int32 4))] := ⟨rfl, rfl, ints_sendable⟩

/-- C86, getting one value. The get handler of the element is called once, with the name and the caller's name. If it succeeds,
the caller gets success and the value that the handler left; with another code the caller gets that code, and nothing is
stored. A missing element gives code 17 and one without get handler 9, with nothing called. (Missing: values of gigabyte size
or with NULL texts, below.) -/
theorem C86_get_partial (fc : FloatConv) (app : App) (calls : List Call) {parent state requester n : Bytes}
    (hp : Name parent) (hs : Name state) (hr : Short requester) (hn : Short n) (hsi : Simple n) (hc : Codes app)
    (hg : (app.get calls ⟨n, some requester⟩).code = 0 →
      Sendable fc [((app.get calls ⟨n, some requester⟩).name, (app.get calls ⟨n, some requester⟩).value)]) :
    (app.elem n = none → SetGet.get fc app calls .delivered parent state requester n = .ok (calls, 17, none)) ∧
    (∀ w, app.elem n = some (false, w) → SetGet.get fc app calls .delivered parent state requester n = .ok (calls, 9, none)) ∧
    (∀ w code name v, app.elem n = some (true, w) → app.get calls ⟨n, some requester⟩ = ⟨code, name, v⟩ →
      SetGet.get fc app calls .delivered parent state requester n =
        .ok (calls ++ [.get ⟨n, some requester⟩ ⟨code, name, v⟩],
          if code ≠ 0 then (code, none) else if name = n then (0, some v) else (8, none))) := by
  rw [get_delivered fc app calls hp hs hr hn hsi hc (fun _ _ => hg)]
  refine ⟨fun he => by rw [he], fun w he => by rw [he], fun w code name v he h => ?_⟩
  rw [he, h]
  by_cases h0 : code = 0
  · simp [h0]
  · simp [h0]

example : memory.elem [65] = some (true, true) ∧
    (memory.get [.set ⟨[65], .scalar (.int32 7), 0, none, true⟩ 0] ⟨[65], some [80]⟩).value = .scalar (.int32 7) ∧
    (memory.get [] ⟨[69], some [80]⟩).code = 7 ∧ memory.elem [68] = some (false, true) := ⟨rfl, rfl, rfl, rfl⟩

/-- C86, getting several values from a provider. With success, the get handlers of the names were called in their order, and the
caller gets what they left, in this order. Otherwise the caller gets no values, and the code tells which: there is no
such element (17), it has no get handler (9), or its handler gave this code; the handlers of the names before were called.
(Missing: as above; the handlers are told the wrong requester, below.) -/
theorem C86_get_many_partial (fc : FloatConv) (app : App) (calls : List Call) {parent state requester provider : Bytes} {names : List Bytes}
    (hp : Name parent) (hs : Name state) (hr : Short provider) (hn : ∀ n ∈ names, Short n ∧ Simple n) (hne : names ≠ [])
    (hm : names.length ≤ 256) (hc : Codes app) (hg : Gives fc app names) :
    ∃ new code vals, getMany fc app calls .delivered parent state requester provider names = .ok (calls ++ new, code, vals) ∧
      sets new = [] ∧ (code = 0 → vals = gots new ∧ (asked new).map (·.name) = names) ∧
      (code ≠ 0 → vals = [] ∧ ∃ before x after, names = before ++ x :: after ∧
        ((app.elem x = none ∧ code = 17 ∧ (asked new).map (·.name) = before) ∨
         ((∃ w, app.elem x = some (false, w)) ∧ code = 9 ∧ (asked new).map (·.name) = before) ∨
         ((∃ w, app.elem x = some (true, w)) ∧ (asked new).map (·.name) = before ++ [x] ∧
           ∃ cs, code = (app.get cs ⟨x, some provider⟩).code))) := by
  obtain ⟨new, code, vals, h1, h2, h3, h4⟩ := getMany_spec fc app calls requester hp hs hr hn hne hm hc hg
  have hmap : ∀ l : List Bytes, (l.map (fun n => (⟨n, some provider⟩ : GetArgs))).map (·.name) = l := by
    intro l
    rw [List.map_map, show ((·.name) ∘ fun n : Bytes => (⟨n, some provider⟩ : GetArgs)) = id from rfl, List.map_id]
  refine ⟨new, code, vals, h1, h2, fun h => ⟨(h3 h).1, by rw [(h3 h).2, hmap]⟩, fun h => ⟨(h4 h).1, ?_⟩⟩
  obtain ⟨before, x, after, k3, k4⟩ := (h4 h).2
  refine ⟨before, x, after, k3, ?_⟩
  rcases k4 with ⟨h, h', h''⟩ | ⟨h, h', h''⟩ | ⟨h, h', h''⟩
  · exact .inl ⟨h, h', by rw [h'', hmap]⟩
  · exact .inr (.inl ⟨h, h', by rw [h'', hmap]⟩)
  · exact .inr (.inr ⟨h, by rw [h', hmap], h''⟩)

example : (getNames memory [81] [[65], [67]] [] []).2.1 = 0 ∧ (getNames memory [81] [[65], [68]] [] []).2.1 = 9 ∧
    (getNames memory [81] [[65], [69], [67]] [] []).2.1 = 7 ∧ Short [65] ∧ Simple [65] :=
  ⟨rfl, rfl, rfl, by simp [Short], by simp [Simple]⟩

/-- C86, reading back. If a parameter remembers what is set, a value set with success is what a get gives, whoever asks, after any
calls of handlers for other parameters. -/
theorem C86_set_then_get (fc : FloatConv) (app : App) (calls later : List Call) {parent state requester reader n : Bytes} {v : WVal}
    {opts : Option (BitVec 32 × Bool)} (hp : Name parent) (hs : Name state) (hr : Short requester) (hr' : Short reader)
    (hn : Short n) (hsi : Simple n) (hv : Sendable fc [(n, v)]) (ht : v.ty ≠ .none) (hc : Codes app)
    (he : app.elem n = some (true, true)) (hrem : Remembers app n) (hl : ∀ b ∈ sets later, b.1.name ≠ n) {after : List Call}
    (h : SetGet.set fc app calls .delivered parent state requester n v opts = .ok (after, 0)) :
    ∃ end', SetGet.get fc app (after ++ later) .delivered parent state reader n = .ok (end', 0, some v) := by
  obtain ⟨session, commit, ho⟩ : ∃ session commit, Meant opts session commit := by
    cases opts with
    | none => exact ⟨0, true, .inr ⟨rfl, rfl, rfl⟩⟩
    | some o => exact ⟨o.1, o.2, .inl rfl⟩
  rw [C86_set_partial fc app calls hp hs hr hn hsi hv ht ho hc he] at h
  simp only [Res.ok.injEq, Prod.mk.injEq] at h
  obtain ⟨h1, h2⟩ := h
  rw [h2] at h1
  have h3 := hrem calls ⟨n, v, session, some requester, commit⟩ later (some reader) rfl hl
  have hx : after ++ later = calls ++ .set ⟨n, v, session, some requester, commit⟩ 0 :: later := by rw [← h1]; simp
  rw [← hx] at h3
  change _ ∧ _ ∧ _ = v at h3
  obtain ⟨k1, k2, k3⟩ := h3
  have h4 := (C86_get_partial fc app (after ++ later) hp hs hr' hn hsi hc (fun _ => by rw [k2, k3]; exact hv)).2.2 true
    _ _ _ he rfl
  rw [k1, k2, k3] at h4
  simp only [ne_eq, not_true, if_false, if_true] at h4
  exact ⟨_, h4⟩

example : Remembers memory [65] ∧ memory.elem [65] = some (true, true) ∧
    (∀ b ∈ sets [.set ⟨[66], .scalar (.int32 1), 0, none, true⟩ 0], b.1.name ≠ [65]) :=
  ⟨memory_remembers, rfl, by simp [sets]⟩

/-- C86, the functions for one type. A value set with the function for its type is what the function for that type gets, and the
functions for the other types give code 1 and store nothing. -/
theorem C86_typed (fc : FloatConv) (app : App) (calls later : List Call) {parent state requester reader n : Bytes} {v : SetGet.Plain}
    (hp : Name parent) (hs : Name state) (hr : Short requester) (hr' : Short reader)
    (hn : Short n) (hsi : Simple n) (hv : ∀ s, v = .string s → Short s) (hc : Codes app)
    (he : app.elem n = some (true, true)) (hrem : Remembers app n) (hl : ∀ b ∈ sets later, b.1.name ≠ n) {after : List Call}
    (h : setPlain fc app calls .delivered parent state requester n v = .ok (after, 0)) :
    ∃ end', ∀ k, getPlain fc app (after ++ later) .delivered parent state reader n k =
      .ok (end', if k = kindOf v then (0, some v) else (1, none)) := by
  have h' : SetGet.set fc app calls .delivered parent state requester n (asValue v) none = .ok (after, 0) := by
    cases v <;> exact h
  obtain ⟨h1, h2⟩ := sendable_plain fc hn hv
  obtain ⟨e, h3⟩ := C86_set_then_get fc app calls later hp hs hr hr' hn hsi h1 h2 hc he hrem hl h'
  refine ⟨e, fun k => ?_⟩
  simp only [getPlain, h3, Res.ok_bind, if_true, Res.pure_eq]
  cases k <;> cases v <;> rfl

example : setPlain someConv memory [] .delivered [] [] [80] [65] (.string [72, 105]) =
    .ok ([.set ⟨[65], .scalar (.string (some [72, 105])), 0, some [80], true⟩ 0], 0) :=
  C86_set_partial someConv memory [] (by simp [Name]) (by simp [Name]) (by simp [Short]) (by simp [Short]) (by simp [Simple])
    (sendable_plain someConv (v := .string [72, 105]) (by simp [Short]) (by simp [Short])).1
    (by simp [WVal.ty, Scalar.ty]) (.inr ⟨rfl, rfl, rfl⟩) memory_codes (readable := true) rfl

/-- C86, requests that are lost: nothing is called, the code is not success, and nothing is stored. -/
theorem C86_lost (fc : FloatConv) (app : App) (calls : List Call) {e : Nat} (he : e ≠ 0) (parent state requester n : Bytes) (v : WVal)
    (opts : Option (BitVec 32 × Bool)) (hv : Sendable fc [(n, v)]) :
    (∃ code, code ≠ 0 ∧ SetGet.set fc app calls (.lost e) parent state requester n v opts = .ok (calls, code)) ∧
    (∃ code, code ≠ 0 ∧ SetGet.get fc app calls (.lost e) parent state requester n = .ok (calls, code, none)) ∧
    (∀ k, ∃ code, code ≠ 0 ∧ getPlain fc app calls (.lost e) parent state requester n k = .ok (calls, code, none)) := by
  have hne : coreToRbus e ≠ 0 := by
    unfold coreToRbus
    split <;> first | exact absurd rfl he | decide
  have hget : ∃ code, code ≠ 0 ∧ SetGet.get fc app calls (.lost e) parent state requester n = .ok (calls, code, none) := by
    unfold SetGet.get
    split
    · exact ⟨2, by decide, rfl⟩
    · split
      · exact ⟨18, by decide, rfl⟩
      · exact ⟨_, hne, rfl⟩
  refine ⟨?_, hget, fun k => ?_⟩
  · obtain ⟨d, h1, _, _⟩ := read_props fc hv
    unfold SetGet.set
    split
    · exact ⟨2, by decide, rfl⟩
    · split
      · exact ⟨2, by decide, rfl⟩
      · simp only [setRequest, h1, Res.ok_bind, Res.pure_eq, exchange]
        exact ⟨_, hne, rfl⟩
  · obtain ⟨code, h0, h⟩ := hget
    refine ⟨code, h0, ?_⟩
    simp only [getPlain, h, Res.ok_bind, h0, if_false, Res.pure_eq]

example : coreToRbus 7 = 20 ∧ Sendable someConv [([65], asValue (.uint 4))] :=
  ⟨rfl, (sendable_plain someConv (by simp [Short]) (by simp)).1⟩

/-- C86, responses that are lost: the handlers are called as if the response had arrived, the code is not success, and nothing is
stored. -/
theorem C86_unanswered (fc : FloatConv) (app : App) (calls : List Call) {e : Nat} (he : e ≠ 0) (parent state requester n : Bytes)
    (v : WVal) (opts : Option (BitVec 32 × Bool)) :
    (∀ after code, SetGet.set fc app calls .delivered parent state requester n v opts = .ok (after, code) →
      ∃ code, code ≠ 0 ∧ SetGet.set fc app calls (.unanswered e) parent state requester n v opts = .ok (after, code)) ∧
    (∀ after code x, SetGet.get fc app calls .delivered parent state requester n = .ok (after, code, x) →
      ∃ code, code ≠ 0 ∧ SetGet.get fc app calls (.unanswered e) parent state requester n = .ok (after, code, none)) := by
  have hne : coreToRbus e ≠ 0 := by
    unfold coreToRbus
    split <;> first | exact absurd rfl he | decide
  constructor
  · intro after code h
    unfold SetGet.set at h ⊢
    split
    · rename_i hw
      rw [if_pos hw] at h
      cases h
      exact ⟨2, by decide, rfl⟩
    · rename_i hw
      rw [if_neg hw] at h
      split
      · rename_i hw
        rw [if_pos hw] at h
        cases h
        exact ⟨2, by decide, rfl⟩
      · rename_i hw
        rw [if_neg hw] at h
        obtain ⟨req, h1, h⟩ := res_bind_ok h
        rw [h1]
        simp only [exchange, Res.ok_bind] at h ⊢
        obtain ⟨out, h2, h⟩ := res_bind_ok h
        obtain ⟨s, h3, h4⟩ := res_bind_ok h2
        rw [h3]
        simp only [Res.pure_eq, Res.ok.injEq] at h4
        subst h4
        simp only [Res.pure_eq, Res.ok.injEq, Prod.mk.injEq] at h
        refine ⟨_, hne, ?_⟩
        rw [← h.1]
        rfl
  · intro after code x h
    unfold SetGet.get at h ⊢
    split
    · rename_i hw
      rw [if_pos hw] at h
      cases h
      exact ⟨2, by decide, rfl⟩
    · rename_i hw
      rw [if_neg hw] at h
      split
      · rename_i hw
        rw [if_pos hw] at h
        cases h
        exact ⟨18, by decide, rfl⟩
      · rename_i hw
        rw [if_neg hw] at h
        simp only [exchange] at h ⊢
        obtain ⟨out, h2, h⟩ := res_bind_ok h
        obtain ⟨s, h3, h4⟩ := res_bind_ok h2
        rw [h3]
        simp only [Res.pure_eq, Res.ok.injEq] at h4
        subst h4
        refine ⟨_, hne, ?_⟩
        simp only [Res.pure_eq, Res.ok_bind]
        have : s.1 = after := by
          by_cases hz : readCode (Method.getCode (-1) s.2).1 = 0
          · simp only [hz, if_true] at h
            obtain ⟨q, _, h⟩ := res_bind_ok h
            split at h
            · obtain ⟨w, _, h⟩ := res_bind_ok h
              simp only [Res.pure_eq, Res.ok.injEq, Prod.mk.injEq] at h
              exact h.1
            · simp only [Res.pure_eq, Res.ok.injEq, Prod.mk.injEq] at h
              exact h.1
          · simp only [hz, if_false, Res.pure_eq, Res.ok.injEq, Prod.mk.injEq] at h
            exact h.1
        rw [this]

example : ∃ after, SetGet.set someConv memory [] .delivered [] [] [80] [65] (asValue (.int 4)) none = .ok (after, 0) :=
  ⟨_, C86_set_partial someConv memory [] (by simp [Name]) (by simp [Name]) (by simp [Short]) (by simp [Short]) (by simp [Simple])
    (sendable_plain someConv (v := .int 4) (by simp [Short]) (by simp)).1
    (by simp [asValue, WVal.ty, Scalar.ty]) (.inr ⟨rfl, rfl, rfl⟩) memory_codes (readable := true) rfl⟩

/-- C86 fails for who asks, when several values are got at once: the get handlers are told the name of the provider itself in place
of the caller's. -/
theorem C86_requester_fails (fc : FloatConv) (app : App) (calls : List Call) {parent state requester provider : Bytes}
    {names : List Bytes} (hp : Name parent) (hs : Name state) (hr : Short provider) (hn : ∀ n ∈ names, Short n ∧ Simple n)
    (hne : names ≠ []) (hm : names.length ≤ 256) (hc : Codes app) (hg : Gives fc app names) (hd : requester ≠ provider) :
    ∃ new out, getMany fc app calls .delivered parent state requester provider names = .ok (calls ++ new, out) ∧
      ∀ a ∈ asked new, a.requester ≠ some requester := by
  obtain ⟨new, code, vals, h1, h2, h3, h4⟩ := getMany_spec fc app calls requester hp hs hr hn hne hm hc hg
  refine ⟨new, _, h1, ?_⟩
  have : ∃ l : List Bytes, asked new = l.map (fun n => ⟨n, some provider⟩) := by
    by_cases h : code = 0
    · exact ⟨_, (h3 h).2⟩
    · obtain ⟨before, x, after, _, k⟩ := (h4 h).2
      rcases k with ⟨_, _, k⟩ | ⟨_, _, k⟩ | ⟨_, k, _⟩ <;> exact ⟨_, k⟩
  obtain ⟨l, hl⟩ := this
  rw [hl]
  intro a ha
  obtain ⟨n, _, rfl⟩ := List.mem_map.mp ha
  intro h
  exact hd (Option.some.inj h).symm

private def two : App where
  elem _ := some (true, true)
  get _ a := ⟨0, [65], .scalar (.int32 1)⟩
  set _ _ := 100

private theorem two_gives : Gives someConv two [[65], [66]] := by
  intro l hl h
  have h' : ∀ x ∈ l, x = ([65], WVal.scalar (.int32 1)) := by
    intro x hx
    obtain ⟨cs, a, _, rfl⟩ := h x hx
    rfl
  have hb : Sendable someConv (List.replicate l.length ([65], WVal.scalar (.int32 1))) := by
    have : l.length ≤ 2 := hl
    rcases (show l.length = 0 ∨ l.length = 1 ∨ l.length = 2 by omega) with e | e | e <;> rw [e]
    · exact sendable_nil _
    · exact (sendable_plain someConv (v := .int 1) (by simp [Short]) (by simp)).1
    · refine ⟨by simp [SendableVal, SendableScalar, Name], by simp, ?_⟩
      intro d h
      have : appendProps someConv (toList (List.replicate 2 ([65], .scalar (.int32 1)))) =
        .ok (setString [65] ++ ((setInt32 (BitVec.ofNat 32 Ty.int32.code) ++ setInt32 1) ++
          (setString [65] ++ ((setInt32 (BitVec.ofNat 32 Ty.int32.code) ++ setInt32 1) ++ [])))) := rfl
      rw [this] at h
      simp only [Res.ok.injEq] at h
      subst h
      decide
  rw [List.eq_replicate_of_mem h']
  exact hb

example : ([80] : Bytes) ≠ [81] ∧ Gives someConv two [[65], [66]] := ⟨by decide, two_gives⟩

/-- C86 fails for committing: a call to commit what was set before gives success, though no handler is called. -/
theorem C86_commit_fails (fc : FloatConv) (app : App) (calls : List Call) {parent state requester : Bytes}
    (hp : Name parent) (hs : Name state) (hr : Short requester) (session : BitVec 32) :
    SetGet.commit fc app calls .delivered parent state requester (some (session, true)) = .ok (calls, 0) := by
  have h1 := Method.setInt32_le session
  have h2 := Method.setString_le requester
  have h3 := Method.setInt32_le 1
  have h4 := Method.setString_le (Method.str "TRUE")
  have h5 := hr.2
  have h6 : (Method.str "TRUE").length = 4 := rfl
  simp only [SetGet.commit, Option.map_some, Option.getD_some, if_true, exchange]
  rw [serve_commit fc app calls hp hs (by simp only [List.length_append]; omega)]
  simp only [Res.ok_bind, Res.pure_eq, code_answer, readCode_zero]

/-- C86 fails for who asks, when old values are read before setting: the get handler is told no name. -/
theorem C86_backup_requester_fails :
    ∃ calls, (setLoop memory ⟨0, [80], true, [([65], .scalar (.int32 3))], true⟩ [([65], .scalar (.int32 3))] [] []).1 = calls ∧
      asked calls = [⟨[65], none⟩] := ⟨_, rfl, rfl⟩

/-- C86 fails for a handler that refuses with code 100, a success of the old bus: the caller is told that the value was set. -/
theorem C86_code_100_fails :
    SetGet.set someConv two [] .delivered [] [] [80] [65] (.scalar (.int32 1)) none =
      .ok ([.set ⟨[65], .scalar (.int32 1), 0, some [80], true⟩ 100], 0) := by
  change SetGet.set someConv two [] .delivered [] [] [80] [65] (asValue (.int 1)) none = _
  rw [set_delivered someConv two [] (by simp [Name]) (by simp [Name]) (by simp [Short]) (by simp [Short]) (by simp [Simple])
    (sendable_plain someConv (v := .int 1) (by simp [Short]) (by simp)).1 (by simp [asValue, WVal.ty, Scalar.ty]) (.inr ⟨rfl, rfl, rfl⟩)]
  rfl

/-- C86 fails for values with NULL text: a caller that sets one reads through NULL, and so does a provider whose handler gives
one. -/
theorem C86_null_text_fails (fc : FloatConv) (calls : List Call) (fate : Fate) {parent state requester n : Bytes}
    (hp : Name parent) (hs : Name state) (hr : Short requester) (hn : Short n) (hsi : Simple n)
    (opts : Option (BitVec 32 × Bool)) :
    (∀ app, SetGet.set fc app calls fate parent state requester n (.scalar (.string none)) opts = .ub) ∧
    ∃ app : App, app.get calls ⟨n, some requester⟩ = ⟨0, n, .scalar (.string none)⟩ ∧
      SetGet.get fc app calls .delivered parent state requester n = .ub := by
  constructor
  · intro app
    have h : ¬ (WVal.scalar (.string none)).ty = .none := by simp [WVal.ty, Scalar.ty]
    simp only [SetGet.set, wild hsi, Bool.false_eq_true, if_false, h, setRequest, toList, appendProps, appendVal, appendScalar]
    rfl
  · refine ⟨⟨fun _ => some (true, true), fun _ a => ⟨0, a.name, .scalar (.string none)⟩, fun _ _ => 0⟩, rfl, ?_⟩
    have h := serveGet_request fc ⟨fun _ => some (true, true), fun _ a => ⟨0, a.name, .scalar (.string none)⟩, fun _ _ => 0⟩
      calls hp hs hr (names := [n]) (by simpa using ⟨hn, wild hsi⟩) (by simp) (request_one hr hn)
    simp only [SetGet.get, query hsi, wild hsi, Bool.false_eq_true, if_false, exchange, h]
    rfl

end Verif.Props
