import Verif.Spec.SetGet
import Verif.Proof.Method

/-!
# Lemmas for setting and getting values
-/

namespace Verif.SetGet

open Verif Verif.Message Verif.Value Verif.Wire
open Verif.Method (str Fate getCode methodResponse coreToRbus coreTimeout getCode_set setInt32_le setString_le)

theorem ofList_toList : ∀ l, ofList (toList l) = l
  | [] => rfl
  | (n, v) :: l => by rw [toList, ofList, ofList_toList l]

theorem count_toList : ∀ l, (toList l).count = l.length
  | [] => rfl
  | (n, v) :: l => by rw [toList, PropList.count, count_toList l]; rfl

theorem sendable_toList (fc : FloatConv) : ∀ l : List (Bytes × WVal), (∀ x ∈ l, Name x.1 ∧ SendableVal fc x.2) →
    SendableProps fc (toList l)
  | [], _ => trivial
  | (n, v) :: l, h => ⟨(h (n, v) (by simp)).1, (h (n, v) (by simp)).2, sendable_toList fc l fun x hx => h x (by simp [hx])⟩

/-- Properties written and read. -/
theorem read_props (fc : FloatConv) {l : List (Bytes × WVal)} (h : Sendable fc l) :
    ∃ d, appendProps fc (toList l) = .ok d ∧ d.length < 2 ^ 30 ∧
      ∀ r, readProps fc (d ++ r).length l.length (d ++ r) = .ok (toList l, r) := by
  obtain ⟨d, h1, h2⟩ := readProps_append fc (toList l) (sendable_toList fc l h.1)
  refine ⟨d, h1, h.2.2 d h1, fun r => ?_⟩
  have := h2 (d ++ r).length r (by simp)
  rwa [count_toList] at this

theorem Short.name {n : Bytes} (h : Short n) : Name n := ⟨h.1, by have := h.2; omega⟩

theorem toInt_len {n : Nat} (h : n < 2 ^ 30) : (BitVec.ofNat 32 n).toInt = n := by
  rw [BitVec.toInt_ofNat']
  simp [Int.bmod_def]
  omega

/-- The provider reads the method and does what belongs to it. -/
theorem serve_get (fc : FloatConv) (app : App) (calls : List Call) {parent state body : Bytes} (hp : Name parent)
    (hs : Name state) (hb : body.length < 2 ^ 31 - 32768) :
    serve fc app calls (setMeta body methodGet parent state) = (do
      let (calls, m) ← serveGet fc app calls (setMeta body methodGet parent state)
      pure (calls, setMeta m methodResponse [] [])) := by
  rw [serve, getMeta_setMeta body methodGet parent state hb (by decide) hp hs 0, Res.ok_bind]
  rfl

theorem serve_set (fc : FloatConv) (app : App) (calls : List Call) {parent state body : Bytes} (hp : Name parent)
    (hs : Name state) (hb : body.length < 2 ^ 31 - 32768) :
    serve fc app calls (setMeta body methodSet parent state) = (do
      let (calls, m) ← serveSet fc app calls (setMeta body methodSet parent state)
      pure (calls, setMeta m methodResponse [] [])) := by
  rw [serve, getMeta_setMeta body methodSet parent state hb (by decide) hp hs 0, Res.ok_bind]
  have : ¬ methodSet = methodGet := by decide
  simp only [this, if_false, if_true]

theorem serve_commit (fc : FloatConv) (app : App) (calls : List Call) {parent state body : Bytes} (hp : Name parent)
    (hs : Name state) (hb : body.length < 2 ^ 31 - 32768) :
    serve fc app calls (setMeta body methodCommit parent state) = .ok (calls, setMeta (setInt32 0) methodResponse [] []) := by
  rw [serve, getMeta_setMeta body methodCommit parent state hb (by decide) hp hs 0, Res.ok_bind]
  have h1 : ¬ methodCommit = methodGet := by decide
  have h2 : ¬ methodCommit = methodSet := by decide
  simp only [h1, h2, if_false, if_true]

theorem saysTrue_text (c : Bool) : saysTrue (if c then str "TRUE" else str "FALSE") = c := by
  cases c <;> decide

theorem text_name (c : Bool) : Name (if c then str "TRUE" else str "FALSE") := by
  cases c <;> exact ⟨by decide, by decide⟩

theorem text_length (c : Bool) : (if c then str "TRUE" else str "FALSE").length ≤ 5 := by
  cases c <;> decide

/-- The provider reads the set request as it was meant. -/
theorem serveSet_request (fc : FloatConv) (app : App) (calls : List Call) {parent state : Bytes}
    {session : BitVec 32} {requester : Bytes} {rollBack : Bool} {props : List (Bytes × WVal)} {commit : Bool}
    (hp : Name parent) (hs : Name state) (hr : Short requester) (hl : Sendable fc props) (hne : props ≠ []) :
    ∃ req, setRequest fc session requester rollBack props commit = .ok req ∧
      serve fc app calls (setMeta req methodSet parent state) = (do
        let m ← writeSet fc (setLoop app ⟨session, requester, rollBack, props, commit⟩ props [] calls).2
        pure ((setLoop app ⟨session, requester, rollBack, props, commit⟩ props [] calls).1, setMeta m methodResponse [] [])) := by
  obtain ⟨d, hd, hdl, hrd⟩ := read_props fc hl
  refine ⟨_, by rw [setRequest, hd, Res.ok_bind]; rfl, ?_⟩
  have hlen : (setInt32 session ++ (setString requester ++ (setInt32 (if rollBack then 1 else 0) ++
      (setInt32 (BitVec.ofNat 32 props.length) ++ (d ++ setString (if commit then str "TRUE" else str "FALSE")))))).length <
        2 ^ 31 - 32768 := by
    have h1 := setInt32_le session
    have h2 := setString_le requester
    have h3 := setInt32_le (if rollBack then 1 else 0)
    have h4 := setInt32_le (BitVec.ofNat 32 props.length)
    have h5 := setString_le (if commit then str "TRUE" else str "FALSE")
    have h6 := text_length commit
    have h7 := hr.2
    simp only [List.length_append]
    omega
  rw [serve_set fc app calls hp hs hlen, setMeta_bytes _ _ _ _ hlen]
  have hpos : 0 < props.length := List.length_pos_iff.mpr hne
  have hn : (BitVec.ofNat 32 props.length).toInt = props.length := toInt_len hl.2.1
  simp only [serveSet, List.append_assoc, getInt32Z_set, getStringN_set requester hr.name, Res.ok_bind, hn,
    show (0 : Int) < (props.length : Int) by omega, if_true, Int.toNat_natCast, hrd, getStringU_set _ (text_name commit),
    saysTrue_text, ofList_toList]
  have hb : decide ((if rollBack = true then (1 : BitVec 32) else 0) = 1) = rollBack := by cases rollBack <;> decide
  rw [hb]
  cases writeSet fc (setLoop app ⟨session, requester, rollBack, props, commit⟩ props [] calls).2 <;> rfl

/-- The loop over the names, on the names. -/
def getNames (app : App) (requester : Bytes) : List Bytes → List (Bytes × WVal) → List Call →
    List Call × BitVec 32 × List (Bytes × WVal)
  | [], acc, calls => (calls, 0, acc)
  | n :: l, acc, calls =>
    match app.elem n with
    | none => (calls, 17, [])
    | some (false, _) => (calls, 9, [])
    | some (true, _) =>
      if (app.get calls ⟨n, some requester⟩).code = 0 then
        getNames app requester l (acc ++ [((app.get calls ⟨n, some requester⟩).name, (app.get calls ⟨n, some requester⟩).value)])
          (calls ++ [.get ⟨n, some requester⟩ (app.get calls ⟨n, some requester⟩)])
      else (calls ++ [.get ⟨n, some requester⟩ (app.get calls ⟨n, some requester⟩)], (app.get calls ⟨n, some requester⟩).code, [])

theorem getLoop_names (app : App) (requester : Bytes) (l : List Bytes) : ∀ acc calls r,
    (∀ n ∈ l, Name n ∧ Params.isWildcard n = false) →
    getLoop app requester l.length acc calls (l.flatMap setString ++ r) = .ok (getNames app requester l acc calls) := by
  induction l with
  | nil => intro acc calls r _; rfl
  | cons n l ih =>
    intro acc calls r h
    have h1 := h n (by simp)
    simp only [List.length_cons, getLoop, List.flatMap_cons, List.append_assoc, getStringU_set n h1.1, Res.ok_bind, h1.2,
      getNames, callGet, Bool.false_eq_true, if_false]
    cases app.elem n with
    | none => rfl
    | some e =>
      obtain ⟨a, b⟩ := e
      cases a with
      | false => rfl
      | true =>
        by_cases hc : (app.get calls ⟨n, some requester⟩).code = 0
        · simp only [hc, eq_self, if_true]
          exact ih _ _ r (fun m hm => h m (by simp [hm]))
        · simp only [hc, if_false]

theorem flatMap_length (l : List Bytes) (h : ∀ n ∈ l, n.length < 2 ^ 20) :
    (l.flatMap setString).length ≤ l.length * 2 ^ 21 := by
  induction l with
  | nil => simp
  | cons n l ih =>
    have := ih (fun m hm => h m (by simp [hm]))
    have h1 := setString_le n
    have h2 := h n (by simp)
    simp only [List.flatMap_cons, List.length_append, List.length_cons]
    omega

/-- The provider reads the get request as it was meant. -/
theorem serveGet_request (fc : FloatConv) (app : App) (calls : List Call) {parent state requester : Bytes} {names : List Bytes}
    (hp : Name parent) (hs : Name state) (hr : Short requester) (hn : ∀ n ∈ names, Short n ∧ Params.isWildcard n = false)
    (hne : names ≠ []) (hl : (getRequest requester names).length < 2 ^ 30) :
    serve fc app calls (setMeta (getRequest requester names) methodGet parent state) = (do
      let m ← if (getNames app requester names [] calls).2.1 = 0 then do
          let d ← appendProps fc (toList (getNames app requester names [] calls).2.2)
          pure (setInt32 0 ++ (setInt32 (BitVec.ofNat 32 names.length) ++ d))
        else .ok (setInt32 (getNames app requester names [] calls).2.1)
      pure ((getNames app requester names [] calls).1, setMeta m methodResponse [] [])) := by
  have hlen : (getRequest requester names).length < 2 ^ 31 - 32768 := by omega
  rw [serve_get fc app calls hp hs hlen, setMeta_bytes _ _ _ _ hlen]
  have hpos : 0 < names.length := List.length_pos_iff.mpr hne
  have hsm : names.length < 2 ^ 30 := by
    have h : ∀ l : List Bytes, l.length ≤ (l.flatMap setString).length := by
      intro l
      induction l with
      | nil => simp
      | cons a l ih =>
        have := setString_pos a
        simp only [List.flatMap_cons, List.length_append, List.length_cons]
        omega
    have := h names
    simp only [getRequest, List.length_append] at hl
    omega
  have hi : (BitVec.ofNat 32 names.length).toInt = names.length := toInt_len hsm
  simp only [getRequest, serveGet, List.append_assoc, getStringN_set requester hr.name, Res.ok_bind, getCode_set, hi,
    show (0 : Int) < (names.length : Int) by omega, if_true, Int.toNat_natCast,
    getLoop_names app requester names _ _ _ (fun n h => ⟨(hn n h).1.name, (hn n h).2⟩)]
  split
  · cases appendProps fc (toList (getNames app requester names [] calls).2.2) <;> rfl
  · rfl

theorem readCode_zero : readCode 0 = 0 := rfl

theorem readCode_small {c : BitVec 32} (h : c.toNat < 100) : readCode c = c := by
  unfold readCode
  split
  · rename_i h'
    rcases h' with rfl | rfl
    · rfl
    · simp at h
  · exact Method.returned_small c (by omega)

/-- The answer to a set as the caller of one reads it. -/
theorem set_answer (fc : FloatConv) (r : SetReply) (hs : Sendable fc r.old) :
    (r.code = 0 → ∃ m, writeSet fc r = .ok m ∧ (getCode (-1) (setMeta m methodResponse [] [])).1 = 0 ∧
      ∃ rest, readPropList fc (getCode (-1) (setMeta m methodResponse [] [])).2 = .ok (toList r.old, rest)) ∧
    (r.code ≠ 0 → Short r.failed → ∃ m, writeSet fc r = .ok m ∧ (getCode (-1) (setMeta m methodResponse [] [])).1 = r.code ∧
      ∃ rest, getStringU (getCode (-1) (setMeta m methodResponse [] [])).2 = .ok (r.failed, rest)) := by
  constructor
  · intro h0
    obtain ⟨d, hd, hdl, hrd⟩ := read_props fc hs
    refine ⟨_, by rw [writeSet, if_pos h0, appendPropList, hd, Res.ok_bind]; rfl, ?_⟩
    have h1 := setInt32_le 0
    have h2 := setInt32_le (BitVec.ofNat 32 (toList r.old).count)
    rw [setMeta_bytes _ _ _ _ (by simp only [List.length_append]; omega)]
    simp only [List.append_assoc, getCode_set, true_and]
    simp only [readPropList, getInt32Z_set, count_toList, toInt_small (show r.old.length < 2 ^ 31 by have := hs.2.1; omega), hrd]
    exact ⟨_, rfl⟩
  · intro h0 hf
    refine ⟨_, by rw [writeSet, if_neg h0], ?_⟩
    have h1 := setInt32_le r.code
    have h2 := setString_le r.failed
    have h3 := hf.2
    rw [setMeta_bytes _ _ _ _ (by simp only [List.length_append]; omega)]
    simp only [List.append_assoc, getCode_set, true_and]
    exact ⟨_, getStringU_set _ hf.name _⟩

theorem sets_append (a b : List Call) : sets (a ++ b) = sets a ++ sets b := by
  induction a with
  | nil => rfl
  | cons c a ih => cases c <;> simp [sets, ih]

theorem gots_append (a b : List Call) : gots (a ++ b) = gots a ++ gots b := by
  induction a with
  | nil => rfl
  | cons c a ih => cases c <;> simp [gots, ih]

theorem asked_append (a b : List Call) : asked (a ++ b) = asked a ++ asked b := by
  induction a with
  | nil => rfl
  | cons c a ih => cases c <;> simp [asked, ih]

theorem restore_spec (app : App) (session : BitVec 32) (requester : Bytes) (commit : Bool) (l : List (Bytes × WVal)) :
    ∀ calls, ∃ new, restore app session requester commit l calls = calls ++ new ∧ gots new = [] ∧ asked new = [] ∧
      (sets new).map (·.1) = l.map (fun y => ⟨y.1, y.2, session, some requester, commit⟩) := by
  induction l with
  | nil => exact fun calls => ⟨[], by simp [restore, gots, asked, sets]⟩
  | cons y l ih =>
    intro calls
    obtain ⟨new, h1, h2, h3, h4⟩ := ih (callSet app calls ⟨y.1, y.2, session, some requester, commit⟩).1
    refine ⟨.set ⟨y.1, y.2, session, some requester, commit⟩ (app.set calls ⟨y.1, y.2, session, some requester, commit⟩) :: new,
      ?_, by simpa [gots] using h2, by simpa [asked] using h3, by simpa [sets] using h4⟩
    rw [restore, h1, callSet]
    simp

/-- How a set that fails at one of the properties goes: those before were set, and the failure is that of the property. -/
structure Failed (app : App) (r : SetRequest) (kept l : List (Bytes × WVal)) (new : List Call) (out : SetReply) : Prop where
  code : out.code ≠ 0
  old : out.old = []
  how : ∃ before x after first second, l = before ++ x :: after ∧ out.failed = x.1 ∧ new = first ++ second ∧
    sets first = before.map (fun y => (⟨y.1, y.2, r.session, some r.requester, false⟩, 0)) ∧
    asked first = ((before.map (·.1)).filter (fun n => r.rollBack && (app.elem n).any (·.1))).map (fun n => ⟨n, none⟩) ∧
    ((app.elem x.1 = none ∧ out.code = 17 ∧ second = []) ∨
     ((∃ b, app.elem x.1 = some (b, false)) ∧ out.code = 27 ∧ second = []) ∨
     ((∃ b, app.elem x.1 = some (b, true)) ∧ ∃ back, sets second =
        (⟨x.1, x.2, r.session, some r.requester, r.commit && after.isEmpty⟩, out.code) :: back ∧
        back.map (·.1) = (if r.rollBack then
          (kept ++ gots first).map (fun y => ⟨y.1, y.2, r.session, some r.requester, r.commit && after.isEmpty⟩) else []) ∧
        ∃ cs, out.code = app.set cs ⟨x.1, x.2, r.session, some r.requester, r.commit && after.isEmpty⟩))

/-- How a set that succeeds goes. -/
structure Done (app : App) (r : SetRequest) (kept l : List (Bytes × WVal)) (new : List Call) (out : SetReply) : Prop where
  code : out.code = 0
  sets : sets new = (orders r.session r.requester r.commit l).map (fun a => (a, 0))
  old : out.old = kept ++ gots new
  asked : asked new = ((l.map (·.1)).filter (fun n => r.rollBack && (app.elem n).any (·.1))).map (fun n => ⟨n, none⟩)
  length : out.old.length ≤ kept.length + l.length
  origin : ∀ y ∈ out.old, y ∈ kept ∨ ∃ calls a, a.name ∈ l.map (·.1) ∧ y = ((app.get calls a).name, (app.get calls a).value)

theorem backup_spec (app : App) (calls : List Call) (wanted : Bool) (n : Bytes) :
    ∃ new, backup app calls wanted n = (calls ++ new, gots new) ∧ sets new = [] ∧
      asked new = (if wanted then [⟨n, none⟩] else []) ∧ (gots new).length ≤ 1 ∧
      ∀ y ∈ gots new, ∃ calls a, a.name = n ∧ y = ((app.get calls a).name, (app.get calls a).value) := by
  cases wanted with
  | false => exact ⟨[], by simp [backup, gots, sets, asked]⟩
  | true =>
    refine ⟨[.get ⟨n, none⟩ (app.get calls ⟨n, none⟩)], by simp [backup, callGet, gots], rfl, rfl, by simp [gots], ?_⟩
    intro y hy
    simp only [gots, List.mem_singleton] at hy
    exact ⟨calls, ⟨n, none⟩, rfl, hy⟩

theorem setLoop_spec (app : App) (r : SetRequest) (l : List (Bytes × WVal)) : ∀ kept calls,
    ∃ new, (setLoop app r l kept calls).1 = calls ++ new ∧
      (Done app r kept l new (setLoop app r l kept calls).2 ∨ Failed app r kept l new (setLoop app r l kept calls).2) := by
  induction l with
  | nil =>
    intro kept calls
    exact ⟨[], by simp [setLoop], .inl ⟨rfl, rfl, by simp [setLoop, gots], rfl, by simp [setLoop], fun y hy => .inl hy⟩⟩
  | cons x l ih =>
    intro kept calls
    obtain ⟨n, v⟩ := x
    cases he : app.elem n with
    | none =>
      refine ⟨[], by simp [setLoop, he], .inr ⟨by simp [setLoop, he], by simp [setLoop, he], ?_⟩⟩
      exact ⟨[], (n, v), l, [], [], rfl, by simp [setLoop, he], rfl, rfl, rfl, .inl ⟨he, by simp [setLoop, he], rfl⟩⟩
    | some e =>
      obtain ⟨readable, writable⟩ := e
      cases writable with
      | false =>
        refine ⟨[], by simp [setLoop, he], .inr ⟨by simp [setLoop, he], by simp [setLoop, he], ?_⟩⟩
        exact ⟨[], (n, v), l, [], [], rfl, by simp [setLoop, he], rfl, rfl, rfl, .inr (.inl ⟨⟨_, he⟩, by simp [setLoop, he], rfl⟩)⟩
      | true =>
        obtain ⟨bk, hb1, hb2, hb3, hb4, hb5⟩ := backup_spec app calls (r.rollBack && readable) n
        have hstep : setLoop app r ((n, v) :: l) kept calls =
            (if app.set (calls ++ bk) ⟨n, v, r.session, some r.requester, r.commit && l.isEmpty⟩ = 0 then
              setLoop app r l (kept ++ gots bk) (calls ++ bk ++ [.set ⟨n, v, r.session, some r.requester, r.commit && l.isEmpty⟩
                (app.set (calls ++ bk) ⟨n, v, r.session, some r.requester, r.commit && l.isEmpty⟩)])
            else (if r.rollBack then restore app r.session r.requester (r.commit && l.isEmpty) kept
                (calls ++ bk ++ [.set ⟨n, v, r.session, some r.requester, r.commit && l.isEmpty⟩
                (app.set (calls ++ bk) ⟨n, v, r.session, some r.requester, r.commit && l.isEmpty⟩)]) else
                (calls ++ bk ++ [.set ⟨n, v, r.session, some r.requester, r.commit && l.isEmpty⟩
                (app.set (calls ++ bk) ⟨n, v, r.session, some r.requester, r.commit && l.isEmpty⟩)]),
              ⟨app.set (calls ++ bk) ⟨n, v, r.session, some r.requester, r.commit && l.isEmpty⟩, n, []⟩)) := by
          simp only [setLoop, he, hb1, callSet]
        rw [hstep]
        generalize hc : app.set (calls ++ bk) ⟨n, v, r.session, some r.requester, r.commit && l.isEmpty⟩ = c
        by_cases h0 : c = 0
        · rw [if_pos h0]
          subst h0
          obtain ⟨new, hn1, hn2⟩ := ih (kept ++ gots bk) (calls ++ bk ++
            [.set ⟨n, v, r.session, some r.requester, r.commit && l.isEmpty⟩ 0])
          refine ⟨bk ++ .set ⟨n, v, r.session, some r.requester, r.commit && l.isEmpty⟩ 0 :: new, ?_, ?_⟩
          · rw [hn1]; simp
          · rcases hn2 with hd | hf
            · refine .inl ⟨hd.code, ?_, ?_, ?_, ?_, ?_⟩
              · rw [sets_append, hb2, List.nil_append, sets, hd.sets]
                cases l with
                | nil => simp [orders]
                | cons y l => simp [orders]
              · rw [hd.old, gots_append, gots, List.append_assoc]
              · rw [asked_append, hb3, asked, hd.asked, List.map_cons, List.filter_cons]
                simp only [he, Option.any_some]
                split <;> rfl
              · have := hd.length
                simp only [List.length_append, List.length_cons] at this ⊢
                omega
              · intro y hy
                rcases hd.origin y hy with h | ⟨cs, a, h1, h2⟩
                · rcases List.mem_append.mp h with h | h
                  · exact .inl h
                  · obtain ⟨cs, a, h1, h2⟩ := hb5 y h
                    exact .inr ⟨cs, a, by simp [h1], h2⟩
                · exact .inr ⟨cs, a, by rw [List.map_cons]; exact List.mem_cons_of_mem _ h1, h2⟩
            · refine .inr ⟨hf.code, hf.old, ?_⟩
              obtain ⟨before, x, after, first, second, e1, e2, e3, e4, e6, e5⟩ := hf.how
              have hle : l.isEmpty = false := by rw [e1]; simp
              refine ⟨(n, v) :: before, x, after, bk ++ .set ⟨n, v, r.session, some r.requester, r.commit && l.isEmpty⟩ 0 :: first,
                second, by rw [e1]; rfl, e2, by rw [e3]; simp, ?_, ?_, ?_⟩
              · rw [sets_append, hb2, List.nil_append, sets, e4, hle, Bool.and_false]
                rfl
              · rw [asked_append, hb3, asked, e6, List.map_cons, List.filter_cons]
                simp only [he, Option.any_some]
                split <;> rfl
              · rcases e5 with h | h | ⟨h1, back, h2, h3, h4⟩
                · exact .inl h
                · exact .inr (.inl h)
                · refine .inr (.inr ⟨h1, back, h2, ?_, h4⟩)
                  rw [h3, gots_append, gots, List.append_assoc]
        · rw [if_neg h0]
          cases hrb : r.rollBack with
          | false =>
            refine ⟨bk ++ [.set ⟨n, v, r.session, some r.requester, r.commit && l.isEmpty⟩ c], by simp, .inr ⟨h0, rfl, ?_⟩⟩
            refine ⟨[], (n, v), l, [], _, rfl, rfl, rfl, rfl, rfl, .inr (.inr ⟨⟨_, he⟩, [], ?_, by simp [hrb], _, hc.symm⟩)⟩
            rw [show (List.append bk _) = bk ++ _ from rfl, sets_append, hb2]
            rfl
          | true =>
            obtain ⟨new, g1, g2, g3, g4⟩ := restore_spec app r.session r.requester (r.commit && l.isEmpty) kept
              (calls ++ bk ++ [.set ⟨n, v, r.session, some r.requester, r.commit && l.isEmpty⟩ c])
            refine ⟨bk ++ .set ⟨n, v, r.session, some r.requester, r.commit && l.isEmpty⟩ c :: new, ?_, .inr ⟨h0, rfl, ?_⟩⟩
            · simp only [if_true]
              rw [g1]; simp
            · refine ⟨[], (n, v), l, [], _, rfl, rfl, rfl, rfl, rfl, .inr (.inr ⟨⟨_, he⟩, sets new, ?_, ?_, _, hc.symm⟩)⟩
              · rw [show (List.append bk _) = bk ++ _ from rfl, sets_append, hb2]
                rfl
              · rw [g4]; simp [hrb, gots]

/-- How a get goes. -/
theorem getNames_spec (app : App) (requester : Bytes) (l : List Bytes) : ∀ acc calls,
    ∃ new, (getNames app requester l acc calls).1 = calls ++ new ∧ sets new = [] ∧
      (((getNames app requester l acc calls).2.1 = 0 ∧ (getNames app requester l acc calls).2.2 = acc ++ gots new ∧
          asked new = l.map (fun n => ⟨n, some requester⟩) ∧ (gots new).length = l.length ∧
          ∀ y ∈ gots new, ∃ calls a, a.name ∈ l ∧ y = ((app.get calls a).name, (app.get calls a).value)) ∨
       ((getNames app requester l acc calls).2.1 ≠ 0 ∧ (getNames app requester l acc calls).2.2 = [] ∧
          ∃ before x after, l = before ++ x :: after ∧
            ((app.elem x = none ∧ (getNames app requester l acc calls).2.1 = 17 ∧
                asked new = before.map (fun n => ⟨n, some requester⟩)) ∨
             ((∃ b, app.elem x = some (false, b)) ∧ (getNames app requester l acc calls).2.1 = 9 ∧
                asked new = before.map (fun n => ⟨n, some requester⟩)) ∨
             ((∃ b, app.elem x = some (true, b)) ∧
                asked new = (before ++ [x]).map (fun n => ⟨n, some requester⟩) ∧
                ∃ cs, (getNames app requester l acc calls).2.1 = (app.get cs ⟨x, some requester⟩).code)))) := by
  induction l with
  | nil => exact fun acc calls => ⟨[], by simp [getNames], rfl, .inl ⟨rfl, by simp [getNames, gots], rfl, rfl, by simp [gots]⟩⟩
  | cons n l ih =>
    intro acc calls
    cases he : app.elem n with
    | none =>
      refine ⟨[], by simp [getNames, he], rfl, .inr ⟨by simp [getNames, he], by simp [getNames, he], [], n, l, rfl, .inl ?_⟩⟩
      exact ⟨he, by simp [getNames, he], rfl⟩
    | some e =>
      obtain ⟨readable, w⟩ := e
      cases readable with
      | false =>
        refine ⟨[], by simp [getNames, he], rfl, .inr ⟨by simp [getNames, he], by simp [getNames, he], [], n, l, rfl, .inr (.inl ?_)⟩⟩
        exact ⟨⟨w, he⟩, by simp [getNames, he], rfl⟩
      | true =>
        by_cases hc : (app.get calls ⟨n, some requester⟩).code = 0
        · obtain ⟨new, h1, h2, h3⟩ := ih
            (acc ++ [((app.get calls ⟨n, some requester⟩).name, (app.get calls ⟨n, some requester⟩).value)])
            (calls ++ [.get ⟨n, some requester⟩ (app.get calls ⟨n, some requester⟩)])
          have hstep : getNames app requester (n :: l) acc calls = getNames app requester l
            (acc ++ [((app.get calls ⟨n, some requester⟩).name, (app.get calls ⟨n, some requester⟩).value)])
            (calls ++ [.get ⟨n, some requester⟩ (app.get calls ⟨n, some requester⟩)]) := by
            rw [getNames]
            simp only [he, hc, if_true]
          rw [hstep]
          refine ⟨.get ⟨n, some requester⟩ (app.get calls ⟨n, some requester⟩) :: new, by rw [h1]; simp, h2, ?_⟩
          rcases h3 with ⟨g1, g2, g3, g4, g5⟩ | ⟨g1, g2, before, x, after, g3, g4⟩
          · refine .inl ⟨g1, by rw [g2]; simp [gots], by simp [asked, g3], by simp [gots, g4], ?_⟩
            intro y hy
            simp only [gots, List.mem_cons] at hy
            rcases hy with rfl | hy
            · exact ⟨calls, ⟨n, some requester⟩, by simp, rfl⟩
            · obtain ⟨cs, a, k1, k2⟩ := g5 y hy
              exact ⟨cs, a, List.mem_cons_of_mem _ k1, k2⟩
          · refine .inr ⟨g1, g2, n :: before, x, after, by rw [g3]; rfl, ?_⟩
            rcases g4 with ⟨k1, k2, k3⟩ | ⟨k1, k2, k3⟩ | ⟨k1, k2, k3⟩
            · exact .inl ⟨k1, k2, by simp [asked, k3]⟩
            · exact .inr (.inl ⟨k1, k2, by simp [asked, k3]⟩)
            · exact .inr (.inr ⟨k1, by simp [asked, k2], k3⟩)
        · have hstep : getNames app requester (n :: l) acc calls =
              (calls ++ [.get ⟨n, some requester⟩ (app.get calls ⟨n, some requester⟩)],
                (app.get calls ⟨n, some requester⟩).code, []) := by
            rw [getNames]
            simp only [he, hc, if_false]
          rw [hstep]
          refine ⟨[.get ⟨n, some requester⟩ (app.get calls ⟨n, some requester⟩)], rfl, rfl,
            .inr ⟨hc, rfl, [], n, l, rfl, .inr (.inr ⟨⟨w, he⟩, rfl, calls, rfl⟩)⟩⟩

theorem request_one {requester n : Bytes} (hr : Short requester) (hn : Short n) : (getRequest requester [n]).length < 2 ^ 30 := by
  have h1 := setString_le requester
  have h2 := setString_le n
  have h3 := setInt32_le (BitVec.ofNat 32 1)
  have h4 := hr.2
  have h5 := hn.2
  simp only [getRequest, List.length_append, List.flatMap_cons, List.flatMap_nil, List.length_cons, List.length_nil, Nat.zero_add]
  omega

/-- The response to a get of one name that succeeds, as the caller reads it. -/
theorem one_answer (fc : FloatConv) {name : Bytes} {v : WVal} (h : Sendable fc [(name, v)]) :
    ∃ d, appendProps fc (toList [(name, v)]) = .ok d ∧ (getCode (-1) (setMeta (setInt32 0 ++ (setInt32 1 ++ d)) methodResponse [] [])).1 = 0 ∧
      ∃ rest r, getStringN (getCode 0 (getCode (-1) (setMeta (setInt32 0 ++ (setInt32 1 ++ d)) methodResponse [] [])).2).2 = .ok (name, r) ∧
        readValue fc r = .ok (v, rest) := by
  obtain ⟨hn, hv⟩ := h.1 (name, v) (by simp)
  obtain ⟨d, h1, h2, h3⟩ := readVal_append fc v hv
  have ha : appendProps fc (toList [(name, v)]) = .ok (setString name ++ (d ++ [])) := by
    simp only [toList, appendProps, h1, Res.ok_bind, Res.pure_eq]
  have hl := h.2.2 _ ha
  have h4 := setInt32_le 0
  have h5 := setInt32_le 1
  refine ⟨_, ha, ?_⟩
  rw [setMeta_bytes _ _ _ _ (by simp only [List.length_append] at hl ⊢; omega)]
  simp only [List.append_assoc, getCode_set, true_and, getStringN_set name hn, Res.ok.injEq, Prod.mk.injEq]
  exact ⟨_, _, rfl, h3 _ _ (by simp)⟩

/-- The response to a get of several names that succeeds, as the caller reads it. -/
theorem many_answer (fc : FloatConv) {l : List (Bytes × WVal)} (h : Sendable fc l) :
    ∃ d, appendProps fc (toList l) = .ok d ∧
      (getCode (-1) (setMeta (setInt32 0 ++ (setInt32 (BitVec.ofNat 32 l.length) ++ d)) methodResponse [] [])).1 = 0 ∧
      ∃ rest, readPropList fc (getCode (-1) (setMeta (setInt32 0 ++ (setInt32 (BitVec.ofNat 32 l.length) ++ d)) methodResponse [] [])).2 =
        .ok (toList l, rest) := by
  obtain ⟨d, hd, hdl, hrd⟩ := read_props fc h
  refine ⟨d, hd, ?_⟩
  have h1 := setInt32_le 0
  have h2 := setInt32_le (BitVec.ofNat 32 l.length)
  rw [setMeta_bytes _ _ _ _ (by simp only [List.length_append]; omega)]
  simp only [List.append_assoc, getCode_set, true_and]
  simp only [readPropList, getInt32Z_set, toInt_small (show l.length < 2 ^ 31 by have := h.2.1; omega), hrd]
  exact ⟨_, rfl⟩

theorem code_answer (c : BitVec 32) : (getCode (-1) (setMeta (setInt32 c) methodResponse [] [])).1 = c := by
  have h := setInt32_le c
  rw [setMeta_bytes _ _ _ _ (by omega), getCode_set]

theorem wild {n : Bytes} (h : Simple n) : Params.isWildcard n = false := by
  simp [Params.isWildcard, h.1, h.2.1]

theorem query {n : Bytes} (h : Simple n) : eventOrMethod n = false := by
  simp [eventOrMethod, h.2.2.1, h.2.2.2.1, h.2.2.2.2]

theorem Meant.eqs {opts : Option (BitVec 32 × Bool)} {session : BitVec 32} {commit : Bool} (h : Meant opts session commit) :
    (opts.map (·.1)).getD 0 = session ∧ (opts.map (·.2)).getD true = commit := by
  rcases h with rfl | ⟨rfl, rfl, rfl⟩ <;> exact ⟨rfl, rfl⟩

theorem sendable_nil (fc : FloatConv) : Sendable fc [] := by
  refine ⟨by simp, by decide, ?_⟩
  intro d h
  simp only [toList, appendProps, Res.ok.injEq] at h
  subst h
  decide

/-- A set of one value that is delivered. -/
theorem set_delivered (fc : FloatConv) (app : App) (calls : List Call) {parent state requester n : Bytes} {v : WVal}
    {opts : Option (BitVec 32 × Bool)} {session : BitVec 32} {commit : Bool}
    (hp : Name parent) (hs : Name state) (hr : Short requester) (hn : Short n) (hsi : Simple n) (hv : Sendable fc [(n, v)])
    (ht : v.ty ≠ .none) (ho : Meant opts session commit) :
    set fc app calls .delivered parent state requester n v opts =
      .ok ((setLoop app ⟨session, requester, false, [(n, v)], commit⟩ [(n, v)] [] calls).1,
        readCode (setLoop app ⟨session, requester, false, [(n, v)], commit⟩ [(n, v)] [] calls).2.code) := by
  obtain ⟨req, h1, h2⟩ := serveSet_request fc app calls (session := session) (rollBack := false) (commit := commit) hp hs hr hv (by simp)
  have hold : (setLoop app ⟨session, requester, false, [(n, v)], commit⟩ [(n, v)] [] calls).2.old = [] := by
    simp only [setLoop, backup, callSet, Bool.false_and, Bool.false_eq_true, if_false]
    cases he : app.elem n with
    | none => rfl
    | some e =>
      obtain ⟨a, b⟩ := e
      cases b
      · rfl
      · simp only
        split <;> rfl
  have hf : Short (setLoop app ⟨session, requester, false, [(n, v)], commit⟩ [(n, v)] [] calls).2.failed := by
    have hnil : Short [] := by constructor <;> simp
    simp only [setLoop, backup, callSet, Bool.false_and, Bool.false_eq_true, if_false]
    cases he : app.elem n with
    | none => exact hn
    | some e =>
      obtain ⟨a, b⟩ := e
      cases b
      · exact hn
      · simp only
        split
        · exact hnil
        · exact hn
  obtain ⟨a1, a2⟩ := set_answer fc (setLoop app ⟨session, requester, false, [(n, v)], commit⟩ [(n, v)] [] calls).2
    (by rw [hold]; exact sendable_nil fc)
  have : ∃ m, writeSet fc (setLoop app ⟨session, requester, false, [(n, v)], commit⟩ [(n, v)] [] calls).2 = .ok m ∧
      (getCode (-1) (setMeta m methodResponse [] [])).1 =
        (setLoop app ⟨session, requester, false, [(n, v)], commit⟩ [(n, v)] [] calls).2.code := by
    by_cases h0 : (setLoop app ⟨session, requester, false, [(n, v)], commit⟩ [(n, v)] [] calls).2.code = 0
    · obtain ⟨m, g1, g2, _⟩ := a1 h0
      exact ⟨m, g1, by rw [g2, h0]⟩
    · obtain ⟨m, g1, g2, _⟩ := a2 h0 hf
      exact ⟨m, g1, g2⟩
  obtain ⟨m, g1, g2⟩ := this
  simp only [set, wild hsi, Bool.false_eq_true, if_false, ht, ho.eqs.1, ho.eqs.2, h1, Res.ok_bind, exchange, h2, g1,
    Res.pure_eq, g2]

/-- A get of one value that is delivered. -/
theorem get_delivered (fc : FloatConv) (app : App) (calls : List Call) {parent state requester n : Bytes}
    (hp : Name parent) (hs : Name state) (hr : Short requester) (hn : Short n) (hsi : Simple n) (hc : Codes app)
    (hg : ∀ b, app.elem n = some (true, b) → (app.get calls ⟨n, some requester⟩).code = 0 →
      Sendable fc [((app.get calls ⟨n, some requester⟩).name, (app.get calls ⟨n, some requester⟩).value)]) :
    get fc app calls .delivered parent state requester n = .ok (
      match app.elem n with
      | none => (calls, 17, none)
      | some (false, _) => (calls, 9, none)
      | some (true, _) => (calls ++ [.get ⟨n, some requester⟩ (app.get calls ⟨n, some requester⟩)],
          if (app.get calls ⟨n, some requester⟩).code = 0 then
            if (app.get calls ⟨n, some requester⟩).name = n then (0, some (app.get calls ⟨n, some requester⟩).value) else (8, none)
          else ((app.get calls ⟨n, some requester⟩).code, none))) := by
  have h := serveGet_request fc app calls hp hs hr (names := [n]) (by simpa using ⟨hn, wild hsi⟩) (by simp) (request_one hr hn)
  have h100 : ∀ c : BitVec 32, c.toNat < 100 → c ≠ 0 → ¬ readCode c = 0 := fun c hc h0 => by rw [readCode_small hc]; exact h0
  simp only [get, query hsi, wild hsi, Bool.false_eq_true, if_false, exchange, h]
  cases he : app.elem n with
  | none =>
    have hx : getNames app requester [n] [] calls = (calls, 17, []) := by simp only [getNames, he]
    simp only [hx, Res.ok_bind, Res.pure_eq, code_answer, show ¬ (17 : BitVec 32) = 0 by decide, if_false,
      readCode_small (show (17 : BitVec 32).toNat < 100 by decide)]
  | some e =>
    obtain ⟨readable, w⟩ := e
    cases readable with
    | false =>
      have hx : getNames app requester [n] [] calls = (calls, 9, []) := by simp only [getNames, he]
      simp only [hx, Res.ok_bind, Res.pure_eq, code_answer, show ¬ (9 : BitVec 32) = 0 by decide, if_false,
        readCode_small (show (9 : BitVec 32).toNat < 100 by decide)]
    | true =>
      by_cases h0 : (app.get calls ⟨n, some requester⟩).code = 0
      · obtain ⟨d, k1, k2, rest, r, k3, k4⟩ := one_answer fc (hg w he h0)
        have hx : getNames app requester [n] [] calls =
            (calls ++ [.get ⟨n, some requester⟩ (app.get calls ⟨n, some requester⟩)], 0,
              [((app.get calls ⟨n, some requester⟩).name, (app.get calls ⟨n, some requester⟩).value)]) := by
          simp only [getNames, he, h0, if_true, List.nil_append]
        simp only [hx, h0, if_true, List.length_cons, List.length_nil, Nat.zero_add, k1, Res.ok_bind, Res.pure_eq]
        rw [show (BitVec.ofNat 32 1) = 1 from rfl, k2]
        simp only [readCode_zero, if_true, k3, Res.ok_bind]
        by_cases hx : (app.get calls ⟨n, some requester⟩).name = n
        · simp only [hx, if_true, k4, Res.ok_bind]
        · simp only [hx, if_false]
      · have hlt := hc.2 calls ⟨n, some requester⟩
        have hx : getNames app requester [n] [] calls =
            (calls ++ [.get ⟨n, some requester⟩ (app.get calls ⟨n, some requester⟩)],
              (app.get calls ⟨n, some requester⟩).code, []) := by
          simp only [getNames, he, h0, if_false]
        simp only [hx, h0, if_false, Res.ok_bind, Res.pure_eq, code_answer, readCode_small hlt]

/-- A plain value can be sent. -/
theorem sendable_plain (fc : FloatConv) {n : Bytes} {v : Plain} (hn : Short n) (hv : ∀ s, v = .string s → Short s) :
    Sendable fc [(n, asValue v)] ∧ (asValue v).ty ≠ .none := by
  have h1 := setString_le n
  have h2 := hn.2
  have h3 := fun c => setInt32_le c
  have h4 := fun c => Method.setBytes_le c
  cases v with
  | boolean b =>
    refine ⟨⟨by simpa [asValue, SendableVal, SendableScalar] using hn.name, by simp, ?_⟩, by simp [asValue, WVal.ty, Scalar.ty]⟩
    intro d hd
    simp only [toList, asValue, appendProps, appendVal, appendScalar, Res.ok_bind, Res.pure_eq, Res.ok.injEq] at hd
    subst hd
    have := h3 (BitVec.ofNat 32 (Scalar.boolean b).ty.code)
    have := h4 [if b then 1 else 0]
    simp only [List.length_append, List.length_cons, List.length_nil] at *
    omega
  | int b =>
    refine ⟨⟨by simpa [asValue, SendableVal, SendableScalar] using hn.name, by simp, ?_⟩, by simp [asValue, WVal.ty, Scalar.ty]⟩
    intro d hd
    simp only [toList, asValue, appendProps, appendVal, appendScalar, Res.ok_bind, Res.pure_eq, Res.ok.injEq] at hd
    subst hd
    have := h3 (BitVec.ofNat 32 (Scalar.int32 b).ty.code)
    have := h3 b
    simp only [List.length_append, List.length_cons, List.length_nil] at *
    omega
  | uint b =>
    refine ⟨⟨by simpa [asValue, SendableVal, SendableScalar] using hn.name, by simp, ?_⟩, by simp [asValue, WVal.ty, Scalar.ty]⟩
    intro d hd
    simp only [toList, asValue, appendProps, appendVal, appendScalar, Res.ok_bind, Res.pure_eq, Res.ok.injEq] at hd
    subst hd
    have := h3 (BitVec.ofNat 32 (Scalar.uint32 b).ty.code)
    have := h3 b
    simp only [List.length_append, List.length_cons, List.length_nil] at *
    omega
  | string b =>
    have hb := hv b rfl
    refine ⟨⟨by simpa [asValue, SendableVal, SendableScalar] using ⟨hn.name, hb.name⟩, by simp, ?_⟩, by simp [asValue, WVal.ty, Scalar.ty]⟩
    intro d hd
    simp only [toList, asValue, appendProps, appendVal, appendScalar, Res.ok_bind, Res.pure_eq, Res.ok.injEq] at hd
    subst hd
    have := h3 (BitVec.ofNat 32 (Scalar.string (some b)).ty.code)
    have := h4 (b ++ [0])
    have := hb.2
    simp only [List.length_append, List.length_cons, List.length_nil] at *
    omega

/-- Getting several values from a provider. -/
theorem getMany_spec (fc : FloatConv) (app : App) (calls : List Call) {parent state : Bytes} (requester : Bytes) {provider : Bytes} {names : List Bytes}
    (hp : Name parent) (hs : Name state) (hr : Short provider) (hn : ∀ n ∈ names, Short n ∧ Simple n) (hne : names ≠ [])
    (hm : names.length ≤ 256) (hc : Codes app) (hg : Gives fc app names) :
    ∃ new code vals, getMany fc app calls .delivered parent state requester provider names = .ok (calls ++ new, code, vals) ∧
      sets new = [] ∧ (code = 0 → vals = gots new ∧ asked new = names.map (fun n => ⟨n, some provider⟩)) ∧
      (code ≠ 0 → vals = [] ∧ ∃ before x after, names = before ++ x :: after ∧
        ((app.elem x = none ∧ code = 17 ∧ asked new = before.map (fun n => ⟨n, some provider⟩)) ∨
         ((∃ w, app.elem x = some (false, w)) ∧ code = 9 ∧ asked new = before.map (fun n => ⟨n, some provider⟩)) ∨
         ((∃ w, app.elem x = some (true, w)) ∧ asked new = (before ++ [x]).map (fun n => ⟨n, some provider⟩) ∧
           ∃ cs, code = (app.get cs ⟨x, some provider⟩).code))) := by
  have hlen : (getRequest provider names).length < 2 ^ 30 := by
    have h1 := setString_le provider
    have h2 := setInt32_le (BitVec.ofNat 32 names.length)
    have h3 := flatMap_length names (fun n h => (hn n h).1.2)
    have h4 := hr.2
    simp only [getRequest, List.length_append]
    omega
  have h := serveGet_request fc app calls hp hs hr (fun n h => ⟨(hn n h).1, wild (hn n h).2⟩) hne hlen
  obtain ⟨new, g1, g2, g3⟩ := getNames_spec app provider names [] calls
  generalize getNames app provider names [] calls = out at h g1 g3
  rcases g3 with ⟨k1, k2, k3, k4, k5⟩ | ⟨k1, k2, before, x, after, k3, k4⟩
  · rw [List.nil_append] at k2
    obtain ⟨d, a1, a2, rest, a3⟩ := many_answer fc (hg (gots new) (by omega) k5)
    rw [k4] at a2 a3
    refine ⟨new, 0, gots new, ?_, g2, fun _ => ⟨rfl, k3⟩, by simp⟩
    simp only [getMany, exchange, h, k1, if_true, k2, a1, Res.ok_bind, Res.pure_eq, a2, readCode_zero, a3, ofList_toList, g1]
  · have hlt : out.2.1.toNat < 100 := by
      rcases k4 with ⟨_, h, _⟩ | ⟨_, h, _⟩ | ⟨_, _, cs, h⟩
      · rw [h]; decide
      · rw [h]; decide
      · rw [h]; exact hc.2 _ _
    refine ⟨new, out.2.1, [], ?_, g2, fun h => absurd h k1, fun _ => ⟨rfl, before, x, after, k3, ?_⟩⟩
    · simp only [getMany, exchange, h, k1, if_false, Res.ok_bind, Res.pure_eq, code_answer, readCode_small hlt, g1]
    · rcases k4 with ⟨h, h', h''⟩ | ⟨h, h', h''⟩ | ⟨h, h', h''⟩
      · exact .inl ⟨h, h', h''⟩
      · exact .inr (.inl ⟨h, h', h''⟩)
      · exact .inr (.inr ⟨h, h', h''⟩)

end Verif.SetGet
