import Verif.Proof.Method
import Verif.Proof.Exec
import Verif.Spec.SessionWire

/-!
# Proofs about sessions from end to end
-/

namespace Verif.Proof.SessionWire

open Verif Verif.Message Verif.Value Verif.Method Verif.SessionWire Verif.Spec.SessionWire
open Verif.Wire hiding Event

theorem int32_bytes (fc : FloatConv) (n : Bytes) (v : BitVec 32) (r : PropList) {d : Bytes}
    (h : appendProps fc r = .ok d) : appendProps fc (.cons n (.scalar (.int32 v)) r) =
      .ok (setString n ++ ((setInt32 (BitVec.ofNat 32 Ty.int32.code) ++ setInt32 v) ++ d)) := by
  simp only [appendProps, h]
  rfl

theorem one_travels (fc : FloatConv) {n : String} (hn : Name (str n)) (hl : (str n).length < 100) (v : BitVec 32) :
    Travels fc (one n v) := by
  refine ⟨?_, by simp [one, setProp, propsOf, PropList.count], ?_⟩
  · simp [one, setProp, SendableObj, SendableProps, SendableObjs, SendableVal, SendableScalar, hn, PropList.count,
      ObjList.count]
    simp [Name]
  · intro d h
    have : appendObj fc (one n v) = .ok (setString [] ++ (setInt32 0 ++ (setInt32 1 ++
      ((setString (str n) ++ ((setInt32 (BitVec.ofNat 32 Ty.int32.code) ++ setInt32 v) ++ [])) ++
        (setInt32 0 ++ []))))) := rfl
    rw [this] at h
    cases h
    have a1 := setInt32_le 0
    have a2 := setInt32_le 1
    have a3 := setInt32_le (BitVec.ofNat 32 Ty.int32.code)
    have a4 := setInt32_le v
    have a5 := setString_le (str n)
    have a6 := setString_le []
    simp only [List.length_append, List.length_nil] at *
    omega

theorem two_travels (fc : FloatConv) (v w : BitVec 32) : Travels fc (two v w) := by
  have hx : two v w = .mk [] false (.cons (str "return_value") (.scalar (.int32 v))
    (.cons (str "sessionid") (.scalar (.int32 w)) .nil)) .nil := by
    simp only [two, setProp]
    rw [if_neg (by decide)]
  rw [hx]
  refine ⟨?_, by simp [propsOf, PropList.count], ?_⟩
  · have h1 : Name (str "return_value") := ⟨by decide, by decide⟩
    have h2 : Name (str "sessionid") := ⟨by decide, by decide⟩
    simp [SendableObj, SendableProps, SendableObjs, SendableVal, SendableScalar, h1, h2, PropList.count, ObjList.count]
    simp [Name]
  · intro d h
    have : appendObj fc (.mk [] false (.cons (str "return_value") (.scalar (.int32 v))
      (.cons (str "sessionid") (.scalar (.int32 w)) .nil)) .nil) = .ok (setString [] ++ (setInt32 0 ++ (setInt32 2 ++
      ((setString (str "return_value") ++ ((setInt32 (BitVec.ofNat 32 Ty.int32.code) ++ setInt32 v) ++
        (setString (str "sessionid") ++ ((setInt32 (BitVec.ofNat 32 Ty.int32.code) ++ setInt32 w) ++ [])))) ++
        (setInt32 0 ++ []))))) := rfl
    rw [this] at h
    cases h
    have a1 := setInt32_le 0
    have a2 := setInt32_le 2
    have a3 := setInt32_le (BitVec.ofNat 32 Ty.int32.code)
    have a4 := setInt32_le v
    have a5 := setInt32_le w
    have a6 := setString_le (str "return_value")
    have a7 := setString_le (str "sessionid")
    have a8 := setString_le []
    have a9 : (str "return_value").length = 12 := by decide
    have a10 : (str "sessionid").length = 9 := by decide
    simp only [List.length_append, List.length_nil] at *
    omega

/-- The methods. -/
def Method (n : Bytes) : Prop := n = getCurrentName ∨ n = requestName ∨ n = endName

theorem method_name {n : Bytes} (h : Method n) : Name n ∧ n.length < 2 ^ 20 := by
  rcases h with rfl | rfl | rfl <;> exact ⟨⟨by decide, by decide⟩, by decide⟩

/-- Whatever the manager answers can be sent. -/
theorem out_travels (fc : FloatConv) (junk : WVal → BitVec 32) (c : BitVec 32) (n : Bytes) (inp : Obj) :
    Travels fc (manager junk c n inp).out := by
  have h1 : ∀ v, Travels fc (one "return_value" v) := one_travels fc ⟨by decide, by decide⟩ (by decide)
  have h2 : ∀ v, Travels fc (one "result" v) := one_travels fc ⟨by decide, by decide⟩ (by decide)
  unfold manager
  split
  · exact two_travels fc _ _
  · split
    · split
      · exact two_travels fc _ _
      · exact h1 _
    · split
      · split
        · split
          · split
            · exact h2 _
            · exact h2 _
          · exact h2 _
        · exact h2 _
      · exact empty_travels fc

/-- What a call does, by its fate. -/
theorem ask_eq (fc : FloatConv) (junk : WVal → BitVec 32) (c : BitVec 32) (f : Fate) (p s : Bytes) {n : Bytes}
    (hn : Method n) (inp : Option Obj) (hi : ∀ o, inp = some o → Travels fc o) :
    ∃ out, ask fc junk c f p s n inp = .ok
      (if Arrives f then (manager junk c n (inp.getD emptyObj)).current else c,
       if Arrives f then (manager junk c n (inp.getD emptyObj)).event else none,
       match mishap f with
       | some e => ⟨coreToRbus e, out⟩
       | none => ⟨0, (manager junk c n (inp.getD emptyObj)).out⟩) := by
  obtain ⟨h1, h2⟩ := method_name hn
  have he : elements junk c n = some (some fun inp => ⟨0, (manager junk c n inp).out, none⟩) := if_pos hn
  have ho := out_travels fc junk c n (inp.getD emptyObj)
  obtain ⟨m, h3, h4⟩ := receive_respond fc 0 (manager junk c n (inp.getD emptyObj)).out ho.1
    (fun d hd => by have := ho.2.2 d hd; omega)
  have hx : complete 0 (manager junk c n (inp.getD emptyObj)).out = (manager junk c n (inp.getD emptyObj)).out := by
    cases (manager junk c n (inp.getD emptyObj)).out; simp [complete]
  have hh : Method.handle fc (elements junk c) n (inp.getD emptyObj) = .ok ⟨some (n, inp.getD emptyObj), some m⟩ := by
    simp only [Method.handle, he, hx, h3, Res.ok_bind, Res.pure_eq]
    rfl
  obtain ⟨req, h5, h6⟩ := serve_request fc (elements junk c) p s n inp h1 h2 hi
  cases f with
  | delivered =>
    refine ⟨emptyObj, ?_⟩
    simp only [ask, call_delivered fc (elements junk c) p s n inp h1 h2 hi _ m _ hh h4, Res.ok_bind, Res.pure_eq, Arrives,
      mishap, if_true]
    rfl
  | lost e =>
    refine ⟨setError (coreToRbus e) (errorText (coreToRbus e)) emptyObj, ?_⟩
    simp only [ask, call, h5, receive, Res.ok_bind, Res.pure_eq, Arrives, mishap, Bool.false_eq_true, if_false]
  | unanswered e =>
    refine ⟨setError (coreToRbus e) (errorText (coreToRbus e)) emptyObj, ?_⟩
    simp only [ask, call, h5, h6, hh, receive, Res.ok_bind, Res.pure_eq, Arrives, mishap, if_true]

theorem core_ne {e : Nat} (h : e ≠ 0) : coreToRbus e ≠ 0 := by
  unfold coreToRbus
  split <;> first | contradiction | decide

theorem mishap_cases (f : Fate) : f = .delivered ∨ ∃ e, mishap f = some e := by
  cases f with
  | delivered => exact Or.inl rfl
  | lost e => exact Or.inr ⟨e, rfl⟩
  | unanswered e => exact Or.inr ⟨e, rfl⟩

theorem two_props (v w : BitVec 32) : two v w = .mk [] false (.cons (str "return_value") (.scalar (.int32 v))
    (.cons (str "sessionid") (.scalar (.int32 w)) .nil)) .nil := by
  simp only [two, setProp]
  rw [if_neg (by decide)]

theorem readId_two (junk : WVal → BitVec 32) (w : BitVec 32) : readId junk (two 0 w) = .ok (0, w) := by
  rw [two_props]
  rfl

theorem readId_four (junk : WVal → BitVec 32) : readId junk (one "return_value" 4) = .ok (12, 0) := rfl

theorem openId_iff (h : List Event) : openId h = 0 ↔ isOpen h = false := by
  cases ho : isOpen h <;> simp [openId, ho]

/-- One step does what is specified. -/
theorem step_spec (fc : FloatConv) (junk : WVal → BitVec 32) (h : List Event) {e : Event} (he : Event.Proper e) :
    ∃ o, step fc junk (openId h) e = .ok (openId (e :: h), o) ∧ (o.code, o.id) = told h e ∧
      o.event = (if tells e then some (two 0 (openId (e :: h))) else none) ∧
      o.leaked = (match e with
        | .getCurrent f _ _ => if mishap f = none then 0 else 1
        | _ => 0) := by
  cases e with
  | restart => exact ⟨_, rfl, rfl, rfl, rfl⟩
  | create f p s =>
    obtain ⟨out, hk⟩ := ask_eq fc junk (openId h) f p s (n := requestName) (Or.inr (Or.inl rfl)) none (by simp)
    have hm : manager junk (openId h) requestName emptyObj =
        if openId h = 0 then ⟨1, two 0 1, some (two 0 1)⟩
        else ⟨openId h, one "return_value" 4, some (two 0 (openId h))⟩ := by
      unfold manager
      rw [if_neg (by decide), if_pos rfl]
    have hcur : (if Arrives f then (manager junk (openId h) requestName emptyObj).current else openId h)
        = openId (.create f p s :: h) := by
      rw [hm]
      cases ho : isOpen h <;> cases hf : Arrives f <;> simp [openId, ho, isOpen, hf]
    have hev : (if Arrives f then (manager junk (openId h) requestName emptyObj).event else none)
        = if tells (.create f p s) then some (two 0 (openId (.create f p s :: h))) else none := by
      rw [hm]
      cases ho : isOpen h <;> cases hf : Arrives f <;> simp [openId, ho, isOpen, hf, tells]
    simp only [Option.getD_none, hcur, hev] at hk
    simp only [step, SessionWire.create, hk, Res.ok_bind]
    rcases mishap_cases f with rfl | ⟨e, hf⟩
    · simp only [mishap, if_true, told]
      rw [hm]
      by_cases ho : isOpen h = false
      · rw [if_pos ((openId_iff h).2 ho)]
        simp only [readId_two, Res.ok_bind, ho]
        exact ⟨_, rfl, rfl, rfl, rfl⟩
      · rw [if_neg (fun x => ho ((openId_iff h).1 x))]
        replace ho : isOpen h = true := by simpa using ho
        simp only [readId_four, Res.ok_bind, ho]
        exact ⟨_, rfl, rfl, rfl, rfl⟩
    · have hc := core_ne (e := e) (fun x => he (by rw [hf, x]))
      simp only [hf, told, failed]
      rw [if_neg hc]
      exact ⟨_, rfl, rfl, rfl, rfl⟩
  | getCurrent f p s =>
    obtain ⟨out, hk⟩ := ask_eq fc junk (openId h) f p s (n := getCurrentName) (Or.inl rfl) none (by simp)
    have hm : manager junk (openId h) getCurrentName emptyObj = ⟨openId h, two 0 (openId h), none⟩ := if_pos rfl
    simp only [Option.getD_none, hm, ite_self] at hk
    simp only [step, SessionWire.getCurrent, hk, Res.ok_bind]
    rcases mishap_cases f with rfl | ⟨e, hf⟩
    · simp only [mishap, if_true, told, readId_two, Res.ok_bind]
      exact ⟨_, rfl, rfl, rfl, rfl⟩
    · have hc := core_ne (e := e) (fun x => he (by rw [hf, x]))
      simp only [hf, told, failed]
      rw [if_neg hc]
      exact ⟨_, rfl, rfl, rfl, rfl⟩
  | close f p s id =>
    by_cases h0 : id = 0
    · subst h0
      have h1 : openId (.close f p s 0 :: h) = openId h := by
        simp [openId, isOpen]
      have h2 : tells (.close f p s 0) = false := by simp [tells]
      refine ⟨⟨0, 0, none, 0⟩, ?_, rfl, ?_, rfl⟩
      · rw [h1]; rfl
      · rw [h2]; rfl
    · obtain ⟨out, hk⟩ := ask_eq fc junk (openId h) f p s (n := endName) (Or.inr (Or.inr rfl)) (some (one "session" id))
        (fun o ho => by cases ho; exact one_travels fc ⟨by decide, by decide⟩ (by decide) id)
      have hm : manager junk (openId h) endName (one "session" id) =
          if id = openId h then ⟨0, one "result" 0, some (two 0 0)⟩
          else ⟨openId h, one "result" 12, some (two 0 (openId h))⟩ := by
        unfold manager
        rw [if_neg (by decide), if_neg (by decide), if_pos rfl]
        exact if_pos h0
      have h0' : ¬ id = 0#32 := h0
      have hid : id = openId h ↔ isOpen h = true ∧ id = 1 := by
        cases ho : isOpen h <;> simp [openId, ho, h0']
      have hcur : (if Arrives f then (manager junk (openId h) endName (one "session" id)).current else openId h)
          = openId (.close f p s id :: h) := by
        rw [hm]
        by_cases h1 : id = 1
        · subst h1
          cases ho : isOpen h <;> cases hf : Arrives f <;> simp [openId, ho, isOpen, hf]
        · rw [if_neg (fun x => h1 (hid.1 x).2)]
          have h1' : ¬ id = 1#32 := h1
          simp [openId, isOpen, h1']
      have hev : (if Arrives f then (manager junk (openId h) endName (one "session" id)).event else none)
          = if tells (.close f p s id) then some (two 0 (openId (.close f p s id :: h))) else none := by
        rw [hm]
        by_cases h1 : id = 1
        · subst h1
          cases ho : isOpen h <;> cases hf : Arrives f <;> simp [openId, ho, isOpen, hf, tells]
        · rw [if_neg (fun x => h1 (hid.1 x).2)]
          have h1' : ¬ id = 1#32 := h1
          simp [openId, isOpen, h1', tells, h0']
      simp only [Option.getD_some, hcur, hev] at hk
      simp only [step, SessionWire.close, if_neg h0, hk, Res.ok_bind]
      rcases mishap_cases f with rfl | ⟨e, hf⟩
      · simp only [mishap, if_true, told, if_neg h0]
        rw [hm]
        by_cases ho : id = openId h
        · rw [if_pos ho, if_pos (hid.1 ho)]
          exact ⟨_, rfl, rfl, rfl, rfl⟩
        · rw [if_neg ho, if_neg (fun x => ho (hid.2 x))]
          exact ⟨_, rfl, rfl, rfl, rfl⟩
      · have hc := core_ne (e := e) (fun x => he (by rw [hf, x]))
        simp only [hf, told, failed, if_neg h0]
        rw [if_neg hc]
        exact ⟨_, rfl, rfl, rfl, rfl⟩

/-- The events of a history, the latest first. -/
def past (h : List (Event × Out)) : List Event := (h.map Prod.fst).reverse

theorem exec_state (fc : FloatConv) (junk : WVal → BitVec 32) {h : List (Event × Out)} {c : BitVec 32}
    (hx : Exec (step fc junk) 0 h c) (hp : ∀ x ∈ h, Event.Proper x.1) : c = openId (past h) := by
  induction hx with
  | nil => rfl
  | @snoc h s e o s' hx hs ih =>
    have h1 := ih (fun x hx => hp x (by simp [hx]))
    subst h1
    obtain ⟨o', h2, -⟩ := step_spec fc junk (past h) (hp (e, o) (by simp))
    rw [hs] at h2
    cases h2
    simp [past]

end Verif.Proof.SessionWire
