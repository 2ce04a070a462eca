import Verif.Proof.Method
import Verif.Props.Wire

/-!
# Calling a method (C80)
-/

namespace Verif.Props

open Verif Verif.Message Verif.Value Verif.Wire Verif.Method

/-- A handler that answers with `out` and code 0, and the parameters it is called with. -/
private def okElements (out : Obj) : Elements := fun n =>
  if n = [65] then some (some (fun _ => ⟨0, out, none⟩)) else none

private def sample : Obj := .mk [66] false (.cons [67] (.scalar (.int32 5)) .nil) .nil

private theorem sample_travels : Travels someConv sample := by
  refine ⟨?_, by decide, ?_⟩
  · simp [sample, SendableObj, SendableProps, SendableObjs, SendableVal, SendableScalar, Name, PropList.count,
      ObjList.count]
  · intro d h
    have : appendObj someConv sample = .ok (setString [66] ++ (setInt32 0 ++ (setInt32 1 ++
      ((setString [67] ++ ((setInt32 (BitVec.ofNat 32 Ty.int32.code) ++ setInt32 5) ++ [])) ++
        (setInt32 0 ++ []))))) := rfl
    rw [this] at h
    simp only [Res.ok.injEq] at h
    subst h
    decide

/-- C80, for a handler that succeeds. The handler registered for the name is called with this name and the caller's
parameters (an object without name and content if there are none), and the caller gets success and the output
parameters the handler left. (Missing: objects of gigabyte size or with NULL texts, see C09.) -/
theorem C80_success_partial (fc : FloatConv) (els : Elements) (parent state name : Bytes) (inp : Option Obj)
    (hn : Name name) (hl : name.length < 2 ^ 20) (hi : ∀ o, inp = some o → Travels fc o)
    (h : Obj → Outcome) (he : els name = some (some h)) (hc : (h (inp.getD (.mk [] false .nil .nil))).code = 0)
    (ho : Travels fc (h (inp.getD (.mk [] false .nil .nil))).out) :
    call fc els .delivered parent state name inp =
      .ok (some (name, inp.getD (.mk [] false .nil .nil)), ⟨0, (h (inp.getD (.mk [] false .nil .nil))).out⟩) := by
  change (h (inp.getD emptyObj)).code = 0 at hc
  change Travels fc (h (inp.getD emptyObj)).out at ho
  obtain ⟨m, h1, h2⟩ := receive_respond fc 0 (h (inp.getD emptyObj)).out ho.1
    (fun d hd => by have := ho.2.2 d hd; omega)
  refine call_delivered fc els parent state name inp hn hl hi _ m _ ?_ h2
  have hx : complete 0 (h (inp.getD emptyObj)).out = (h (inp.getD emptyObj)).out := by
    cases (h (inp.getD emptyObj)).out; simp [complete]
  simp only [handle, he, hc, hx, h1, Res.ok_bind, Res.pure_eq]
  rfl

example : ∃ (els : Elements) (h : Obj → Outcome), els [65] = some (some h) ∧ (h sample).code = 0 ∧
    Travels someConv (h sample).out ∧ Name [65] ∧ ∀ o, some sample = some o → Travels someConv o :=
  ⟨okElements sample, _, rfl, rfl, sample_travels, by simp [Name], fun o ho => by cases ho; exact sample_travels⟩

/-- C80, for a handler that returns an error (of this library: at most 100, and not the code announcing a later
answer). The handler is called once with the caller's parameters, the caller gets its code, and finds it noted in
the output parameters, which are otherwise those the handler left. (Missing: legacy codes, below; gigabytes.) -/
theorem C80_error_partial (fc : FloatConv) (els : Elements) (parent state name : Bytes) (inp : Option Obj)
    (hn : Name name) (hl : name.length < 2 ^ 20) (hi : ∀ o, inp = some o → Travels fc o)
    (h : Obj → Outcome) (he : els name = some (some h)) (r : Outcome)
    (hr : h (inp.getD (.mk [] false .nil .nil)) = r) (h0 : r.code ≠ 0) (ha : r.code ≠ 21) (hc : r.code.toNat ≤ 100)
    (ho : Travels fc r.out) :
    ∃ got, call fc els .delivered parent state name inp =
        .ok (some (name, inp.getD (.mk [] false .nil .nil)), ⟨r.code, got⟩) ∧
      Noted r.code (errorText r.code) r.out got := by
  change h (inp.getD emptyObj) = r at hr
  obtain ⟨t1, t2⟩ := complete_travels fc r.code r.out ho
  obtain ⟨m, h1, h2⟩ := receive_respond fc r.code (complete r.code r.out) t1 t2
  rw [returned_small _ hc] at h2
  refine ⟨_, call_delivered fc els parent state name inp hn hl hi _ m _ ?_ h2, complete_noted r.code h0 r.out⟩
  simp only [handle, he, hr, if_neg (show ¬ r.code = eAsync from ha), h1, Res.ok_bind, Res.pure_eq]
  rfl

example : ∃ (els : Elements) (h : Obj → Outcome), els [65] = some (some h) ∧ h emptyObj = ⟨18, sample, none⟩ ∧
    Travels someConv sample ∧ (18 : BitVec 32).toNat ≤ 100 :=
  ⟨fun _ => some (some (fun _ => ⟨18, sample, none⟩)), _, rfl, rfl, sample_travels, by decide⟩

/-- The codes 0 to 21 have different texts. -/
theorem C80_error_texts (a b : BitVec 32) (ha : a.toNat ≤ 21) (hb : b.toNat ≤ 21) (h : errorText a = errorText b) :
    a = b := by
  have key : ∀ i < 22, ∀ j < 22, errorText (BitVec.ofNat 32 i) = errorText (BitVec.ofNat 32 j) → i = j := by
    decide +kernel
  have e := key a.toNat (by omega) b.toNat (by omega) (by simpa using h)
  exact BitVec.eq_of_toNat_eq e

example : errorText 20 = "timeout".toUTF8.data.toList ∧ errorText 18 = "access denied".toUTF8.data.toList := by decide

/-- C80, for an answer given later with parameters. The caller gets code and parameters as given.
(Missing: legacy codes; gigabytes; an answer without parameters, see the next two theorems.) -/
theorem C80_later_partial (fc : FloatConv) (els : Elements) (parent state name : Bytes) (inp : Option Obj)
    (hn : Name name) (hl : name.length < 2 ^ 20) (hi : ∀ o, inp = some o → Travels fc o)
    (h : Obj → Outcome) (he : els name = some (some h)) (r : Outcome)
    (hr : h (inp.getD (.mk [] false .nil .nil)) = r) (ha : r.code = 21) (code : BitVec 32) (out : Obj)
    (hL : r.later = some (code, some out)) (hc : code.toNat ≤ 100) (ho : Travels fc out) :
    call fc els .delivered parent state name inp =
      .ok (some (name, inp.getD (.mk [] false .nil .nil)), ⟨code, out⟩) := by
  change h (inp.getD emptyObj) = r at hr
  obtain ⟨m, h1, h2⟩ := receive_respond fc code out ho.1 (fun d hd => by have := ho.2.2 d hd; omega)
  rw [returned_small _ hc] at h2
  refine call_delivered fc els parent state name inp hn hl hi _ m _ ?_ h2
  simp only [handle, he, hr, if_pos (show r.code = eAsync from ha), hL, completeAsync, h1, Res.ok_bind, Res.pure_eq]
  rfl

example : ∃ (els : Elements) (h : Obj → Outcome), els [65] = some (some h) ∧
    h emptyObj = ⟨21, emptyObj, some (0, some sample)⟩ ∧ Travels someConv sample :=
  ⟨fun _ => some (some (fun _ => ⟨21, emptyObj, some (0, some sample)⟩)), _, rfl, rfl, sample_travels⟩

/-- C80, for an error answered later without parameters: the caller gets the code, noted in an otherwise empty object. -/
theorem C80_later_error_partial (fc : FloatConv) (els : Elements) (parent state name : Bytes) (inp : Option Obj)
    (hn : Name name) (hl : name.length < 2 ^ 20) (hi : ∀ o, inp = some o → Travels fc o)
    (h : Obj → Outcome) (he : els name = some (some h)) (r : Outcome)
    (hr : h (inp.getD (.mk [] false .nil .nil)) = r) (ha : r.code = 21) (code : BitVec 32)
    (hL : r.later = some (code, none)) (h0 : code ≠ 0) (hc : code.toNat ≤ 100) :
    ∃ got, call fc els .delivered parent state name inp =
        .ok (some (name, inp.getD (.mk [] false .nil .nil)), ⟨code, got⟩) ∧
      Noted code (errorText code) (.mk [] false .nil .nil) got := by
  change h (inp.getD emptyObj) = r at hr
  obtain ⟨t1, t2⟩ := setError_travels fc code (errorText code) emptyObj (empty_travels fc) (errorText_props code).1
    (errorText_props code).2
  obtain ⟨m, h1, h2⟩ := receive_respond fc code _ t1 t2
  rw [returned_small _ hc] at h2
  refine ⟨_, call_delivered fc els parent state name inp hn hl hi _ m _ ?_ h2, setError_noted _ _ emptyObj rfl⟩
  simp only [handle, he, hr, if_pos (show r.code = eAsync from ha), hL, completeAsync, if_neg h0, h1, Res.ok_bind,
    Res.pure_eq]
  rfl

example : ∃ (els : Elements) (h : Obj → Outcome), els [65] = some (some h) ∧
    h emptyObj = ⟨21, emptyObj, some (1, none)⟩ :=
  ⟨fun _ => some (some (fun _ => ⟨21, emptyObj, some (1, none)⟩)), _, rfl, rfl⟩

/-- C80, for a name the provider does not have and for an element that is no method: no handler is called, and the
caller gets "element does not exist" (17) or "invalid operation" (9), noted in an otherwise empty object. -/
theorem C80_no_method (fc : FloatConv) (els : Elements) (parent state name : Bytes) (inp : Option Obj)
    (hn : Name name) (hl : name.length < 2 ^ 20) (hi : ∀ o, inp = some o → Travels fc o) :
    (els name = none → ∃ got, call fc els .delivered parent state name inp = .ok (none, ⟨17, got⟩) ∧
      Noted 17 "RBUS_ERROR_ELEMENT_DOES_NOT_EXIST".toUTF8.data.toList (.mk [] false .nil .nil) got) ∧
    (els name = some none → ∃ got, call fc els .delivered parent state name inp = .ok (none, ⟨9, got⟩) ∧
      Noted 9 "RBUS_ERROR_INVALID_OPERATION".toUTF8.data.toList (.mk [] false .nil .nil) got) := by
  constructor
  · intro he
    obtain ⟨t1, t2⟩ := setError_travels fc 17 (str "RBUS_ERROR_ELEMENT_DOES_NOT_EXIST") emptyObj (empty_travels fc)
      (by decide) (by decide)
    obtain ⟨m, h1, h2⟩ := receive_respond fc 17 _ t1 t2
    refine ⟨_, call_delivered fc els parent state name inp hn hl hi _ m _ ?_ h2, setError_noted _ _ emptyObj rfl⟩
    simp only [handle, he, h1, Res.ok_bind, Res.pure_eq]
  · intro he
    obtain ⟨t1, t2⟩ := setError_travels fc 9 (str "RBUS_ERROR_INVALID_OPERATION") emptyObj (empty_travels fc)
      (by decide) (by decide)
    obtain ⟨m, h1, h2⟩ := receive_respond fc 9 _ t1 t2
    refine ⟨_, call_delivered fc els parent state name inp hn hl hi _ m _ ?_ h2, setError_noted _ _ emptyObj rfl⟩
    simp only [handle, he, h1, Res.ok_bind, Res.pure_eq]

example : okElements sample [70] = none ∧ Name [70] := ⟨rfl, by simp [Name]⟩

/-- C80, for a call without answer. If the handler announced a later answer and none comes, the caller gets "timeout" (20);
if the request or the response is lost, the caller gets an error all the same, never success. In each case
the error is noted in an otherwise empty object. -/
theorem C80_no_answer (fc : FloatConv) (els : Elements) (parent state name : Bytes) (inp : Option Obj)
    (hn : Name name) (hl : name.length < 2 ^ 20) (hi : ∀ o, inp = some o → Travels fc o) :
    (∀ h, els name = some (some h) → (h (inp.getD (.mk [] false .nil .nil))).code = 21 →
      (h (inp.getD (.mk [] false .nil .nil))).later = none →
      ∃ got, call fc els .delivered parent state name inp =
          .ok (some (name, inp.getD (.mk [] false .nil .nil)), ⟨20, got⟩) ∧
        Noted 20 "timeout".toUTF8.data.toList (.mk [] false .nil .nil) got) ∧
    (∀ e, e ≠ 0 → ∃ code got, call fc els (.lost e) parent state name inp = .ok (none, ⟨code, got⟩) ∧ code ≠ 0 ∧
      Noted code (errorText code) (.mk [] false .nil .nil) got) ∧
    (∀ e called r, e ≠ 0 → call fc els (.unanswered e) parent state name inp = .ok (called, r) → r.code ≠ 0 ∧
      Noted r.code (errorText r.code) (.mk [] false .nil .nil) r.out) := by
  have key : ∀ e, e ≠ 0 → Method.coreToRbus e ≠ 0 := by
    intro e he
    unfold Method.coreToRbus
    split <;> first | contradiction | decide
  obtain ⟨req, h1, h2⟩ := serve_request fc els parent state name inp hn hl hi
  refine ⟨?_, ?_, ?_⟩
  · intro h he ha hL
    change (h (inp.getD emptyObj)).code = 21 at ha
    change (h (inp.getD emptyObj)).later = none at hL
    refine ⟨setError 20 (errorText 20) emptyObj, ?_, setError_noted _ _ emptyObj rfl⟩
    simp only [call, h1, h2, handle, he, if_pos (show (h (inp.getD emptyObj)).code = eAsync from ha), hL, receive,
      Res.ok_bind, Res.pure_eq]
    rfl
  · intro e he
    refine ⟨Method.coreToRbus e, setError _ _ emptyObj, ?_, key e he, setError_noted _ _ emptyObj rfl⟩
    simp only [call, h1, receive, Res.ok_bind, Res.pure_eq]
  · intro e called r he hc
    simp only [call, h1, Res.ok_bind] at hc
    obtain ⟨s, _, hc⟩ := res_bind_ok hc
    simp only [receive, Res.ok_bind, Res.pure_eq, Res.ok.injEq, Prod.mk.injEq] at hc
    rw [← hc.2]
    exact ⟨key e he, setError_noted _ _ emptyObj rfl⟩

example : ∃ (els : Elements) (h : Obj → Outcome), els [65] = some (some h) ∧
    (h emptyObj).code = 21 ∧ (h emptyObj).later = none :=
  ⟨fun _ => some (some (fun _ => ⟨21, emptyObj, none⟩)), _, rfl, rfl, rfl⟩

/-- C80 fails for a success answered later without parameters: the caller is given an object the provider never made. It is
the metadata of the message read as an object, here named "METHOD_RESPONSE" and with a child. -/
theorem C80_empty_answer_fails :
    ∃ (els : Elements) (h : Obj → Outcome) (got : Obj), els [65] = some (some h) ∧
      (∀ o, h o = ⟨21, .mk [] false .nil .nil, some (0, none)⟩) ∧
      call someConv els .delivered [] [] [65] none = .ok (some ([65], .mk [] false .nil .nil), ⟨0, got⟩) ∧
      nameOf got = "METHOD_RESPONSE".toUTF8.data.toList ∧ (childrenOf got).count = 1 := by
  refine ⟨fun _ => some (some (fun _ => ⟨21, emptyObj, some (0, none)⟩)), _,
    .mk methodResponse false .nil (.cons (.mk [] false .nil .nil) .nil), rfl, fun _ => rfl, ?_, rfl, rfl⟩
  rfl

/-- C80 fails for an error answered later with parameters: it is not noted in them, whereas the same error returned at
once is. -/
theorem C80_later_error_code_fails :
    ∃ (els later : Elements) (at_once delayed : Obj),
      (∀ n, els n = some (some fun _ => ⟨1, sample, none⟩)) ∧
      (∀ n, later n = some (some fun _ => ⟨21, .mk [] false .nil .nil, some (1, some sample)⟩)) ∧
      call someConv els .delivered [] [] [65] none = .ok (some ([65], .mk [] false .nil .nil), ⟨1, at_once⟩) ∧
      call someConv later .delivered [] [] [65] none = .ok (some ([65], .mk [] false .nil .nil), ⟨1, delayed⟩) ∧
      valueOf at_once "error_code" = some (.scalar (.int32 1)) ∧ valueOf delayed "error_code" = none := by
  have hn : Name [65] := by simp [Name]
  obtain ⟨got, h1, h2⟩ := C80_error_partial someConv (fun _ => some (some fun _ => ⟨1, sample, none⟩)) [] [] [65] none hn
    (by decide) (fun o ho => by cases ho) _ rfl _ rfl (show (1 : BitVec 32) ≠ 0 by decide)
    (show (1 : BitVec 32) ≠ 21 by decide) (show (1 : BitVec 32).toNat ≤ 100 by decide) sample_travels
  have h3 := C80_later_partial someConv (fun _ => some (some fun _ => ⟨21, emptyObj, some (1, some sample)⟩)) [] [] [65]
    none hn (by decide) (fun o ho => by cases ho) _ rfl _ rfl rfl 1 sample rfl (by decide) sample_travels
  exact ⟨_, _, got, sample, fun _ => rfl, fun _ => rfl, h1, h3, h2.code rfl, rfl⟩

/-- C80 fails for a handler that explains its error in `error_string` without setting `error_code`: the caller does not get
the explanation. -/
theorem C80_error_string_fails :
    ∃ (els : Elements) (out got : Obj), (∀ n, els n = some (some fun _ => ⟨1, out, none⟩)) ∧
      valueOf out "error_string" = some (.scalar (.string (some "disk full".toUTF8.data.toList))) ∧
      call someConv els .delivered [] [] [65] none = .ok (some ([65], .mk [] false .nil .nil), ⟨1, got⟩) ∧
      valueOf got "error_string" = some (.scalar (.string (some "generic error".toUTF8.data.toList))) := by
  have ht : Travels someConv (.mk [] false (.cons errorString (.scalar (.string (some (str "disk full")))) .nil) .nil) := by
    refine ⟨?_, by decide, ?_⟩
    · refine ⟨⟨by decide, by decide⟩, by decide, ⟨⟨by decide, by decide⟩, ?_, trivial⟩, by decide, trivial⟩
      have : Name (str "disk full") := ⟨by decide, by decide⟩
      simpa [SendableVal, SendableScalar] using this
    · intro d h
      have : appendObj someConv (.mk [] false (.cons errorString (.scalar (.string (some (str "disk full")))) .nil) .nil) =
        .ok (setString [] ++ (setInt32 0 ++ (setInt32 1 ++
          ((setString errorString ++ ((setInt32 (BitVec.ofNat 32 Ty.string.code) ++
            setBytes (str "disk full" ++ [0])) ++ [])) ++ (setInt32 0 ++ []))))) := rfl
      rw [this] at h
      simp only [Res.ok.injEq] at h
      subst h
      decide
  obtain ⟨got, h1, h2⟩ := C80_error_partial someConv (fun _ => some (some fun _ => ⟨1, _, none⟩)) [] [] [65] none
    (by simp [Name]) (by decide) (fun o ho => by cases ho) _ rfl _ rfl (show (1 : BitVec 32) ≠ 0 by decide)
    (show (1 : BitVec 32) ≠ 21 by decide) (show (1 : BitVec 32).toNat ≤ 100 by decide) ht
  exact ⟨_, _, got, fun _ => rfl, rfl, h1, h2.text rfl⟩

/-- The texts fail for the codes from 22 on ("invalid method", "not writable", ...): all are an "unknown error". -/
theorem C80_error_texts_fails (a : BitVec 32) (h : 22 ≤ a.toNat) :
    errorText a = "unknown error".toUTF8.data.toList := by
  unfold errorText
  split <;> first | omega | rfl

/-- C80, legacy codes: a handler's code above 100 reaches the caller as the error it is translated to, success never. -/
theorem C80_legacy_partial (fc : FloatConv) (els : Elements) (parent state name : Bytes) (inp : Option Obj)
    (hn : Name name) (hl : name.length < 2 ^ 20) (hi : ∀ o, inp = some o → Travels fc o)
    (h : Obj → Outcome) (he : els name = some (some h)) (r : Outcome)
    (hr : h (inp.getD (.mk [] false .nil .nil)) = r) (hc : 100 < r.code.toNat) (ho : Travels fc r.out) :
    ∃ got, call fc els .delivered parent state name inp =
        .ok (some (name, inp.getD (.mk [] false .nil .nil)), ⟨BitVec.ofNat 32 (Params.ccspToRbus r.code.toNat), got⟩) ∧
      BitVec.ofNat 32 (Params.ccspToRbus r.code.toNat) ≠ 0 ∧ Noted r.code (errorText r.code) r.out got := by
  change h (inp.getD emptyObj) = r at hr
  obtain ⟨t1, t2⟩ := complete_travels fc r.code r.out ho
  obtain ⟨m, h1, h2⟩ := receive_respond fc r.code (complete r.code r.out) t1 t2
  have hret : returned r.code = BitVec.ofNat 32 (Params.ccspToRbus r.code.toNat) := by
    unfold returned; rw [if_pos hc]
  rw [hret] at h2
  have h0 : r.code ≠ 0 := by intro e; rw [e] at hc; simp at hc
  have ha : r.code ≠ 21 := by intro e; rw [e] at hc; simp at hc
  refine ⟨_, call_delivered fc els parent state name inp hn hl hi _ m _ ?_ h2, ?_, complete_noted r.code h0 r.out⟩
  · simp only [handle, he, hr, if_neg (show ¬ r.code = eAsync from ha), h1, Res.ok_bind, Res.pure_eq]
    rfl
  · unfold Params.ccspToRbus
    rw [if_neg (by omega)]
    repeat' split
    all_goals decide

example : ∃ (els : Elements) (h : Obj → Outcome), els [65] = some (some h) ∧ h emptyObj = ⟨9008, sample, none⟩ ∧
    100 < (9008 : BitVec 32).toNat ∧ Params.ccspToRbus 9008 = 27 ∧ Travels someConv sample :=
  ⟨fun _ => some (some (fun _ => ⟨9008, sample, none⟩)), _, rfl, rfl, by decide, by decide, sample_travels⟩

/-- C80, timeouts of asynchronous calls. A positive number of seconds that has less than 2^31 milliseconds is
the time waited. (Missing: more seconds, below.) -/
theorem C80_timeout_partial (dflt s : Int) (h0 : 0 < s) (h : s ≤ 2147483) : asyncTimeout dflt s = .ok (1000 * s) := by
  unfold asyncTimeout
  rw [if_pos h0, if_pos (by omega), Int.mul_comm]

example : asyncTimeout 15000 30 = .ok 30000 := by decide

/-- C80 fails for an asynchronous call with a timeout of 2147484 seconds (25 days) or more: the computation of the
milliseconds overflows. -/
theorem C80_timeout_fails (dflt s : Int) (h : 2147484 ≤ s) : asyncTimeout dflt s = .ub := by
  unfold asyncTimeout
  rw [if_pos (by omega), if_neg (by omega)]

end Verif.Props
