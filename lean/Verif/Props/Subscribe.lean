import Verif.Spec.Subscribe
import Verif.Proof.Wire
import Verif.Proof.Meta
import Verif.Props.Wire

/-!
# C50: subscriber and provider agree about a subscription
-/

namespace Verif.Props

open Verif Verif.Message Verif.Wire
open Verif.Subscribe hiding Request

/-! ## The request -/

/-- C50, for the request: what the provider reads of a subscription is what the consumer asked for: the event, the
filter, the interval, the duration, whether the initial value is wanted and whether data is sent as is, and who
asks. (Missing: payloads and strings of 4 GiB and more; filters with NULL text.) -/
theorem C50_request_partial (fc : FloatConv) (q : Subscribe.Request) (sender : Bytes) (hq : q.Sendable fc)
    (hs : Name sender) :
    ∃ p d, payload fc q = .ok p ∧ request fc q sender = .ok d ∧
      (p.length < 2 ^ 32 → ∀ rest, readRequest fc (d ++ rest) = .ok (sender, q)) := by
  obtain ⟨event, filter, interval, duration, componentId, publish, raw⟩ := q
  obtain ⟨hn, hf⟩ := hq
  simp only at hn hf
  obtain ⟨f, f1, f2⟩ := readFilterOpt_append fc filter hf
  have hp : payload fc ⟨event, filter, interval, duration, componentId, publish, raw⟩ =
      .ok (setInt32 componentId ++ (setInt32 interval ++ (setInt32 duration ++ f))) := by
    simp only [payload, f1, Res.ok_bind, Res.pure_eq]
  refine ⟨_, _, hp, by simp only [request, hp, Res.ok_bind, Res.pure_eq]; rfl, fun hl rest => ?_⟩
  have hrp : readPayload fc (setInt32 componentId ++ (setInt32 interval ++ (setInt32 duration ++ f))) =
      .ok (componentId, interval, duration, filter) := by
    have := f2 []
    rw [List.append_nil] at this
    simp only [readPayload, getInt32Z_set, this, Res.ok_bind, Res.pure_eq]
  simp only [readRequest, List.append_assoc, get_setString _ hn.1 hn.2, get_setString _ hs.1 hs.2, Res.ok_bind,
    getInt32Z_set]
  rw [if_pos (by decide)]
  have hb := get_setBytes _ hl (setInt32 (if publish = true then 1 else 0) ++
    (setInt32 (if raw = true then 1 else 0) ++ rest))
  simp only [hb, hrp, Res.ok_bind, Res.pure_eq, getInt32Z_set]
  cases publish <;> cases raw <;> rfl

/-- A request with a filter (smaller than five), every two seconds, at most an hour, with the initial value. -/
private def demoRequest : Subscribe.Request :=
  { event := [68, 46, 65], filter := .relation 0 (.int32 5), interval := 2, duration := 3600, componentId := 7,
    publish := true, raw := false }

example : demoRequest.Sendable someConv ∧ Name [99, 49] ∧
    ∃ p, payload someConv demoRequest = .ok p ∧ p.length < 2 ^ 32 :=
  ⟨by simp [Subscribe.Request.Sendable, demoRequest, Name, SendableFilter, SendableScalar], by simp [Name], _, rfl,
    by decide⟩

/-! ## The response -/

/-- C50, for the response: the consumer gets the error of the provider, or else the number the provider gave to the
subscription, and an initial value exactly if it asked for one and the provider sent one; then it is the one the
provider sent, with the name, filter, interval, duration and component of the subscription. This holds whatever
follows in the message. (Missing: the handler for getting fails, and the subscription existed, see below.) -/
theorem C50_reply_partial (fc : FloatConv) (q : Subscribe.Request) (ret : BitVec 32) (i : Initial) (id : BitVec 32)
    (hq : q.Sendable fc) (hi : i.Sendable fc) (h1 : q.publish = true → ret = 0 → i ≠ .error)
    (h2 : ret ≠ alreadyExist) :
    ∃ d, reply fc q ret i id = .ok d ∧ ∀ rest, receive fc q.publish (d ++ rest) = .ok (meant q ret i id) := by
  obtain ⟨event, filter, interval, duration, componentId, publish, raw⟩ := q
  obtain ⟨hn, hf⟩ := hq
  simp only at hn hf h1
  by_cases hr : ret = 0
  · subst hr
    cases publish with
    | false =>
      refine ⟨_, by simp only [reply, Bool.false_eq_true, false_and, if_false, Res.ok_bind, Res.pure_eq,
        List.nil_append]; rfl, fun rest => ?_⟩
      simp only [receive, List.append_assoc, get_setInt32, getInt32Z_set, Bool.false_eq_true, if_false, Res.ok_bind,
        Res.pure_eq, meant, ne_eq, not_true_eq_false]
    | true =>
      cases i with
      | error => exact absurd rfl (h1 rfl rfl)
      | noHandler =>
        refine ⟨_, by simp only [reply, and_self, if_true, initialPart, Res.ok_bind, Res.pure_eq]; rfl,
          fun rest => ?_⟩
        simp only [receive, List.append_assoc, get_setInt32, getInt32Z_set, if_true, Res.ok_bind,
          Res.pure_eq, meant, ne_eq, not_true_eq_false, if_false, firstEvent]
      | data o =>
        obtain ⟨d, d1, d2⟩ := readEvent_append fc
          ⟨event, initialValue, some o, filter, interval, duration, componentId⟩ hn
          (by intro o' e; cases e; exact hi) hf
        refine ⟨_, by simp only [reply, and_self, if_true, initialPart, d1, Res.ok_bind, Res.pure_eq]; rfl,
          fun rest => ?_⟩
        simp only [receive, List.append_assoc, get_setInt32, getInt32Z_set, if_true, ne_eq, not_true_eq_false,
          if_false, show ¬ (1 : BitVec 32) = 0 by decide, not_false_eq_true, d2, Res.ok_bind, Res.pure_eq, meant,
          firstEvent]
  · have e : ∀ p : Bool, reply fc ⟨event, filter, interval, duration, componentId, p, raw⟩ ret i id =
        .ok (setInt32 ret ++ ([] ++ setInt32 id)) := by
      intro p
      simp only [reply, hr, and_false, if_false, Res.ok_bind, Res.pure_eq]
    refine ⟨_, e _, fun rest => ?_⟩
    simp only [receive, List.append_assoc, get_setInt32, ne_eq, hr, not_false_eq_true, if_true, h2, if_false, meant]

example : demoRequest.Sendable someConv ∧ (Initial.data (.mk [65] false .nil .nil)).Sendable someConv ∧
    (demoRequest.publish = true → (0 : BitVec 32) = 0 → Initial.data (.mk [65] false .nil .nil) ≠ .error) ∧
    (0 : BitVec 32) ≠ alreadyExist ∧
    meant demoRequest 0 (.data (.mk [65] false .nil .nil)) 12 =
      .subscribed (some { name := [68, 46, 65], type := initialValue, data := some (.mk [65] false .nil .nil),
                          filter := .relation 0 (.int32 5), interval := 2, duration := 3600, componentId := 7 }) 12 :=
  ⟨by simp [Subscribe.Request.Sendable, demoRequest, Name, SendableFilter, SendableScalar],
    by simp [Initial.Sendable, SendableObj, SendableProps, SendableObjs, Name, PropList.count, ObjList.count],
    fun _ _ => by simp, by decide, rfl⟩

/-- C50 fails if the handler for getting fails when an initial value is asked for: the provider made the subscription and
says so, but writes nothing about the initial value, and so the consumer takes the number of the subscription for
the mark that an initial value follows, and reads it where there is none: it uses variables it never set. -/
theorem C50_get_handler_fails (fc : FloatConv) (q : Subscribe.Request) (id : BitVec 32) (hp : q.publish = true)
    (hid : id ≠ 0) :
    ∃ d, reply fc q 0 .error id = .ok d ∧ receive fc q.publish (sent d) = .ub := by
  refine ⟨setInt32 0 ++ ([] ++ setInt32 id), by simp only [reply, hp, and_self, if_true, initialPart, Res.ok_bind,
    Res.pure_eq], ?_⟩
  have hl : (setInt32 (0 : BitVec 32) ++ ([] ++ setInt32 id)).length < 2 ^ 31 - 32768 := by
    have : ∀ v : BitVec 32, (setInt32 v).length ≤ 9 := by
      intro v
      simp only [setInt32, packInt]
      repeat' split
      all_goals simp [beBytes_length]
    have h1 := this 0
    have h2 := this id
    simp only [List.length_append, List.length_nil]
    omega
  have hn : Name methodResponse := by
    refine ⟨?_, ?_⟩ <;> decide +kernel
  rw [sent, setMeta_bytes _ _ _ _ hl]
  simp only [hp, receive, List.append_assoc, List.nil_append, get_setInt32, ne_eq,
    not_true_eq_false, if_false, if_true, getInt32Z_set, hid, not_false_eq_true, readEvent,
    getStringU_set _ hn, Res.ok_bind]
  have : ∀ r, getInt32 (setString [] ++ r) = none := by
    intro r
    have := unpack_packStr [0] (by decide) r
    simp only [getInt32, setString, List.nil_append, this]
  rw [this]
  rfl

example : demoRequest.publish = true ∧ (12 : BitVec 32) ≠ 0 := by decide

/-- C50 fails if the provider answers that the subscription exists: the consumer reports success, but takes over neither
the number nor whether data is sent as is. -/
theorem C50_existing_fails (fc : FloatConv) (q : Subscribe.Request) (i : Initial) (id : BitVec 32) :
    ∃ d, reply fc q alreadyExist i id = .ok d ∧ ∀ rest, receive fc q.publish (d ++ rest) = .ok .existing := by
  refine ⟨setInt32 alreadyExist ++ ([] ++ setInt32 id), ?_, fun rest => ?_⟩
  · simp only [reply, show ¬ alreadyExist = 0 by decide, and_false, if_false, Res.ok_bind, Res.pure_eq]
  · simp only [receive, List.append_assoc, get_setInt32, ne_eq, show ¬ alreadyExist = 0 by decide,
      not_false_eq_true, if_true]

end Verif.Props
