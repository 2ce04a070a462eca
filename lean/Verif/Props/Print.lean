import Verif.Proof.Print
import Verif.Props.Text

/-!
# C102: what is printed tells everything there is to tell
-/

namespace Verif.Props

open Verif Verif.Value Verif.ObjCmp Verif.Spec.Print
open Verif.Print (printVal printProps printObj printFilter debugText toStr lit)

/-- **C102**, as far as it holds: two objects printed alike, however many properties, nested objects and children they
have and at whatever depth, hold the same: the same names, the same types and texts of values, the same belonging
together. For objects where whatever has children has a property too, and names and texts without line feed.
Missing: objects that have children and no property (`C102_children_fails`), and texts with line feeds
(`C102_line_feed_fails`). -/
theorem C102_object_partial (d : Nat) (o p : Obj) (t : Bytes) (ho : fullObj o) (hp : fullObj p) (co : cleanObj o)
    (cp : cleanObj p) (h1 : printObj d o = .ok t) (h2 : printObj d p = .ok t) : seenObj o = seenObj p := by
  have e1 := Print.printObj_lines d o t ho h1
  have e2 := Print.printObj_lines d p t hp h2
  have e3 := Print.render_inj _ _ (Print.objLines_good d o co) (Print.objLines_good d p cp) (e1.symm.trans e2)
  have below : Print.Below (d + 1) [] := fun e n s _ => ⟨(by simp), by simp⟩
  exact (Print.obj_unique d o p [] [] below below (by rw [e3])).1

/-- **C102**, as far as it holds, for properties printed on their own, with all that are linked to them. -/
theorem C102_properties_partial (d : Nat) (ps qs : Chain) (t : Bytes) (ho : fullProps ps) (hp : fullProps qs)
    (co : cleanProps ps) (cp : cleanProps qs) (h1 : printProps d ps = .ok t) (h2 : printProps d qs = .ok t) :
    seenProps ps = seenProps qs := by
  have e1 := Print.printProps_lines d ps t ho h1
  have e2 := Print.printProps_lines d qs t hp h2
  have e3 := Print.render_inj _ _ (Print.propsLines_good d ps co) (Print.propsLines_good d qs cp) (e1.symm.trans e2)
  have none : Print.NoProp d [] := fun n s => by simp
  exact (Print.props_unique d ps qs [] [] none none (by rw [e3])).1

/-- An object with two properties, one of them holding an object, and a child. -/
private def demoPrinted (inner : Bytes) : Obj :=
  .mk (some (lit "O")) false
    (.cons (some (lit "a")) (.scalar (.int32 (-5)))
      (.cons (some (lit "b")) (.obj (.mk (some inner) false (.cons (some (lit "c")) (.scalar (.boolean true)) .nil) .nil)) .nil))
    (.cons (.mk (some (lit "K")) false (.cons (some (lit "d")) (.scalar (.string (some (lit "x")))) .nil) .nil) .nil)

example : fullObj (demoPrinted (lit "P")) ∧ cleanObj (demoPrinted (lit "P")) := by
  simp only [demoPrinted, fullObj, fullProps, fullVal, fullObjs, cleanObj, cleanProps, cleanVal, cleanObjs, Option.getD_some]
  refine ⟨by simp, by decide +kernel, ⟨by decide +kernel, ?_, by decide +kernel, ⟨by decide +kernel, ⟨by decide +kernel, ?_, trivial⟩, trivial⟩, trivial⟩,
    ⟨by decide +kernel, ⟨by decide +kernel, ?_, trivial⟩, trivial⟩, trivial⟩ <;>
  · intro t h; cases h; decide +kernel

example : printObj 0 (demoPrinted (lit "P")) = .ok (lit (
    "rbusObject name=O\r\n rbusProperty name=a\r\n  rbusValue type:RBUS_INT32 value:-5\r\n rbusProperty name=b\r\n" ++
    "  rbusObject name=P\r\n   rbusProperty name=c\r\n    rbusValue type:RBUS_BOOLEAN value:true\r\n\r\n" ++
    " rbusObject name=K\r\n  rbusProperty name=d\r\n   rbusValue type:RBUS_STRING value:x\r\n")) := by
  decide +kernel

/-- **C102**: types and texts tell the value. Two values printed alike, of any type but the floating-point ones and
times, are the same, unless they are of the types of eight bits with sign or without (`C102_small_integers_fails`). -/
theorem C102_value (v w : Scalar) (t : Bytes)
    (hv : v.ty ∉ [Ty.int8, .uint8, .single, .double, .datetime]) (h1 : debugText v = .ok t) (h2 : debugText w = .ok t) :
    v = w := by
  obtain ⟨s, k1, e1⟩ := Print.debugText_ok h1
  obtain ⟨s', k2, e2⟩ := Print.debugText_ok h2
  rw [e1] at e2
  simp only [List.cons.injEq, true_and, List.append_cancel_left_eq] at e2
  obtain ⟨e3, rfl⟩ := Print.value_inj e2
  simp only [List.mem_cons, List.not_mem_nil, or_false, not_or] at hv
  have e4 := Print.label_inj ⟨hv.1, hv.2.1⟩ e3
  have text : ∀ (x : Scalar) (s : Bytes), toStr x = .ok s → x.ty ≠ .single → x.ty ≠ .double → x.ty ≠ .datetime →
      Text.text x = some s := by
    intro x s h h1 h2 h3
    cases x <;> simp only [Scalar.ty, ne_eq, not_true_eq_false] at h1 h2 h3 <;> simp only [toStr] at h <;>
      (split at h <;> simp_all)
  have t1 := text v s k1 hv.2.2.1 hv.2.2.2.1 hv.2.2.2.2
  have t2 := text w s k2 (by rw [← e4]; exact hv.2.2.1) (by rw [← e4]; exact hv.2.2.2.1) (by rw [← e4]; exact hv.2.2.2.2)
  by_cases hb : v.ty = .byte
  · cases v <;> simp only [Scalar.ty, reduceCtorEq] at hb
    cases w <;> simp only [Scalar.ty, reduceCtorEq] at e4
    simp only [Text.text, Option.some.injEq] at t1 t2
    rw [BitVec.eq_of_toNat_eq (Print.hexText_inj (t1.trans t2.symm))]
  · by_cases hs : v.ty = .bytes
    · cases v <;> simp only [Scalar.ty, reduceCtorEq] at hs
      cases w <;> simp only [Scalar.ty, reduceCtorEq] at e4
      rename_i a b
      simp only [Text.text, Option.map_eq_some_iff] at t1 t2
      obtain ⟨x, rfl, hx⟩ := t1
      obtain ⟨y, rfl, hy⟩ := t2
      rw [Print.hex_inj (hx.trans hy.symm)]
    · have r1 := C66_round_trip_partial (w := 64) (.inr rfl) v s t1 ⟨hb, hs⟩
      have r2 := C66_round_trip_partial (w := 64) (.inr rfl) w s t2 ⟨by rw [← e4]; exact hb, by rw [← e4]; exact hs⟩
      rw [← e4, r1] at r2
      exact Option.some.inj r2

example : debugText (.uint16 7) = .ok (lit "rbusValue type:RBUS_UINT16 value:7") ∧
    debugText (.bytes (some [1, 0xab])) = .ok (lit "rbusValue type:RBUS_BYTES value:01AB") := by decide +kernel

/-- **C102**, as far as it holds, for filters: two filters printed alike, whatever they are applied to, say the same:
the same relations with the same values, joined in the same way. For operators of the API and values whose text has
neither space nor closing parenthesis, as it is with integers, booleans and times.
Missing: other texts (`C102_filter_text_fails`). -/
theorem C102_filter_partial (x : Option Scalar) (f g : Filter.Filter) (t : Bytes) (hf : Readable f) (hg : Readable g)
    (h1 : printFilter x f = .ok t) (h2 : printFilter x g = .ok t) : seenFilter f = seenFilter g :=
  (Print.filter_unique x f g t t [] [] hf hg h1 h2 (.inl rfl) (.inl rfl) rfl).1

/-- Relations with integers are readable. -/
theorem C102_integers (op : Nat) (hop : op ≤ 5) (ty : Text.IntTy) (v : Scalar) (z : Int)
    (h : Spec.Text.held ty v = some z) : Readable (.relation op v) := by
  refine ⟨hop, fun t ht => ?_⟩
  have dec : ∀ n, ∀ c ∈ Element.decimal n, c ≠ 32 ∧ c ≠ 41 := by
    intro n c hc
    obtain ⟨_, vs, h1, _, _⟩ := Text.decimal_numeral n
    have h2 : Spec.Text.digitOf c ∈ vs.map some := by rw [← h1]; exact List.mem_map_of_mem hc
    obtain ⟨k, _, hk⟩ := List.mem_map.1 h2
    constructor <;> (intro e; subst e; revert hk; simp [Spec.Text.digitOf])
  have sig : ∀ z, ∀ c ∈ Text.signedText z, c ≠ 32 ∧ c ≠ 41 := by
    intro z c hc
    unfold Text.signedText at hc
    split at hc
    · rcases List.mem_cons.1 hc with rfl | hc
      · decide
      · exact dec _ c hc
    · exact dec _ c hc
  cases ty <;> cases v <;> simp only [Spec.Text.held, reduceCtorEq] at h <;>
    (simp only [toStr, Text.text, Res.ok.injEq] at ht; subst ht; first | exact dec _ | exact sig _)

/-- X > 3 and not X = 7. -/
private def demoFilter : Filter.Filter :=
  .logic Filter.opAND (.relation Filter.opGT (.int32 3)) (.logic Filter.opNOT (.relation Filter.opEQ (.int32 7)) .null)

example : Readable demoFilter ∧ printFilter none demoFilter =
    .ok (lit "(X>rbusValue type:RBUS_INT32 value:3 && !(X==rbusValue type:RBUS_INT32 value:7))") := by
  refine ⟨⟨by decide, ⟨by decide, ?_⟩, fun _ => ⟨by decide, ⟨by decide, ?_⟩, fun _ => trivial⟩⟩, by decide +kernel⟩ <;>
  · intro t h; cases h; decide +kernel

/-- **C102**: whatever has names and values that were given can be printed, at every depth; so can filters with given
values. -/
theorem C102_defined (d : Nat) :
    (∀ o, givenObj o → ∃ t, printObj d o = .ok t) ∧ (∀ ps, givenProps ps → ∃ t, printProps d ps = .ok t) ∧
    (∀ v, givenVal v → ∃ t, printVal d v = .ok t) ∧
    (∀ x f, (∀ v, x = some v → Given v) → givenFilter f → ∃ t, printFilter x f = .ok t) :=
  ⟨Print.obj_defined d, Print.props_defined d, Print.val_defined d, fun x f hx => Print.filter_defined x hx f⟩

example : givenObj (demoPrinted (lit "P")) ∧ givenFilter demoFilter := by
  simp [demoPrinted, demoFilter, givenObj, givenProps, givenVal, givenObjs, givenFilter, Given]

/-- **C102** fails for children: an object without properties prints its name and nothing else, whatever its children
and theirs are. -/
theorem C102_children_fails (d : Nat) (n : Bytes) (m : Bool) (children : Objs) :
    printObj d (.mk (some n) m .nil children) = printObj d (.mk (some n) m .nil .nil) := by
  simp only [printObj]

/-- **C102** fails for texts with line feeds: one property whose text goes on in further lines prints as two
properties do. -/
theorem C102_line_feed_fails :
    printProps 0 (.cons (some (lit "a")) (.scalar (.string (some (lit
        "x\r\nrbusProperty name=b\r\n rbusValue type:RBUS_STRING value:y")))) .nil) =
      printProps 0 (.cons (some (lit "a")) (.scalar (.string (some (lit "x"))))
        (.cons (some (lit "b")) (.scalar (.string (some (lit "y")))) .nil)) := by decide +kernel

/-- **C102** fails for the integers of eight bits: with sign and without, they are of "unknown type", so that a value
and its counterpart print alike. -/
theorem C102_small_integers_fails (v : BitVec 8) (h : v.toNat < 128) :
    debugText (.int8 v) = debugText (.uint8 v) ∧ Scalar.int8 v ≠ .uint8 v := by
  refine ⟨?_, by simp⟩
  have e : v.toInt = v.toNat := BitVec.toInt_eq_toNat_of_lt (by omega)
  simp only [debugText, toStr, Text.text, Text.signedText, e, Scalar.ty, Print.label]
  rw [if_neg (by omega)]
  rfl

example : (5 : BitVec 8).toNat < 128 := by decide

/-- **C102** fails for a value that was never set, wherever it is: it has no text, and printing it reads through NULL. -/
theorem C102_unset_fails (d : Nat) (n : Bytes) (rest : Chain) : printProps d (.cons (some n) (.scalar .none) rest) = .ub := by
  simp only [printProps, Print.named, printVal, debugText, toStr, Text.text, Res.ok_bind, Res.ub_bind]

/-- **C102** fails for filters with texts: a text can look like the rest of the filter. -/
theorem C102_filter_text_fails :
    printFilter none (.logic Filter.opAND (.relation Filter.opEQ (.string (some (lit "a"))))
        (.relation Filter.opEQ (.string (some (lit "b && X==rbusValue type:RBUS_STRING value:c"))))) =
      printFilter none (.logic Filter.opAND (.relation Filter.opEQ (.string (some (lit
        "a && X==rbusValue type:RBUS_STRING value:b")))) (.relation Filter.opEQ (.string (some (lit "c"))))) := by
  decide +kernel

end Verif.Props
