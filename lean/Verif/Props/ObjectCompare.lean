import Verif.Proof.ObjectCompare
import Verif.Props.Wire

/-!
# C77: comparing objects
-/

namespace Verif.Props

open Verif Verif.Value Verif.ObjCmp

/-- C77 (equality). `rbusObject_Compare(a, b, true)` is 0 exactly when nothing that can be read tells
the two apart: along every path of property and child names, and into the objects and properties that
values hold, both show the same, or both nothing.
Partial: it asks that all names are given, that no value holds a NULL property or object, and that in
the first object no two properties and no two children of one parent have the same name; without these
it is false (see `..._fails`). Types of objects, and properties after the first that a value holds, are
not part of what is read; these too are ignored by the code. -/
theorem C77_equal_iff_partial (sc : Bool) (a b : ObjCmp.Obj) (ha : a.Filled) (hb : b.Filled)
    (hu : a.Unique) :
    cmpObj sc true a b = .ok .eq ↔ Same sc (.obj a) (.obj b) := by
  have := cmpObj_iff sc true a b ha hb hu
  simp only [true_implies] at this
  rw [this, ← same_obj]

/-- C77 (equality, not recursive). `rbusObject_Compare(a, b, false)` is 0 exactly when no path that
does not begin with a child tells the two apart. Objects held by properties are still compared with
their children. -/
theorem C77_equal_without_children_partial (sc : Bool) (a b : ObjCmp.Obj) (ha : a.Filled)
    (hb : b.Filled) (hu : a.Unique) :
    cmpObj sc false a b = .ok .eq ↔
      ∀ p, (∀ n q, p ≠ Move.child n :: q) →
        Agree sc ((Node.obj a).walk p) ((Node.obj b).walk p) := by
  have := cmpObj_iff sc false a b ha hb hu
  simp only [Bool.false_eq_true, false_implies, and_true] at this
  rw [this]
  constructor
  · rintro ⟨h1, h2⟩ p hp
    cases p with
    | nil => exact h1
    | cons m q =>
      cases m with
      | prop n =>
        have := h2 n
        show Agree sc (((a.props.get n).map Node.val).bind (Node.walk q))
          (((b.props.get n).map Node.val).bind (Node.walk q))
        cases h3 : a.props.get n <;> cases h4 : b.props.get n <;> rw [h3, h4] at this
        · trivial
        · exact this.elim
        · exact this.elim
        · exact this q
      | child n => exact absurd rfl (hp n q)
      | inside => trivial
  · intro h
    refine ⟨h [] (by simp), fun n => ?_⟩
    have hq : ∀ q, Agree sc (((a.props.get n).map Node.val).bind (Node.walk q))
          (((b.props.get n).map Node.val).bind (Node.walk q)) :=
      fun q => h (.prop n :: q) (by simp)
    cases h3 : a.props.get n <;> cases h4 : b.props.get n <;> rw [h3, h4] at hq
    · trivial
    · exact (hq []).elim
    · exact (hq []).elim
    · exact hq

/-- C77 (values). The same for `rbusValue_Compare`, on values that hold scalars, properties or
objects. -/
theorem C77_values_equal_iff_partial (sc : Bool) (v w : Val) (hv : v.Filled) (hw : w.Filled)
    (hu : v.Unique) :
    cmpVal sc v w = .ok .eq ↔ Same sc (.val v) (.val w) := cmpVal_iff sc v w hv hw hu

/-- C77 (equivalence). On such objects a copy is equal to the original, if no scalar in it is NaN or
NULL; and being equal does not depend on which of the two comes first and carries over from one pair to
the next. -/
theorem C77_equivalence_partial (sc : Bool) :
    (∀ a : ObjCmp.Obj, a.Filled → a.Unique → a.All Ordinary → cmpObj sc true a a = .ok .eq) ∧
    (∀ a b : ObjCmp.Obj, a.Filled → b.Filled → a.Unique → b.Unique →
      cmpObj sc true a b = .ok .eq → cmpObj sc true b a = .ok .eq) ∧
    (∀ a b c : ObjCmp.Obj, a.Filled → b.Filled → c.Filled → a.Unique → b.Unique →
      cmpObj sc true a b = .ok .eq → cmpObj sc true b c = .ok .eq →
      cmpObj sc true a c = .ok .eq) := by
  refine ⟨?_, ?_, ?_⟩
  · intro a ha hu ho
    exact (C77_equal_iff_partial sc a a ha ha hu).2 (same_refl (x := .obj a) ho)
  · intro a b ha hb hua hub h
    exact (C77_equal_iff_partial sc b a hb ha hub).2
      (same_symm ((C77_equal_iff_partial sc a b ha hb hua).1 h))
  · intro a b c ha hb hc hua hub h h'
    exact (C77_equal_iff_partial sc a c ha hc hua).2
      (same_trans ((C77_equal_iff_partial sc a b ha hb hua).1 h)
        ((C77_equal_iff_partial sc b c hb hc hub).1 h'))

/-- C77 (defined). Comparing reads only what is there, whatever the two objects, if all names are
given and no scalar is NULL, NaN or a byte string. -/
theorem C77_defined_partial (sc recursive : Bool) (a b : ObjCmp.Obj) (hna : a.Named) (hnb : b.Named)
    (ha : a.All Tame) (hb : b.All Tame) : ∃ o, cmpObj sc recursive a b = .ok o :=
  cmpObj_def sc recursive a b hna hnb ha hb

/-- C77 (sent). An object that is sent and received compares equal to the original. -/
theorem C77_received_is_equal_partial (fc : Wire.FloatConv) (sc : Bool) (o : Wire.Obj)
    (hs : Wire.SendableObj fc o) (hf : (ofWireObj o).Filled) (hu : (ofWireObj o).Unique)
    (ho : (ofWireObj o).All Ordinary) :
    ∃ d, Wire.appendObj fc o = .ok d ∧ ∀ rest, ∃ o', Wire.readObject fc (d ++ rest) = .ok (o', rest) ∧
      cmpObj sc true (ofWireObj o) (ofWireObj o') = .ok .eq := by
  obtain ⟨d, hd, hr⟩ := C09_object_round_trip_partial fc o hs
  exact ⟨d, hd, fun rest => ⟨o, hr rest, (C77_equivalence_partial sc).1 _ hf hu ho⟩⟩

private def leaf (n : Option Bytes) (v : Val) : ObjCmp.Obj := .mk n false (.cons (some [112]) v .nil) .nil

private def treeA : ObjCmp.Obj :=
  .mk (some [79]) false
    (.cons (some [97]) (.scalar (.int32 5)) (.cons (some [98]) (.obj (leaf (some [120]) (.scalar (.boolean true)))) .nil))
    (.cons (leaf (some [49]) (.scalar (.string (some [104, 105])))) (.cons (leaf (some [50]) .null) .nil))

/-- The same as `treeA`, otherwise ordered and with a number of another type. -/
private def treeB : ObjCmp.Obj :=
  .mk (some [79]) false
    (.cons (some [98]) (.obj (leaf (some [120]) (.scalar (.boolean true)))) (.cons (some [97]) (.scalar (.uint64 5)) .nil))
    (.cons (leaf (some [50]) .null) (.cons (leaf (some [49]) (.scalar (.string (some [104, 105])))) .nil))

/-- `treeB` with another child. -/
private def treeC : ObjCmp.Obj :=
  .mk (some [79]) false treeB.props
    (.cons (leaf (some [50]) .null) (.cons (leaf (some [49]) (.scalar (.string (some [104])))) .nil))

example : treeA.Filled ∧ treeB.Filled ∧ treeA.Unique ∧ treeB.Unique ∧ treeA.All Ordinary ∧
    treeA.All Tame ∧ treeA.Named ∧
    cmpObj true true treeA treeB = .ok .eq ∧ cmpObj true true treeA treeC = .ok .gt ∧
    cmpObj true false treeA treeC = .ok .eq := by
  refine ⟨?_, ?_, ?_, ?_, ?_, ?_, ?_, by decide +kernel, by decide +kernel, by decide +kernel⟩ <;>
    simp [treeA, treeB, leaf, Obj.Filled, Chain.Filled, Objs.Filled, Val.Filled, Obj.Unique,
      Chain.Unique, Objs.Unique, Val.Unique, Chain.names, Objs.names, Obj.name, Obj.All, Chain.All,
      Objs.All, Val.All, Ordinary, Tame, Obj.Named, Chain.Named, Objs.Named, Val.Named]

example : ∃ o : Wire.Obj, Wire.SendableObj someConv o ∧ (ofWireObj o).Filled ∧ (ofWireObj o).Unique ∧
    (ofWireObj o).All Ordinary ∧ (ofWireObj o).props ≠ .nil := by
  refine ⟨.mk [79] false (.cons [97] (.scalar (.int32 5)) .nil) .nil, ?_, ?_, ?_, ?_, nofun⟩
  · simp [Wire.SendableObj, Wire.SendableProps, Wire.SendableVal, Wire.SendableObjs,
      Wire.PropList.count, Wire.ObjList.count, Wire.Name, Wire.SendableScalar]
  all_goals simp [ofWireObj, ofWireProps, ofWireObjs, ofWire, Obj.Filled, Chain.Filled, Objs.Filled,
    Val.Filled, Obj.Unique, Chain.Unique, Objs.Unique, Val.Unique, Chain.names, Objs.names, Obj.All,
    Chain.All, Objs.All, Val.All, Ordinary]

/-- C77 fails as an order: of two objects with different properties each is greater than the other, so
objects cannot be sorted by comparing them. -/
theorem C77_not_an_order_fails (sc : Bool) :
    ∃ a b : ObjCmp.Obj, a.Filled ∧ b.Filled ∧ a.Unique ∧ b.Unique ∧
      cmpObj sc true a b = .ok .gt ∧ cmpObj sc true b a = .ok .gt := by
  refine ⟨.mk (some []) false (.cons (some [97]) (.scalar (.boolean true)) .nil) .nil,
    .mk (some []) false (.cons (some [98]) (.scalar (.boolean true)) .nil) .nil, ?_, ?_, ?_, ?_, ?_, ?_⟩
  case refine_5 => cases sc <;> decide +kernel
  case refine_6 => cases sc <;> decide +kernel
  all_goals simp [Obj.Filled, Chain.Filled, Objs.Filled, Val.Filled, Obj.Unique, Chain.Unique,
    Objs.Unique, Val.Unique, Chain.names, Objs.names]

/-- C77 fails for objects without a name, which is how the parameters of methods are made: comparing two
dereferences a NULL pointer, whatever they contain. -/
theorem C77_nameless_fails (sc recursive : Bool) (m1 m2 : Bool) (ps qs : Chain) (cs ds : Objs) :
    cmpObj sc recursive (.mk none m1 ps cs) (.mk none m2 qs ds) = .ub := by
  simp only [cmpObj]
  rfl

/-- C77 fails when the second object has two properties of one name: only the first of them is
compared, so objects with different properties are equal; and compared the other way round they are
not. -/
theorem C77_repeated_name_fails (sc : Bool) :
    ∃ a b : ObjCmp.Obj, a.Filled ∧ b.Filled ∧ cmpObj sc true a b = .ok .eq ∧
      cmpObj sc true b a ≠ .ok .eq := by
  refine ⟨.mk (some []) false (.cons (some [97]) (.scalar (.boolean true)) .nil) .nil,
    .mk (some []) false (.cons (some [97]) (.scalar (.boolean true))
      (.cons (some [97]) (.scalar (.boolean false)) .nil)) .nil, ?_, ?_, ?_, ?_⟩
  case refine_3 => cases sc <;> decide +kernel
  case refine_4 => cases sc <;> decide +kernel
  all_goals simp [Obj.Filled, Chain.Filled, Objs.Filled, Val.Filled]

/-- C77 fails for values that hold several properties: only the first is compared, so two values
are equal whatever follows it. -/
theorem C77_later_properties_fails (sc : Bool) (n : Bytes) (v : Val) (hv : v.Filled) (hu : v.Unique)
    (ho : v.All Ordinary) (r q : Chain) :
    cmpVal sc (.props (.cons (some n) v r)) (.props (.cons (some n) v q)) = .ok .eq := by
  simp only [cmpVal, nameCmp_eq.2 rfl, Res.ok_bind]
  exact (cmpVal_iff sc v v hv hv hu).2 (same_refl (x := .val v) ho)

/-- C77 fails for the type of an object: a table and a plain object of the same name and contents are
equal. -/
theorem C77_type_ignored_fails (sc : Bool) (n : Option Bytes) (ps : Chain) (cs : Objs)
    (hf : (Obj.mk n false ps cs).Filled) (hu : (Obj.mk n false ps cs).Unique)
    (ho : (Obj.mk n false ps cs).All Ordinary) :
    cmpObj sc true (.mk n false ps cs) (.mk n true ps cs) = .ok .eq := by
  have h := (C77_equivalence_partial sc).1 _ hf hu ho
  simp only [cmpObj] at h ⊢
  exact h

/-- C77 fails for values whose object or property is NULL: two of them differ, each being less than the
other. -/
theorem C77_null_inside_fails (sc : Bool) :
    cmpVal sc .nullObj .nullObj = .ok .lt ∧ cmpVal sc (.props .nil) (.props .nil) = .ok .lt := by
  constructor <;> simp only [cmpVal]

end Verif.Props
