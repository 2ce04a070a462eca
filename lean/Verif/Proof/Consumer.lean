import Verif.Spec.Consumer
import Verif.Proof.Exec
import Verif.Props.Filter
import Verif.Proof.Compare

/-!
# Proofs about the subscriptions of a consumer
-/

namespace Verif.Spec.Consumer

open Verif Verif.Value Verif.Consumer
open Verif.Filter (Filter Same)

/-! ## Comparing -/

theorem cmpDbl_eq {a b : Dbl} (ha : a ≠ .nan) (hb : b ≠ .nan) : cmpDbl a b = .eq ↔ a = b := by
  cases a <;> cases b <;> simp [cmpDbl] at * <;> (try split) <;> simp_all

/-- What a plain value is compared by. -/
inductive Rank where
  | number (d : Dbl)
  | text (s : Bytes)
  | time
  deriving DecidableEq

def rank (sc : Bool) : Scalar → Option Rank
  | .string (some s) => some (.text s)
  | .datetime _ => some .time
  | .string none => none
  | .bytes _ => none
  | .none => none
  | v => (toDbl sc v).map .number

theorem plain_cases {sc : Bool} {v : Scalar} (h : PlainValue sc v) :
    (∃ d, toDbl sc v = some d ∧ d ≠ .nan ∧ rank sc v = some (.number d) ∧ v.ty.code < Ty.datetime.code) ∨
    (∃ s, v = .string (some s)) ∨ (∃ t, v = .datetime t) := by
  cases v with
  | string s =>
    cases s with
    | none => exact h.elim
    | some s => exact .inr (.inl ⟨s, rfl⟩)
  | datetime t => exact .inr (.inr ⟨t, rfl⟩)
  | bytes _ => exact h.elim
  | none => exact h.elim
  | _ => exact .inl ⟨_, rfl, fun e => h (congrArg some e), rfl, by simp only [Scalar.ty, Ty.code]; decide⟩

theorem code_text (s : Option Bytes) : Ty.datetime.code < (Scalar.string s).ty.code := by
  show Ty.datetime.code < Ty.string.code
  decide

theorem compare_lt {sc : Bool} {v w : Scalar} (h : toDbl sc w = none) (hc : v.ty.code < w.ty.code) :
    Value.compare sc v w = .ok .lt := by
  unfold Value.compare
  rw [h]
  cases toDbl sc v <;> exact if_pos hc

theorem compare_gt {sc : Bool} {v w : Scalar} (h : toDbl sc v = none) (hc : w.ty.code < v.ty.code) :
    Value.compare sc v w = .ok .gt := by
  unfold Value.compare
  rw [h]
  exact (if_neg (Nat.lt_asymm hc)).trans (if_pos hc)

theorem compare_plain {sc : Bool} {v w : Scalar} (hv : PlainValue sc v) (hw : PlainValue sc w) :
    (∃ c, Value.compare sc v w = .ok c) ∧ (Value.compare sc v w = .ok .eq ↔ rank sc v = rank sc w) := by
  rcases plain_cases hv with ⟨d, h1, h2, h3, h4⟩ | ⟨s, rfl⟩ | ⟨t, rfl⟩ <;>
    rcases plain_cases hw with ⟨d', g1, g2, g3, g4⟩ | ⟨s', rfl⟩ | ⟨t', rfl⟩
  · have : Value.compare sc v w = .ok (cmpDbl d d') := by
      unfold Value.compare
      rw [h1, g1]
    refine ⟨⟨_, this⟩, ?_⟩
    rw [this, h3, g3, Res.ok.injEq, cmpDbl_eq h2 g2]
    simp
  · have : Value.compare sc v (.string (some s')) = .ok .lt :=
      compare_lt rfl (Nat.lt_trans h4 (code_text _))
    refine ⟨⟨_, this⟩, ?_⟩
    rw [this, h3]
    simp [rank]
  · have : Value.compare sc v (.datetime t') = .ok .lt :=
      compare_lt rfl h4
    refine ⟨⟨_, this⟩, ?_⟩
    rw [this, h3]
    simp [rank]
  · have : Value.compare sc (.string (some s)) w = .ok .gt :=
      compare_gt rfl (Nat.lt_trans g4 (code_text _))
    refine ⟨⟨_, this⟩, ?_⟩
    rw [this, g3]
    simp [rank]
  · have : Value.compare sc (.string (some s)) (.string (some s')) = .ok (strcmp s s') := by
      rfl
    refine ⟨⟨_, this⟩, ?_⟩
    rw [this]
    simp only [Res.ok.injEq, rank, Option.some.injEq, Rank.text.injEq]
    exact ⟨strcmp_eq, fun e => e ▸ strcmp_self s⟩
  · have : Value.compare sc (.string (some s)) (.datetime t') = .ok .gt := compare_gt rfl (code_text _)
    refine ⟨⟨_, this⟩, ?_⟩
    rw [this]
    simp [rank]
  · have : Value.compare sc (.datetime t) w = .ok .gt :=
      compare_gt rfl g4
    refine ⟨⟨_, this⟩, ?_⟩
    rw [this, g3]
    simp [rank]
  · have : Value.compare sc (.datetime t) (.string (some s')) = .ok .lt := compare_lt rfl (code_text _)
    refine ⟨⟨_, this⟩, ?_⟩
    rw [this]
    simp [rank]
  · have : Value.compare sc (.datetime t) (.datetime t') = .ok .eq := rfl
    refine ⟨⟨_, this⟩, ?_⟩
    rw [this]
    simp [rank]

theorem cmp_plain {sc : Bool} : ∀ {f g : Filter}, PlainFilter sc f → PlainFilter sc g → ∃ c, Filter.cmp sc f g = .ok c
  | .null, .null, _, _ => ⟨_, rfl⟩
  | .null, .relation _ _, _, _ => ⟨_, rfl⟩
  | .null, .logic _ _ _, _, _ => ⟨_, rfl⟩
  | .relation _ _, .null, _, _ => ⟨_, rfl⟩
  | .relation _ _, .logic _ _ _, _, _ => ⟨_, rfl⟩
  | .logic _ _ _, .null, _, _ => ⟨_, rfl⟩
  | .logic _ _ _, .relation _ _, _, _ => ⟨_, rfl⟩
  | .relation o1 v, .relation o2 w, hf, hg => by
    simp only [Filter.cmp]
    split
    · exact (compare_plain hf hg).1
    · split <;> exact ⟨_, rfl⟩
  | .logic o1 l1 r1, .logic o2 l2 r2, hf, hg => by
    simp only [Filter.cmp]
    split
    · obtain ⟨c, hc⟩ := cmp_plain (sc := sc) hf.1 hg.1
      rw [hc, Res.ok_bind]
      split
      · exact ⟨_, rfl⟩
      · exact cmp_plain hf.2 hg.2
    · split <;> exact ⟨_, rfl⟩

theorem same_refl {sc : Bool} {f : Filter} (h : PlainFilter sc f) : Same sc f f := by
  induction f with
  | null => exact .null
  | relation op v => exact .relation ((compare_plain h h).2.2 rfl)
  | logic op l r ihl ihr => exact .logic (ihl h.1) (ihr h.2)

theorem same_symm {sc : Bool} {f g : Filter} (hs : Same sc f g) (hf : PlainFilter sc f) (hg : PlainFilter sc g) :
    Same sc g f := by
  induction hs with
  | null => exact .null
  | relation h => exact .relation ((compare_plain hg hf).2.2 ((compare_plain hf hg).2.1 h).symm)
  | logic _ _ ih1 ih2 => exact .logic (ih1 hf.1 hg.1) (ih2 hf.2 hg.2)

theorem same_trans {sc : Bool} {f g k : Filter} (hs : Same sc f g) (ht : Same sc g k) (hf : PlainFilter sc f)
    (hg : PlainFilter sc g) (hk : PlainFilter sc k) : Same sc f k := by
  induction hs generalizing k with
  | null => exact ht
  | relation h =>
    cases ht with
    | relation h' =>
      exact .relation ((compare_plain hf hk).2.2
        (((compare_plain hf hg).2.1 h).trans ((compare_plain hg hk).2.1 h')))
  | logic _ _ ih1 ih2 =>
    cases ht with
    | logic h1 h2 => exact .logic (ih1 h1 hf.1 hg.1 hk.1) (ih2 h2 hf.2 hg.2 hk.2)

theorem key_refl {sc : Bool} {k : Key} (h : PlainFilter sc k.filter) : SameKey sc k k :=
  ⟨rfl, same_refl h, rfl, rfl, rfl⟩

theorem key_symm {sc : Bool} {a b : Key} (h : SameKey sc a b) (ha : PlainFilter sc a.filter)
    (hb : PlainFilter sc b.filter) : SameKey sc b a :=
  ⟨h.1.symm, same_symm h.2.1 ha hb, h.2.2.1.symm, h.2.2.2.1.symm, h.2.2.2.2.symm⟩

theorem key_trans {sc : Bool} {a b c : Key} (h : SameKey sc a b) (h' : SameKey sc b c) (ha : PlainFilter sc a.filter)
    (hb : PlainFilter sc b.filter) (hc : PlainFilter sc c.filter) : SameKey sc a c :=
  ⟨h.1.trans h'.1, same_trans h.2.1 h'.2.1 ha hb hc, h.2.2.1.trans h'.2.2.1, h.2.2.2.1.trans h'.2.2.2.1,
    h.2.2.2.2.trans h'.2.2.2.2⟩

/-! ## The list -/

open Classical in
/-- The entry for a key. -/
noncomputable def look (sc : Bool) (subs : List Entry) (k : Key) : Option Entry :=
  subs.find? fun e => decide (SameKey sc e.key k)

/-- Entries are fully set, with plain filters. -/
def Sound (sc : Bool) (subs : List Entry) : Prop := ∀ e ∈ subs, e.rawSet = true ∧ PlainFilter sc e.key.filter

theorem hit_sound {sc : Bool} {e : Entry} {k : Key} (h1 : e.rawSet = true) (h2 : PlainFilter sc e.key.filter)
    (hk : PlainFilter sc k.filter) : ∃ b, hit sc e k = .ok b ∧ (b = true ↔ SameKey sc e.key k) := by
  unfold hit SameKey
  by_cases hn : e.key.name = k.name
  · rw [if_neg (by simp [hn])]
    obtain ⟨c, hc⟩ := cmp_plain h2 hk
    rw [hc, Res.ok_bind]
    have := Verif.Props.C53_filter_compare_equal_iff sc e.key.filter k.filter
    by_cases hce : c = .eq
    · subst hce
      rw [if_neg (by simp)]
      have hs := this.1 hc
      by_cases hi : e.key.interval = k.interval
      · rw [if_neg (by simp [hi])]
        by_cases hd : e.key.duration = k.duration
        · rw [if_neg (by simp [hd]), if_pos h1]
          exact ⟨_, rfl, by simp [hn, hs, hi, hd]⟩
        · rw [if_pos hd]
          exact ⟨_, rfl, by simp [hd]⟩
      · rw [if_pos hi]
        exact ⟨_, rfl, by simp [hi]⟩
    · rw [if_pos hce]
      refine ⟨_, rfl, ?_⟩
      have hs : ¬ Same sc e.key.filter k.filter := by
        intro hs
        have := this.2 hs
        rw [hc] at this
        exact hce (by simpa using this)
      simp [hs]
  · rw [if_pos hn]
    exact ⟨_, rfl, by simp [hn]⟩

open Classical in
theorem find_sound {sc : Bool} {subs : List Entry} {k : Key} (h : Sound sc subs) (hk : PlainFilter sc k.filter) :
    find sc subs k = .ok (look sc subs k) := by
  induction subs with
  | nil => rfl
  | cons e es ih =>
    obtain ⟨b, hb, hs⟩ := hit_sound (h e (by simp)).1 (h e (by simp)).2 hk
    simp only [find, hb, Res.ok_bind, look, List.find?_cons]
    by_cases hsk : SameKey sc e.key k
    · rw [if_pos (hs.2 hsk), decide_eq_true hsk]
      rfl
    · have : ¬ b = true := fun hb => hsk (hs.1 hb)
      rw [if_neg this, decide_eq_false hsk]
      exact ih fun x hx => h x (List.mem_cons_of_mem _ hx)

theorem look_some {sc : Bool} {subs : List Entry} {k : Key} {e : Entry} (h : look sc subs k = some e) :
    e ∈ subs ∧ SameKey sc e.key k := by
  unfold look at h
  exact ⟨List.mem_of_find?_eq_some h, by simpa using List.find?_some h⟩

/-- Distinct addresses and distinct subscriptions. -/
structure Apart (sc : Bool) (subs : List Entry) : Prop where
  ids : subs.Pairwise fun a b => a.id ≠ b.id
  keys : subs.Pairwise fun a b => ¬ SameKey sc a.key b.key

theorem look_mem {sc : Bool} {subs : List Entry} {k : Key} {e : Entry} (ha : Apart sc subs) (hs : Sound sc subs)
    (hk : PlainFilter sc k.filter) (he : e ∈ subs) (hek : SameKey sc e.key k) : look sc subs k = some e := by
  cases h : look sc subs k with
  | none =>
    unfold look at h
    simp only [List.find?_eq_none, decide_eq_true_eq] at h
    exact absurd hek (h e he)
  | some e' =>
    obtain ⟨h1, h2⟩ := look_some h
    have hp := (hs e he).2
    have hp' := (hs e' h1).2
    have h3 : SameKey sc e'.key e.key := key_trans h2 (key_symm hek hp hk) hp' hk hp
    by_cases hee : e' = e
    · rw [hee]
    · have := ha.keys
      have sym : ∀ {a b : Entry}, a ∈ subs → b ∈ subs → ¬ SameKey sc a.key b.key → ¬ SameKey sc b.key a.key :=
        fun ha' hb' hab hba => hab (key_symm hba (hs _ hb').2 (hs _ ha').2)
      have : ∀ {l : List Entry}, (∀ x ∈ l, x ∈ subs) → l.Pairwise (fun a b => ¬ SameKey sc a.key b.key) →
          e' ∈ l → e ∈ l → False := by
        intro l hl hp he'l hel
        induction l with
        | nil => cases hel
        | cons x xs ih =>
          rw [List.pairwise_cons] at hp
          rcases List.mem_cons.1 he'l with rfl | h4 <;> rcases List.mem_cons.1 hel with h5 | h5
          · exact hee h5.symm
          · exact hp.1 _ h5 h3
          · subst h5
            exact hp.1 _ h4 (key_symm h3 hp' ‹_›)
          · exact ih (fun y hy => hl y (List.mem_cons_of_mem _ hy)) hp.2 h4 h5
      exact (this (fun _ h => h) ha.keys h1 he).elim

theorem look_none {sc : Bool} {subs : List Entry} {k : Key} (h : ∀ e ∈ subs, ¬ SameKey sc e.key k) :
    look sc subs k = none := by
  unfold look
  simpa using h

theorem look_iff {sc : Bool} {subs : List Entry} {k : Key} {e : Entry} (ha : Apart sc subs) (hs : Sound sc subs)
    (hk : PlainFilter sc k.filter) : look sc subs k = some e ↔ e ∈ subs ∧ SameKey sc e.key k :=
  ⟨look_some, fun h => look_mem ha hs hk h.1 h.2⟩

theorem mem_remove {subs : List Entry} {e x : Entry} : x ∈ remove subs e ↔ x ∈ subs ∧ x.id ≠ e.id := by
  simp [remove, List.mem_filter]

theorem id_inj {sc : Bool} {subs : List Entry} (ha : Apart sc subs) {x y : Entry} (hx : x ∈ subs) (hy : y ∈ subs)
    (h : x.id = y.id) : x = y := by
  have := ha.ids
  induction subs with
  | nil => cases hx
  | cons z zs ih =>
    rw [List.pairwise_cons] at this
    rcases List.mem_cons.1 hx with rfl | h1 <;> rcases List.mem_cons.1 hy with h2 | h2
    · exact h2.symm
    · exact absurd h (this.1 _ h2)
    · exact absurd (h2 ▸ h).symm (this.1 _ h1)
    · exact ih ⟨this.2, (List.pairwise_cons.1 ha.keys).2⟩ h1 h2 this.2

theorem apart_remove {sc : Bool} {subs : List Entry} (ha : Apart sc subs) (e : Entry) : Apart sc (remove subs e) :=
  ⟨ha.ids.filter _, ha.keys.filter _⟩

theorem sound_remove {sc : Bool} {subs : List Entry} (hs : Sound sc subs) (e : Entry) : Sound sc (remove subs e) :=
  fun x hx => hs x (mem_remove.1 hx).1

open Classical in
theorem look_remove {sc : Bool} {subs : List Entry} {k k' : Key} {e : Entry} (ha : Apart sc subs) (hs : Sound sc subs)
    (hk : PlainFilter sc k.filter) (hk' : PlainFilter sc k'.filter) (he : look sc subs k = some e) :
    look sc (remove subs e) k' = if SameKey sc k k' then none else look sc subs k' := by
  obtain ⟨h1, h2⟩ := look_some he
  have hp := (hs e h1).2
  by_cases hkk : SameKey sc k k'
  · rw [if_pos hkk]
    refine look_none fun x hx hxk => ?_
    obtain ⟨hx1, hx2⟩ := mem_remove.1 hx
    have := look_mem ha hs hk' hx1 hxk
    rw [look_mem ha hs hk' h1 (key_trans h2 hkk hp hk hk')] at this
    cases this
    exact hx2 rfl
  · rw [if_neg hkk]
    cases hl : look sc subs k' with
    | none =>
      unfold look at hl
      simp only [List.find?_eq_none, decide_eq_true_eq] at hl
      exact look_none fun x hx => hl x (mem_remove.1 hx).1
    | some x =>
      obtain ⟨hx1, hx2⟩ := look_some hl
      refine look_mem (apart_remove ha e) (sound_remove hs e) hk' (mem_remove.2 ⟨hx1, fun hid => ?_⟩) hx2
      have := id_inj ha hx1 h1 hid
      subst this
      exact hkk (key_trans (key_symm h2 hp hk) hx2 hk hp hk')

/-- Changing entries without changing what they are for. -/
theorem look_map {sc : Bool} {subs : List Entry} {k : Key} (f : Entry → Entry) (hf : ∀ e, (f e).key = e.key) :
    look sc (subs.map f) k = (look sc subs k).map f := by
  unfold look
  rw [List.find?_map]
  congr 2
  funext e
  simp [hf]

theorem apart_map {sc : Bool} {subs : List Entry} (ha : Apart sc subs) (f : Entry → Entry)
    (hf : ∀ e, (f e).key = e.key) (hi : ∀ e, (f e).id = e.id) : Apart sc (subs.map f) := by
  constructor
  · rw [List.pairwise_map]
    simpa only [hi] using ha.ids
  · rw [List.pairwise_map]
    simpa only [hf] using ha.keys

theorem sound_map {sc : Bool} {subs : List Entry} (hs : Sound sc subs) (f : Entry → Entry)
    (hf : ∀ e, (f e).key = e.key) (hr : ∀ e, (f e).rawSet = e.rawSet) : Sound sc (subs.map f) := by
  intro x hx
  obtain ⟨y, hy, rfl⟩ := List.mem_map.1 hx
  rw [hf, hr]
  exact hs y hy

/-- What `setDirty` does to an entry. -/
def marked (e : Entry) (d : Bool) (x : Entry) : Entry := if x.id = e.id then { x with dirty := d } else x

theorem marked_key (e d x) : (marked e d x).key = x.key := by unfold marked; split <;> rfl
theorem marked_id (e d x) : (marked e d x).id = x.id := by unfold marked; split <;> rfl
theorem marked_raw (e d x) : (marked e d x).rawSet = x.rawSet := by unfold marked; split <;> rfl
theorem setDirty_map (subs e d) : setDirty subs e d = subs.map (marked e d) := rfl

open Classical in
theorem look_setDirty {sc : Bool} {subs : List Entry} {k k' : Key} {e : Entry} {d : Bool} (ha : Apart sc subs)
    (hs : Sound sc subs) (hk : PlainFilter sc k.filter) (hk' : PlainFilter sc k'.filter)
    (he : look sc subs k = some e) :
    look sc (setDirty subs e d) k' = if SameKey sc k k' then some { e with dirty := d } else look sc subs k' := by
  rw [setDirty_map, look_map _ (marked_key e d)]
  obtain ⟨h1, h2⟩ := look_some he
  have hp := (hs e h1).2
  by_cases hkk : SameKey sc k k'
  · rw [if_pos hkk, look_mem ha hs hk' h1 (key_trans h2 hkk hp hk hk')]
    simp [marked]
  · rw [if_neg hkk]
    cases hl : look sc subs k' with
    | none => rfl
    | some x =>
      obtain ⟨hx1, hx2⟩ := look_some hl
      have : ¬ x.id = e.id := by
        intro hid
        have := id_inj ha hx1 h1 hid
        subst this
        exact hkk (key_trans (key_symm h2 hp hk) hx2 hk hp hk')
      simp [marked, this]

open Classical in
theorem look_append {sc : Bool} {subs : List Entry} {k : Key} {n : Entry} :
    look sc (subs ++ [n]) k = (look sc subs k).or (if SameKey sc n.key k then some n else none) := by
  unfold look
  rw [List.find?_append]
  congr 1
  simp only [List.find?_cons, List.find?_nil]
  by_cases h : SameKey sc n.key k <;> simp [h]

/-- The list is in order. -/
structure Good (sc : Bool) (subs : List Entry) (next : Nat) : Prop where
  sound : Sound sc subs
  apart : Apart sc subs
  fresh : ∀ e ∈ subs, e.id < next

theorem Good.remove {sc subs next} (g : Good sc subs next) (e : Entry) : Good sc (remove subs e) next :=
  ⟨sound_remove g.sound e, apart_remove g.apart e, fun x hx => g.fresh x (mem_remove.1 hx).1⟩

theorem Good.setDirty {sc subs next} (g : Good sc subs next) (e : Entry) (d : Bool) :
    Good sc (setDirty subs e d) next := by
  rw [setDirty_map]
  refine ⟨sound_map g.sound _ (marked_key e d) (marked_raw e d),
    apart_map g.apart _ (marked_key e d) (marked_id e d), fun x hx => ?_⟩
  obtain ⟨y, hy, rfl⟩ := List.mem_map.1 hx
  rw [marked_id]
  exact g.fresh y hy

theorem Good.push {sc subs next} (g : Good sc subs next) {k : Key} (hk : PlainFilter sc k.filter) (h : Nat)
    (n : Option (BitVec 32)) (hl : look sc subs k = none) :
    Good sc (subs ++ [⟨next, k, h, false, true, n⟩]) (next + 1) := by
  have hno : ∀ e ∈ subs, ¬ SameKey sc e.key k := by
    intro e he hek
    rw [look_mem g.apart g.sound hk he hek] at hl
    cases hl
  refine ⟨fun e he => ?_, ⟨?_, ?_⟩, fun e he => ?_⟩
  · rcases List.mem_append.1 he with he | he
    · exact g.sound e he
    · rw [List.mem_singleton.1 he]
      exact ⟨rfl, hk⟩
  · refine List.pairwise_append.2 ⟨g.apart.ids, List.pairwise_singleton _ _, fun a ha b hb => ?_⟩
    rw [List.mem_singleton.1 hb]
    have := g.fresh a ha
    simp only
    omega
  · refine List.pairwise_append.2 ⟨g.apart.keys, List.pairwise_singleton _ _, fun a ha b hb => ?_⟩
    rw [List.mem_singleton.1 hb]
    exact hno a ha
  · rcases List.mem_append.1 he with he | he
    · have := g.fresh e he
      omega
    · rw [List.mem_singleton.1 he]
      simp

open Classical in
theorem put_good {sc : Bool} {s s' : State} {k : Key} {h : Nat} {n : Option (BitVec 32)}
    (g : Good sc s.subs s.next) (hk : PlainFilter sc k.filter) (hp : put sc s k h true n = .ok s') :
    Good sc s'.subs s'.next ∧ s'.calls = s.calls ∧ ∀ k', PlainFilter sc k'.filter → look sc s'.subs k' =
      if SameKey sc k k' then some ⟨s.next, k, h, false, true, n⟩ else look sc s.subs k' := by
  unfold put at hp
  rw [find_sound g.sound hk, Res.ok_bind] at hp
  cases hl : look sc s.subs k with
  | none =>
    rw [hl] at hp
    cases hp
    refine ⟨g.push hk h n hl, rfl, fun k' hk' => ?_⟩
    simp only [look_append]
    by_cases hkk : SameKey sc k k'
    · rw [if_pos hkk, if_pos hkk]
      have : look sc s.subs k' = none := by
        refine look_none fun e he hek => ?_
        rw [look_mem g.apart g.sound hk he (key_trans hek (key_symm hkk hk hk') (g.sound e he).2 hk' hk)] at hl
        cases hl
      rw [this]
      rfl
    · rw [if_neg hkk, if_neg hkk, Option.or_none]
  | some e =>
    rw [hl] at hp
    cases hp
    have hr := look_remove g.apart g.sound hk hk hl
    rw [if_pos (key_refl hk)] at hr
    refine ⟨(g.remove e).push hk h n hr, rfl, fun k' hk' => ?_⟩
    simp only [look_append, look_remove g.apart g.sound hk hk' hl]
    by_cases hkk : SameKey sc k k'
    · rw [if_pos hkk, if_pos hkk, if_pos hkk]
      rfl
    · rw [if_neg hkk, if_neg hkk, if_neg hkk, Option.or_none]

/-! ## The invariant -/

/-- How the list shows the status of a subscription. -/
def Rep : Status → Option Entry → Prop
  | .off, o => o = none
  | .on h, o => ∃ e, o = some e ∧ e.handler = h ∧ e.dirty = false
  | .ended h, o => ∃ e, o = some e ∧ e.handler = h ∧ e.dirty = true
  | .again h, o => ∃ e, o = some e ∧ e.handler = h ∧ e.dirty = false

structure Inv (sc : Bool) (h : History) (s : State) : Prop where
  good : Good sc s.subs s.next
  rep : ∀ k, PlainFilter sc k.filter → Rep (view sc k h) (look sc s.subs k)

theorem view_snoc (sc k) (h : History) (x) : view sc k (h ++ [x]) = next sc k (view sc k h) x := by
  simp [view, List.foldl_append]

theorem inv_init (sc : Bool) : Inv sc [] State.init :=
  ⟨⟨fun _ h => (by cases h), ⟨.nil, .nil⟩, fun _ h => (by cases h)⟩, fun _ _ => rfl⟩

/-- Nothing changed. -/
theorem Inv.keep {sc h s} (i : Inv sc h s) {s' : State} {x} (hs : s'.subs = s.subs) (hn : s'.next = s.next)
    (hx : ∀ k st, next sc k st x = st) : Inv sc (h ++ [x]) s' :=
  ⟨by rw [hs, hn]; exact i.good, fun k hk => by rw [view_snoc, hx, hs]; exact i.rep k hk⟩

open Classical in
/-- Only one key changed. -/
theorem Inv.change {sc h s} (i : Inv sc h s) {s' : State} {x} {k : Key} (hk : PlainFilter sc k.filter)
    (f : Status → Status) (hx : ∀ k' st, next sc k' st x = if SameKey sc k k' then f st else st) {o : Option Entry}
    (hg : Good sc s'.subs s'.next)
    (hl : ∀ k', PlainFilter sc k'.filter → look sc s'.subs k' = if SameKey sc k k' then o else look sc s.subs k')
    (hr : Rep (f (view sc k h)) o) (hv : ∀ k', PlainFilter sc k'.filter → SameKey sc k k' → view sc k' h = view sc k h) :
    Inv sc (h ++ [x]) s' := by
  refine ⟨hg, fun k' hk' => ?_⟩
  rw [view_snoc, hx, hl k' hk']
  by_cases hkk : SameKey sc k k'
  · rw [if_pos hkk, if_pos hkk, hv k' hk' hkk]
    exact hr
  · rw [if_neg hkk, if_neg hkk]
    exact i.rep k' hk'

open Classical in
theorem ite_same {p q : Prop} {α : Type} {a b : α} (h : p ↔ q) : (if p then a else b) = if q then a else b := by
  by_cases hp : p
  · rw [if_pos hp, if_pos (h.1 hp)]
  · rw [if_neg hp, if_neg fun hq => hp (h.2 hq)]

theorem next_same {sc : Bool} {k k' : Key} (hk : PlainFilter sc k.filter) (hk' : PlainFilter sc k'.filter)
    (hkk : SameKey sc k k') (st : Status) (x : Op × Out) (hx : ∀ k, keyOf x.1 = some k → PlainFilter sc k.filter) :
    next sc k' st x = next sc k st x := by
  have key : ∀ k'', PlainFilter sc k''.filter → (SameKey sc k'' k' ↔ SameKey sc k'' k) := fun k'' h'' =>
    ⟨fun h => key_trans h (key_symm hkk hk hk') h'' hk' hk, fun h => key_trans h hkk h'' hk hk'⟩
  obtain ⟨e, o⟩ := x
  cases e with
  | numbered c n => rfl
  | «exists» k'' => rfl
  | subscribe c k'' n => cases o <;> first | rfl | exact ite_same (key k'' (hx _ rfl))
  | subscribeAsync k'' n => cases o <;> first | rfl | exact ite_same (key k'' (hx _ rfl))
  | replied c k'' n r => cases r <;> first | rfl | exact ite_same (key k'' (hx _ rfl))
  | repliedAsync c k'' n r => cases r <;> first | rfl | exact ite_same (key k'' (hx _ rfl))
  | event k'' a b => exact ite_same (key k'' (hx _ rfl))
  | unsubscribe a k'' b => exact ite_same (key k'' (hx _ rfl))

theorem view_same {sc : Bool} {k k' : Key} (hk : PlainFilter sc k.filter) (hk' : PlainFilter sc k'.filter)
    (hkk : SameKey sc k k') {h : History} (hp : Plain sc h) : view sc k' h = view sc k h := by
  unfold view
  generalize Status.off = st
  induction h generalizing st with
  | nil => rfl
  | cons x xs ih =>
    rw [List.foldl_cons, List.foldl_cons, next_same hk hk' hkk st x (hp x (by simp))]
    exact ih (fun y hy => hp y (List.mem_cons_of_mem _ hy)) _

theorem check_cases {sc : Bool} {s : State} {k : Key} (hs : Sound sc s.subs) (hk : PlainFilter sc k.filter)
    {r} (h : check sc s k = .ok r) :
    (∃ e, look sc s.subs k = some e ∧ e.dirty = true ∧ r = some (setDirty s.subs e false)) ∨
    (∃ e, look sc s.subs k = some e ∧ e.dirty = false ∧ r = none) ∨
    (look sc s.subs k = none ∧ (r = none ∨ r = some s.subs)) := by
  unfold check at h
  rw [find_sound hs hk, Res.ok_bind] at h
  cases hl : look sc s.subs k with
  | some e =>
    rw [hl] at h
    simp only [] at h
    cases hd : e.dirty with
    | true =>
      rw [hd] at h
      cases h
      exact .inl ⟨e, rfl, hd, rfl⟩
    | false =>
      rw [hd] at h
      cases h
      exact .inr (.inl ⟨e, rfl, hd, rfl⟩)
  | none =>
    rw [hl] at h
    simp only [] at h
    obtain ⟨t, ht, h⟩ := res_bind_ok h
    cases t with
    | none => cases h; exact .inr (.inr ⟨rfl, .inr rfl⟩)
    | some _ => cases h; exact .inr (.inr ⟨rfl, .inl rfl⟩)

theorem rep_none {st : Status} (h : Rep st none) : st = .off := by
  cases st with
  | off => rfl
  | on _ => obtain ⟨_, h, _⟩ := h; cases h
  | ended _ => obtain ⟨_, h, _⟩ := h; cases h
  | again _ => obtain ⟨_, h, _⟩ := h; cases h

theorem rep_dirty {st : Status} {e : Entry} (h : Rep st (some e)) (hd : e.dirty = true) : st = .ended e.handler := by
  cases st with
  | off => cases h
  | on _ => obtain ⟨_, h, _, h'⟩ := h; cases h; rw [hd] at h'; cases h'
  | ended _ => obtain ⟨_, h, h', _⟩ := h; cases h; rw [h']
  | again _ => obtain ⟨_, h, _, h'⟩ := h; cases h; rw [hd] at h'; cases h'

theorem rep_clean {st : Status} {e : Entry} (h : Rep st (some e)) (hd : e.dirty = false) :
    st = .on e.handler ∨ st = .again e.handler := by
  cases st with
  | off => cases h
  | on _ => obtain ⟨_, h, h', _⟩ := h; cases h; exact .inl (by rw [h'])
  | ended _ => obtain ⟨_, h, _, h'⟩ := h; cases h; rw [hd] at h'; cases h'
  | again _ => obtain ⟨_, h, h', _⟩ := h; cases h; exact .inr (by rw [h'])

open Classical in
theorem check_inv {sc : Bool} {h : History} {s : State} {k : Key} {r} (i : Inv sc h s) (hp : Plain sc h)
    (hk : PlainFilter sc k.filter) (hr : check sc s k = .ok r) :
    (r = none ∧ True) ∨ (∃ subs, r = some subs ∧ ∀ {s' : State} {x}, s'.subs = subs → s'.next = s.next →
      (∀ k' st, next sc k' st x = if SameKey sc k k' then st.restart else st) → Inv sc (h ++ [x]) s') := by
  have hv : ∀ k', PlainFilter sc k'.filter → SameKey sc k k' → view sc k' h = view sc k h :=
    fun k' hk' hkk => view_same hk hk' hkk hp
  rcases check_cases i.good.sound hk hr with ⟨e, h1, h2, rfl⟩ | ⟨e, h1, h2, rfl⟩ | ⟨h1, rfl | rfl⟩
  · refine .inr ⟨_, rfl, fun {s' x} hs hn hx => ?_⟩
    refine i.change hk Status.restart hx (by rw [hs, hn]; exact i.good.setDirty e false)
      (fun k' hk' => by rw [hs]; exact look_setDirty i.good.apart i.good.sound hk hk' h1) ?_ hv
    have := i.rep k hk
    rw [h1] at this
    rw [rep_dirty this h2]
    exact ⟨_, rfl, rfl, rfl⟩
  · exact .inl ⟨rfl, trivial⟩
  · exact .inl ⟨rfl, trivial⟩
  · refine .inr ⟨_, rfl, fun {s' x} hs hn hx => ?_⟩
    have h2 := i.rep k hk
    rw [h1] at h2
    refine i.change hk Status.restart hx (by rw [hs, hn]; exact i.good) (o := none) (fun k' hk' => ?_) ?_ hv
    · rw [hs]
      by_cases hkk : SameKey sc k k'
      · rw [if_pos hkk]
        have := i.rep k' hk'
        rw [hv k' hk' hkk, rep_none h2] at this
        exact this
      · rw [if_neg hkk]
    · rw [rep_none h2]
      rfl

open Classical in
theorem step_inv {sc : Bool} {h : History} {s s' : State} {e : Op} {o : Out} (i : Inv sc h s)
    (hst : step sc s e = .ok (s', o)) (hp : Plain sc h) (hk : ∀ k, keyOf e = some k → PlainFilter sc k.filter)
    (hu : ∀ k, keyOf e = some k → Usual e (view sc k h)) : Inv sc (h ++ [(e, o)]) s' := by
  have hv : ∀ {k}, PlainFilter sc k.filter → ∀ k', PlainFilter sc k'.filter → SameKey sc k k' →
      view sc k' h = view sc k h := fun hk k' hk' hkk => view_same hk hk' hkk hp
  cases e with
  | subscribe c k hd =>
    replace hk : PlainFilter sc k.filter := hk k rfl
    simp only [step] at hst
    split at hst
    · cases hst
    obtain ⟨r, hr, hst⟩ := res_bind_ok hst
    rcases check_inv i hp hk hr with ⟨rfl, hi⟩ | ⟨subs, rfl, hi⟩
    · cases hst
      exact i.keep rfl rfl fun _ _ => rfl
    · cases hst
      exact hi rfl rfl fun _ _ => rfl
  | numbered c n =>
    simp only [step] at hst
    split at hst
    · split at hst
      · cases hst
        rename_i a _ _
        let f : Entry → Entry := fun x => if x.id = a then { x with number := some n } else x
        have hf : ∀ x, (f x).key = x.key ∧ (f x).id = x.id ∧ (f x).rawSet = x.rawSet ∧ (f x).handler = x.handler ∧
            (f x).dirty = x.dirty := by
          intro x
          simp only [f]
          split <;> simp
        refine ⟨⟨sound_map i.good.sound f (fun x => (hf x).1) (fun x => (hf x).2.2.1),
          apart_map i.good.apart f (fun x => (hf x).1) (fun x => (hf x).2.1), fun x hx => ?_⟩, fun k hk => ?_⟩
        · obtain ⟨y, hy, rfl⟩ := List.mem_map.1 hx
          have := i.good.fresh y hy
          rw [← (hf y).2.1] at this
          exact this
        · rw [view_snoc]
          show Rep (view sc k h) (look sc (s.subs.map f) k)
          rw [look_map f fun x => (hf x).1]
          have := i.rep k hk
          revert this
          cases view sc k h with
          | off => intro h; rw [show look sc s.subs k = none from h]; rfl
          | on x => rintro ⟨e, h1, h2, h3⟩; rw [h1]; exact ⟨_, rfl, (hf e).2.2.2.1.trans h2, (hf e).2.2.2.2.trans h3⟩
          | ended x => rintro ⟨e, h1, h2, h3⟩; rw [h1]; exact ⟨_, rfl, (hf e).2.2.2.1.trans h2, (hf e).2.2.2.2.trans h3⟩
          | again x => rintro ⟨e, h1, h2, h3⟩; rw [h1]; exact ⟨_, rfl, (hf e).2.2.2.1.trans h2, (hf e).2.2.2.2.trans h3⟩
      · cases hst
    · cases hst
  | subscribeAsync k hd =>
    replace hk : PlainFilter sc k.filter := hk k rfl
    simp only [step] at hst
    split at hst
    · cases hst
    obtain ⟨r, hr, hst⟩ := res_bind_ok hst
    rcases check_inv i hp hk hr with ⟨rfl, hi⟩ | ⟨subs, rfl, hi⟩
    · cases hst
      exact i.keep rfl rfl fun _ _ => rfl
    · cases hst
      exact hi rfl rfl fun _ _ => rfl
  | «exists» k =>
    simp only [step] at hst
    split at hst
    · cases hst
    obtain ⟨r, hr, hst⟩ := res_bind_ok hst
    cases hst
    exact i.keep rfl rfl fun _ _ => rfl
  | repliedAsync j k hd n =>
    replace hk : PlainFilter sc k.filter := hk k rfl
    simp only [step] at hst
    split at hst
    · cases n with
      | none =>
        cases hst
        exact i.keep rfl rfl fun _ _ => rfl
      | some n =>
        obtain ⟨s1, h1, hst⟩ := res_bind_ok hst
        cases hst
        obtain ⟨g, _, hl⟩ := put_good (s := { s with pending := s.pending.eraseIdx j }) i.good hk h1
        exact i.change hk (fun _ => .on hd) (fun _ _ => rfl) g hl ⟨_, rfl, rfl, rfl⟩ (hv hk)
    · cases hst
  | replied c k hd r =>
    replace hk : PlainFilter sc k.filter := hk k rfl
    replace hu := hu k rfl
    simp only [step] at hst
    split at hst
    · cases r with
      | accepted =>
        obtain ⟨s1, h1, hst⟩ := res_bind_ok hst
        cases hst
        obtain ⟨g, _, hl⟩ := put_good (s := { s with calls := s.calls.filter (·.id ≠ c) }) i.good hk h1
        exact i.change hk (fun _ => .on hd) (fun _ _ => rfl) g hl ⟨_, rfl, rfl, rfl⟩ (hv hk)
      | existing => exact hu.elim
      | refused => cases hst; exact i.keep rfl rfl fun _ _ => rfl
      | failed => cases hst; exact i.keep rfl rfl fun _ _ => rfl
      | noProvider =>
        simp only [find_sound i.good.sound hk, Res.ok_bind] at hst
        have hrep := i.rep k hk
        cases hl : look sc s.subs k with
        | none =>
          rw [hl] at hst hrep
          cases hst
          refine i.change hk Status.giveUp (fun _ _ => rfl) i.good (o := none) (fun k' hk' => ?_) ?_ (hv hk)
          · by_cases hkk : SameKey sc k k'
            · rw [if_pos hkk]
              have := i.rep k' hk'
              rw [hv hk k' hk' hkk, rep_none hrep] at this
              exact this
            · rw [if_neg hkk]
          · rw [rep_none hrep]
            rfl
        | some e =>
          rw [hl] at hst hrep
          cases hst
          refine i.change hk Status.giveUp (fun _ _ => rfl) (i.good.setDirty e true)
            (fun k' hk' => look_setDirty i.good.apart i.good.sound hk hk' hl) ?_ (hv hk)
          cases hd' : e.dirty with
          | true =>
            rw [rep_dirty hrep hd']
            exact ⟨_, rfl, rfl, rfl⟩
          | false =>
            rcases rep_clean hrep hd' with h1 | h1
            · rw [h1] at hu
              exact hu.elim
            · rw [h1]
              exact ⟨_, rfl, rfl, rfl⟩
    · cases hst
  | event k over r =>
    replace hk : PlainFilter sc k.filter := hk k rfl
    replace hu := hu k rfl
    simp only [step] at hst
    split at hst
    · cases hst
    rw [find_sound i.good.sound hk, Res.ok_bind] at hst
    have hrep := i.rep k hk
    cases hl : look sc s.subs k with
    | none =>
      rw [hl] at hst hrep
      cases hst
      refine i.change hk (Status.hear over r) (fun _ _ => rfl) i.good (o := none) (fun k' hk' => ?_) ?_ (hv hk)
      · by_cases hkk : SameKey sc k k'
        · rw [if_pos hkk]
          have := i.rep k' hk'
          rw [hv hk k' hk' hkk, rep_none hrep] at this
          exact this
        · rw [if_neg hkk]
      · rw [rep_none hrep]
        rfl
    | some e =>
      rw [hl] at hst hrep
      simp only [] at hst
      have gone : Rep ((view sc k h).hear over r) none → ∀ {s' : State}, s'.subs = remove s.subs e →
          s'.next = s.next → Inv sc (h ++ [(.event k over r, o)]) s' := by
        intro h0 s' hs hn
        exact i.change hk (Status.hear over r) (fun _ _ => rfl) (by rw [hs, hn]; exact i.good.remove e)
          (fun k' hk' => by rw [hs]; exact look_remove i.good.apart i.good.sound hk hk' hl) h0 (hv hk)
      cases hd' : e.dirty with
      | true =>
        have hst' := rep_dirty hrep hd'
        rw [hst'] at hu
        cases r with
        | noProvider => exact hu.elim
        | success =>
          rw [if_pos ⟨hd', by simp⟩] at hst
          cases hst
          exact gone (by rw [hst']; simp [Status.hear, Rep]) rfl rfl
        | failed =>
          rw [if_pos ⟨hd', by simp⟩] at hst
          cases hst
          exact gone (by rw [hst']; simp [Status.hear, Rep]) rfl rfl
      | false =>
        rw [if_neg (by simp [hd'])] at hst
        have hon : view sc k h = .on e.handler := by
          rcases rep_clean hrep hd' with h1 | h1
          · exact h1
          · rw [h1] at hu
            cases r <;> exact hu.elim
        cases over with
        | true =>
          rw [if_pos rfl] at hst
          cases hst
          exact gone (by rw [hon]; simp [Status.hear, Rep]) rfl rfl
        | false =>
          rw [if_neg (by simp)] at hst
          cases hst
          refine i.change hk (Status.hear false r) (fun _ _ => rfl) i.good (o := some e) (fun k' hk' => ?_) ?_ (hv hk)
          · by_cases hkk : SameKey sc k k'
            · rw [if_pos hkk]
              obtain ⟨h1, h2⟩ := look_some hl
              exact look_mem i.good.apart i.good.sound hk' h1 (key_trans h2 hkk (i.good.sound e h1).2 hk hk')
            · rw [if_neg hkk]
          · rw [hon]
            exact ⟨e, rfl, rfl, hd'⟩
  | unsubscribe ex k r =>
    replace hk : PlainFilter sc k.filter := hk k rfl
    simp only [step] at hst
    rw [find_sound i.good.sound hk, Res.ok_bind] at hst
    have hrep := i.rep k hk
    cases hl : look sc s.subs k with
    | none =>
      rw [hl] at hst hrep
      have hs : s'.subs = s.subs ∧ s'.next = s.next := by
        simp only [] at hst
        split at hst
        · cases hst; exact ⟨rfl, rfl⟩
        · obtain ⟨t, _, hst⟩ := res_bind_ok hst
          cases t <;> (cases hst; exact ⟨rfl, rfl⟩)
      have h0 : (view sc k h).stop r = .off := by rw [rep_none hrep]; cases r <;> rfl
      refine i.change hk (Status.stop r) (fun _ _ => rfl) (by rw [hs.1, hs.2]; exact i.good) (o := none)
        (fun k' hk' => ?_) (by rw [h0]; rfl) (hv hk)
      rw [hs.1]
      by_cases hkk : SameKey sc k k'
      · rw [if_pos hkk]
        have := i.rep k' hk'
        rw [hv hk k' hk' hkk, rep_none hrep] at this
        exact this
      · rw [if_neg hkk]
    | some e =>
      rw [hl] at hst hrep
      cases hst
      cases r with
      | noProvider =>
        refine i.change hk (Status.stop .noProvider) (fun _ _ => rfl) (i.good.setDirty e true)
          (fun k' hk' => look_setDirty i.good.apart i.good.sound hk hk' hl) ?_ (hv hk)
        cases hd' : e.dirty with
        | true => rw [rep_dirty hrep hd']; exact ⟨_, rfl, rfl, rfl⟩
        | false => rcases rep_clean hrep hd' with h1 | h1 <;> (rw [h1]; exact ⟨_, rfl, rfl, rfl⟩)
      | success =>
        exact i.change hk (Status.stop .success) (fun _ _ => rfl) (i.good.remove e)
          (fun k' hk' => look_remove i.good.apart i.good.sound hk hk' hl) rfl (hv hk)
      | failed =>
        exact i.change hk (Status.stop .failed) (fun _ _ => rfl) (i.good.remove e)
          (fun k' hk' => look_remove i.good.apart i.good.sound hk hk' hl) rfl (hv hk)

theorem exec_inv {sc : Bool} {h : History} {s : State} (hx : Exec (step sc) State.init h s) (hp : Plain sc h)
    (hr : Regular sc h) : Inv sc h s := by
  induction hx with
  | nil => exact inv_init sc
  | @snoc h s e o s' hx hs ih =>
    have hp' : Plain sc h := fun x hx => hp x (List.mem_append.2 (.inl hx))
    have hr' : Regular sc h := fun a e' o' b hab => hr a e' o' (b ++ [(e, o)]) (by simp [hab])
    exact step_inv (ih hp' hr') hs hp' (hp (e, o) (by simp)) (hr h e o [] (by simp))

/-! ## Subscribing to several events -/

/-- Handler and mark of the entry for a key. -/
noncomputable def shown (sc : Bool) (subs : List Entry) (k : Key) : Option (Nat × Bool) :=
  (look sc subs k).map fun e => (e.handler, e.dirty)

/-- Where an event goes with that. -/
def goes : Option (Nat × Bool) → Out
  | some (h, false) => .invoked h
  | _ => .ignored

theorem heard_shown {sc : Bool} {s : State} {k : Key} (hs : Sound sc s.subs) (hk : PlainFilter sc k.filter)
    (hr : k.raw = false) : heard sc s k = .ok (goes (shown sc s.subs k)) := by
  unfold heard shown
  simp only [step]
  rw [if_neg (by simp [hr]), find_sound hs hk, Res.ok_bind]
  cases look sc s.subs k with
  | none => rfl
  | some e =>
    cases hd : e.dirty <;> simp [hd, goes]

theorem look_same {sc : Bool} {subs : List Entry} {k k' : Key} (ha : Apart sc subs) (hs : Sound sc subs)
    (hk : PlainFilter sc k.filter) (hk' : PlainFilter sc k'.filter) (hkk : SameKey sc k k') :
    look sc subs k' = look sc subs k := by
  cases h : look sc subs k with
  | some e =>
    obtain ⟨h1, h2⟩ := look_some h
    exact look_mem ha hs hk' h1 (key_trans h2 hkk (hs e h1).2 hk hk')
  | none =>
    refine look_none fun e he hek => ?_
    rw [look_mem ha hs hk he (key_trans hek (key_symm hkk hk hk') (hs e he).2 hk' hk)] at h
    cases h

theorem shown_same {sc subs next} {k k' : Key} (g : Good sc subs next)
    (hk : PlainFilter sc k.filter) (hk' : PlainFilter sc k'.filter) (hkk : SameKey sc k k') :
    shown sc subs k' = shown sc subs k := by
  unfold shown
  rw [look_same g.apart g.sound hk hk' hkk]

open Classical in
theorem subscribeCall_good {sc : Bool} {s s' : State} {c : Nat} {q : Item} {hd : Nat} {o : Out}
    (g : Good sc s.subs s.next) (hk : PlainFilter sc q.key.filter) (hc : ∀ h, shown sc s.subs q.key ≠ some (h, true))
    (hn : q.reply ≠ .existing) (h : subscribeCall sc s c q hd = .ok (s', o)) :
    Good sc s'.subs s'.next ∧
    ((o = .success ∧ shown sc s.subs q.key = none ∧ ∀ k', PlainFilter sc k'.filter → shown sc s'.subs k' =
        if SameKey sc q.key k' then some (hd, false) else shown sc s.subs k') ∨
     (o ≠ .success ∧ s'.subs = s.subs)) := by
  unfold subscribeCall at h
  obtain ⟨⟨s1, o1⟩, h1, h⟩ := res_bind_ok h
  simp only [] at h
  simp only [step] at h1
  split at h1
  · cases h1
  rename_i hfree
  obtain ⟨r, hr, h1⟩ := res_bind_ok h1
  rcases check_cases g.sound hk hr with ⟨e, e1, e2, rfl⟩ | ⟨e, e1, e2, rfl⟩ | ⟨e1, rfl | rfl⟩
  · exact absurd (by simp [shown, e1, e2]) (hc e.handler)
  · cases h1
    cases h
    exact ⟨g, .inr ⟨by simp, rfl⟩⟩
  · cases h1
    cases h
    exact ⟨g, .inr ⟨by simp, rfl⟩⟩
  · cases h1
    rw [if_neg (by simp)] at h
    obtain ⟨⟨s2, o2⟩, h2, h⟩ := res_bind_ok h
    simp only [] at h
    simp only [step] at h2
    split at h2
    · cases hrep : q.reply with
      | existing => exact absurd hrep hn
      | refused =>
        rw [hrep] at h2
        cases h2
        cases h
        exact ⟨g, .inr ⟨by simp, rfl⟩⟩
      | failed =>
        rw [hrep] at h2
        cases h2
        cases h
        exact ⟨g, .inr ⟨by simp, rfl⟩⟩
      | noProvider =>
        rw [hrep] at h2
        simp only [find_sound g.sound hk, Res.ok_bind, e1, Res.pure_eq] at h2
        cases h2
        cases h
        exact ⟨g, .inr ⟨by simp, rfl⟩⟩
      | accepted =>
        rw [hrep] at h2
        obtain ⟨s3, h3, h2⟩ := res_bind_ok h2
        cases h2
        rw [if_pos rfl] at h
        obtain ⟨g3, hc, hl⟩ := put_good
          (s := ⟨s.subs, (s.calls ++ [(⟨c, q.key, hd, none⟩ : Call)]).filter (·.id ≠ c), s.pending, s.next⟩) g hk h3
        simp only [step] at h
        split at h
        · split at h
          · cases h
            rename_i a _ _ _
            let f' : Entry → Entry := fun x => if x.id = a then { x with number := some q.number } else x
            have hf : ∀ x, (f' x).key = x.key ∧ (f' x).id = x.id ∧ (f' x).rawSet = x.rawSet ∧
                ((f' x).handler, (f' x).dirty) = (x.handler, x.dirty) := by
              intro x
              simp only [f']
              split <;> simp
            refine ⟨⟨sound_map g3.sound f' (fun x => (hf x).1) (fun x => (hf x).2.2.1),
              apart_map g3.apart f' (fun x => (hf x).1) (fun x => (hf x).2.1), fun x hx => ?_⟩,
              .inl ⟨rfl, by simp [shown, e1], fun k' hk' => ?_⟩⟩
            · obtain ⟨y, hy, rfl⟩ := List.mem_map.1 hx
              have := g3.fresh y hy
              rw [← (hf y).2.1] at this
              exact this
            · show shown sc (s3.subs.map f') k' = _
              unfold shown
              rw [look_map f' fun x => (hf x).1, Option.map_map, hl k' hk']
              have : ((fun e : Entry => (e.handler, e.dirty)) ∘ f') = fun e : Entry => (e.handler, e.dirty) := by
                funext x
                exact (hf x).2.2.2
              rw [this]
              by_cases hkk : SameKey sc q.key k'
              · rw [if_pos hkk, if_pos hkk]
                rfl
              · rw [if_neg hkk, if_neg hkk]
          · cases h
        · cases h
    · cases h2

/-- An entry that is gone or marked. -/
def Quiet (o : Option (Nat × Bool)) : Prop := goes o = .ignored

open Classical in
theorem unsubscribe_good {sc : Bool} {s s' : State} {k : Key} {r : Ended} {o : Out} (g : Good sc s.subs s.next)
    (hk : PlainFilter sc k.filter) (h : step sc s (.unsubscribe true k r) = .ok (s', o)) :
    Good sc s'.subs s'.next ∧ ∀ k', PlainFilter sc k'.filter →
      (SameKey sc k k' → Quiet (shown sc s'.subs k')) ∧
      (¬ SameKey sc k k' → shown sc s'.subs k' = shown sc s.subs k') := by
  simp only [step] at h
  rw [find_sound g.sound hk, Res.ok_bind] at h
  cases hl : look sc s.subs k with
  | none =>
    rw [hl] at h
    have hs : s'.subs = s.subs ∧ s'.next = s.next := by
      simp only [] at h
      split at h
      · cases h; exact ⟨rfl, rfl⟩
      · obtain ⟨t, _, h⟩ := res_bind_ok h
        cases t <;> (cases h; exact ⟨rfl, rfl⟩)
    rw [hs.1, hs.2]
    refine ⟨g, fun k' hk' => ⟨fun hkk => ?_, fun _ => rfl⟩⟩
    unfold shown
    rw [look_same g.apart g.sound hk hk' hkk, hl]
    rfl
  | some e =>
    rw [hl] at h
    cases h
    have gone : Good sc (remove s.subs e) s.next ∧ ∀ k', PlainFilter sc k'.filter →
        (SameKey sc k k' → Quiet (shown sc (remove s.subs e) k')) ∧
        (¬ SameKey sc k k' → shown sc (remove s.subs e) k' = shown sc s.subs k') := by
      refine ⟨g.remove e, fun k' hk' => ?_⟩
      unfold shown
      rw [look_remove g.apart g.sound hk hk' hl]
      exact ⟨fun hkk => by rw [if_pos hkk]; rfl, fun hkk => by rw [if_neg hkk]⟩
    cases r with
    | success => exact gone
    | failed => exact gone
    | noProvider =>
      refine ⟨g.setDirty e true, fun k' hk' => ?_⟩
      show (_ → Quiet (shown sc (setDirty s.subs e true) k')) ∧ (_ → shown sc (setDirty s.subs e true) k' = _)
      unfold shown
      rw [look_setDirty g.apart g.sound hk hk' hl]
      exact ⟨fun hkk => by rw [if_pos hkk]; rfl, fun hkk => by rw [if_neg hkk]⟩

theorem unsubscribeAll_good {sc : Bool} : ∀ {done : List Item} {s s' : State}, Good sc s.subs s.next →
    (∀ q ∈ done, PlainFilter sc q.key.filter ∧ q.key.raw = false) → unsubscribeAll sc s done = .ok s' →
    Good sc s'.subs s'.next ∧ ∀ k', PlainFilter sc k'.filter →
      ((∃ q ∈ done, SameKey sc q.key k') → Quiet (shown sc s'.subs k')) ∧
      ((∀ q ∈ done, ¬ SameKey sc q.key k') → shown sc s'.subs k' = shown sc s.subs k')
  | [], s, s', g, _, h => by
    cases h
    exact ⟨g, fun k' _ => ⟨fun ⟨_, h, _⟩ => (by cases h), fun _ => rfl⟩⟩
  | q :: qs, s, s', g, hq, h => by
    unfold unsubscribeAll at h
    obtain ⟨⟨s1, o1⟩, h1, h⟩ := res_bind_ok h
    simp only [] at h
    have hq0 := hq q (by simp)
    rw [show { q.key with raw := false } = q.key by rw [← hq0.2]] at h1
    obtain ⟨g1, l1⟩ := unsubscribe_good g hq0.1 h1
    obtain ⟨g2, l2⟩ := unsubscribeAll_good g1 (fun x hx => hq x (List.mem_cons_of_mem _ hx)) h
    refine ⟨g2, fun k' hk' => ⟨?_, fun hn => ?_⟩⟩
    · rintro ⟨x, hx, hxk⟩
      by_cases hin : ∃ y ∈ qs, SameKey sc y.key k'
      · exact (l2 k' hk').1 hin
      · rcases List.mem_cons.1 hx with rfl | hx
        · rw [(l2 k' hk').2 fun y hy hyk => hin ⟨y, hy, hyk⟩]
          exact (l1 k' hk').1 hxk
        · exact absurd ⟨x, hx, hxk⟩ hin
    · rw [(l2 k' hk').2 fun y hy => hn y (List.mem_cons_of_mem _ hy)]
      exact (l1 k' hk').2 (hn q (by simp))

theorem subscribeAll_good {sc : Bool} {c : Nat} {s₀ : State} (g₀ : Good sc s₀.subs s₀.next) :
    ∀ {qs done : List Item} {s s' : State} {b : Bool}, Good sc s.subs s.next → (∀ q ∈ done, Fit sc q) →
    (∀ q ∈ qs, Fit sc q) → (∀ q ∈ qs, ∀ h, shown sc s₀.subs q.key ≠ some (h, true)) →
    (∀ q ∈ done, shown sc s₀.subs q.key = none ∧ shown sc s.subs q.key = some (q.handler.getD 0, false)) →
    (∀ k', PlainFilter sc k'.filter → (∀ q ∈ done, ¬ SameKey sc q.key k') →
      shown sc s.subs k' = shown sc s₀.subs k') →
    subscribeAll sc c done s qs = .ok (s', b) →
    Good sc s'.subs s'.next ∧
    (b = true → (∀ q ∈ done ++ qs, shown sc s₀.subs q.key = none ∧
        shown sc s'.subs q.key = some (q.handler.getD 0, false)) ∧
      ∀ k', PlainFilter sc k'.filter → (∀ q ∈ done ++ qs, ¬ SameKey sc q.key k') →
        shown sc s'.subs k' = shown sc s₀.subs k') ∧
    (b = false → ∀ k', PlainFilter sc k'.filter → goes (shown sc s'.subs k') = goes (shown sc s₀.subs k'))
  | [], done, s, s', b, g, hd, hq, hc, h1, h2, h => by
    cases h
    refine ⟨g, fun _ => ⟨?_, ?_⟩, fun h => (by cases h)⟩
    · simpa using h1
    · simpa using h2
  | q :: qs, done, s, s', b, g, hd, hq, hc, h1, h2, h => by
    have fq := hq q (by simp)
    unfold subscribeAll at h
    rw [if_neg (by simp [fq.raw])] at h
    obtain ⟨⟨s1, o1⟩, hcall, h⟩ := res_bind_ok h
    simp only [] at h
    have clean : ∀ x, shown sc s.subs q.key ≠ some (x, true) := by
      intro x hx
      by_cases hin : ∃ y ∈ done, SameKey sc y.key q.key
      · obtain ⟨y, hy, hyk⟩ := hin
        rw [shown_same g (hd y hy).plain fq.plain hyk, (h1 y hy).2] at hx
        cases hx
      · rw [h2 q.key fq.plain fun y hy hyk => hin ⟨y, hy, hyk⟩] at hx
        exact hc q (by simp) x hx
    obtain ⟨g1, hres⟩ := subscribeCall_good g fq.plain clean fq.new hcall
    rcases hres with ⟨ho, hnone, hl⟩ | ⟨ho, hs⟩
    · rw [if_pos ho] at h
      have fresh : ∀ y ∈ done, ¬ SameKey sc y.key q.key := by
        intro y hy hyk
        rw [shown_same g (hd y hy).plain fq.plain hyk, (h1 y hy).2] at hnone
        cases hnone
      have h0 : shown sc s₀.subs q.key = none := by rw [← h2 q.key fq.plain fresh, hnone]
      have := subscribeAll_good g₀ (qs := qs) (done := done ++ [q]) g1
        (by
          intro x hx
          rcases List.mem_append.1 hx with hx | hx
          · exact hd x hx
          · rw [List.mem_singleton.1 hx]
            exact fq)
        (fun x hx => hq x (List.mem_cons_of_mem _ hx)) (fun x hx => hc x (List.mem_cons_of_mem _ hx))
        (by
          intro x hx
          rcases List.mem_append.1 hx with hx | hx
          · refine ⟨(h1 x hx).1, ?_⟩
            rw [hl x.key (hd x hx).plain,
              if_neg fun hk => fresh x hx (key_symm hk fq.plain (hd x hx).plain)]
            exact (h1 x hx).2
          · rw [List.mem_singleton.1 hx]
            exact ⟨h0, by rw [hl q.key fq.plain, if_pos (key_refl fq.plain)]⟩)
        (by
          intro k' hk' hn
          rw [hl k' hk', if_neg (hn q (by simp))]
          exact h2 k' hk' fun y hy => hn y (List.mem_append.2 (.inl hy)))
        h
      simpa using this
    · rw [if_neg ho] at h
      obtain ⟨s2, hu, h⟩ := res_bind_ok h
      cases h
      obtain ⟨g2, l2⟩ := unsubscribeAll_good g1 (fun x hx => ⟨(hd x hx).plain, (hd x hx).raw⟩) hu
      refine ⟨g2, fun h => (by cases h), fun _ k' hk' => ?_⟩
      by_cases hin : ∃ y ∈ done, SameKey sc y.key k'
      · have hq2 : goes (shown sc s'.subs k') = .ignored := (l2 k' hk').1 hin
        obtain ⟨y, hy, hyk⟩ := hin
        rw [hq2, shown_same g₀ (hd y hy).plain hk' hyk, (h1 y hy).1]
        rfl
      · have hn : ∀ y ∈ done, ¬ SameKey sc y.key k' := fun y hy hyk => hin ⟨y, hy, hyk⟩
        rw [(l2 k' hk').2 hn, hs, h2 k' hk' hn]

end Verif.Spec.Consumer
