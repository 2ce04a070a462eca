import Verif.Proof.Life
import Verif.Props.Registry
import Verif.Props.TokenChain

/-!
# C33, C46, C48, C61, C62: a provider in orderly use

`Life sc D s`: a provider declared the elements `D` in order, then served subscribe and unsubscribe requests,
lost connections, and rows added to and deleted from its tables, with any answers of its own handlers, and is
now in state `s`. Elements are given by the nodes from the element upwards. `x.instances` are the elements
to which a subscription is attached; C62 tells which these are, C46 what that means for it.
-/

namespace Verif.Props

open Verif Verif.Subs
open Verif.Element (nodesList Info Node Tree Path tTable tProperty tEvent tObject retrieveInstance retrieve tokens decimal
  template)
open Verif.Spec.Registry (SameKey Plain History)
open Verif.Spec.Provider (Decl Fits Orderly declare Names Sane Life Wants pieces)
open Verif.Spec.EventName (Part addresses written AllProper path dotted)

/-! ## A small world for the examples -/

/-- Whether a path can be declared, as a computation. -/
def fitsNow (D : List Decl) (p : Path) : Bool :=
  p ≠ [] && D.all (fun d => !(p.isPrefixOf d.path)) &&
  D.all (fun d => !(d.path.isPrefixOf p) || (d.type = tTable &&
    (p.drop d.path.length).head? = some template && 2 ≤ (p.drop d.path.length).length)) &&
  (List.range p.length).all (fun i => p[i]? ≠ some template ||
    D.any (fun d => d.path = p.take i && d.type = tTable))

theorem fits_of_now {D : List Decl} {p : Path} (h : fitsNow D p = true) : Fits D p := by
  simp only [fitsNow, Bool.and_eq_true, decide_eq_true_eq, List.all_eq_true, Bool.not_eq_true',
    Bool.or_eq_true, List.any_eq_true, List.mem_range] at h
  obtain ⟨⟨⟨h1, h2⟩, h3⟩, h4⟩ := h
  refine ⟨h1, fun d hd hp => ?_, fun d hd hp => ?_, fun a r hp => ?_⟩
  · have := h2 d hd
    rw [List.isPrefixOf_iff_prefix.mpr hp] at this
    cases this
  · rcases h3 d hd with h | h
    · rw [List.isPrefixOf_iff_prefix.mpr hp] at h
      cases h
    · obtain ⟨r, rfl⟩ := hp
      rw [List.drop_left] at h
      refine ⟨h.1.1, ?_⟩
      match r, h with
      | t :: u :: r, h =>
        simp only [List.head?_cons, Option.some.injEq] at h
        exact ⟨u :: r, by simp, by rw [h.1.2]⟩
      | [t], h => simp at h
      | [], h => simp at h
  · rcases h4 a.length (by rw [hp]; simp) with h | ⟨d, hd, h⟩
    · rw [hp] at h
      simp at h
    · rw [hp, List.take_left] at h
      exact ⟨d, hd, h.1, h.2⟩

/-- Whether all are declared in order. -/
def orderlyNow (D : List Decl) : Bool := (List.range D.length).all (fun i =>
  match D[i]? with
  | some d => fitsNow (D.take i) d.path
  | none => true)

theorem orderly_of_now {D : List Decl} (h : orderlyNow D = true) : Orderly D := by
  intro D1 d D2 hD
  have := List.all_eq_true.mp h D1.length (by rw [hD]; simp)
  rw [hD] at this
  simp only [List.length_append, List.length_cons, List.getElem?_append_right (Nat.le_refl _), Nat.sub_self,
    List.getElem?_cons_zero, List.take_left] at this
  exact fits_of_now this

/-- Whether rows are treated properly. -/
def saneNow (s : State) : Op → Bool
  | .addRow t _ _ =>
    match locate s.tree t with
    | some (up, n) => n.info.type = tTable && !Spec.Provider.inTemplate up
    | none => true
  | .delRow r =>
    match locate s.tree r with
    | some (i :: p :: u, _) => p.type = tTable && !Spec.Provider.inTemplate (i :: p :: u)
    | some _ => false
    | none => true
  | .register _ _ _ => false
  | _ => true

theorem sane_of_now {s : State} {op : Op} (h : saneNow s op = true) : Sane s op := by
  cases op with
  | addRow t i a =>
    intro up n hl
    simpa [saneNow, hl] using h
  | delRow r =>
    intro up n hl
    simp only [saneNow, hl] at h
    split at h
    next heq =>
      simp only [Option.some.injEq, Prod.mk.injEq] at heq
      rw [heq.1]
      simp only [Bool.and_eq_true, decide_eq_true_eq, Bool.not_eq_true'] at h
      exact ⟨⟨_, _, _, rfl, h.1⟩, h.2⟩
    · cases h
    next heq => cases heq
  | register n t cb => cases h
  | _ => trivial

/-- Run a history, checking that rows are treated properly. -/
def lifeRun (sc : Bool) : State → List (Op × Env) → Option State
  | s, [] => some s
  | s, (op, env) :: es =>
    if saneNow s op then
      match Subs.step sc s (op, env) with
      | .ok (s, _) => lifeRun sc s es
      | _ => none
    else none

theorem life_of_run {sc : Bool} {D : List Decl} : ∀ {es : List (Op × Env)} {s s' : State},
    Life sc D s → lifeRun sc s es = some s' → Life sc D s' := by
  intro es
  induction es with
  | nil => intro s s' hl h; cases h; exact hl
  | cons e es ih =>
    obtain ⟨op, env⟩ := e
    intro s s' hl h
    unfold lifeRun at h
    split at h
    next hs =>
      split at h
      next s1 o h1 => exact ih (hl.step (sane_of_now hs) h1) h
      · cases h
    · cases h

/-- `A.t.{i}.`, a table, and `A.t.{i}.p`, a property. -/
def smallModel : List Decl :=
  [⟨[65, 46, 116, 46, 123, 105, 125, 46], tTable, {}⟩,
   ⟨[65, 46, 116, 46, 123, 105, 125, 46, 112], tProperty, { get := some 1 }⟩]

/-- A history of such a provider. -/
def smallLife (es : List (Op × Env)) : Option State :=
  lifeRun false { State.init with tree := declare smallModel } es

theorem smallLife_life {es : List (Op × Env)} {s : State} (h : smallLife es = some s) :
    Life false smallModel s :=
  life_of_run (.start (orderly_of_now (by decide +kernel))) h

/-- `A.t.*.p` -/
def anyRowName : Bytes := [65, 46, 116, 46, 42, 46, 112]

/-- A row, a subscription of the property in all rows, another row, and a subscription with a filter. -/
def smallHistory : List (Op × Env) :=
  [(.addRow 2 1 none, agreeable), (.subscribe (plainSub [76] anyRowName), agreeable),
   (.addRow 2 2 none, agreeable),
   (.subscribe { plainSub [77] row2 with filter := .relation Filter.opGT (.int32 3) }, agreeable)]

example : ∃ s, smallLife smallHistory = some s ∧ Life false smallModel s ∧
    s.subs.map (fun x => (x.key.listener, x.instances)) = [([76], [6, 8]), ([77], [8])] := by
  have h : (smallLife smallHistory).map (fun s => s.subs.map (fun x => (x.key.listener, x.instances))) =
      some [([76], [6, 8]), ([77], [8])] := by decide +kernel
  cases hs : smallLife smallHistory with
  | none => rw [hs] at h; cases h
  | some s =>
    rw [hs] at h
    exact ⟨s, rfl, smallLife_life hs, by simpa using h⟩

/-! ## Finding declared elements -/

/-- C48. Each element declared in order is found, with its type and handlers, under its name; below tables
any row will do.
Partial: for declarations in order, each table before what is below it, nothing twice
(`C48_late_table_fails`, `C48_again_fails`). -/
theorem C48_declared_found_partial {D : List Decl} (hD : Orderly D) {d : Decl} (hd : d ∈ D) {name : Bytes}
    (hn : Names D [] (pieces name) d.path) :
    ∃ n, retrieve (declare D) name = some n ∧ n.info.type = d.type ∧ n.info.cb.get = d.cb.get ∧
      n.info.cb.set = d.cb.set ∧ n.info.cb.sub = d.cb.sub := by
  have ht := tidy_declare hD
  rw [← tokens_pieces] at hn
  have hne : d.path ≠ [] := by
    obtain ⟨a, b, hab⟩ := List.append_of_mem hd
    exact (hD a d b hab).nonempty
  have hts : tokens name ≠ [] := by
    intro h
    rw [h] at hn
    generalize d.path = p at hn hne
    cases hn
    exact hne rfl
  obtain ⟨n, hn'⟩ := Option.isSome_iff_exists.mp
    ((ht.present d.path).mpr (.inr ⟨d, hd, .inl (List.prefix_refl _)⟩))
  obtain ⟨h1, h2⟩ := ht.declared d hd n hn'
  refine ⟨n, ?_, h1, ?_⟩
  · have := retrieve_names ht hn (n := (declare D).root) rfl
    unfold retrieve
    split
    next h => exact absurd h hts
    · rw [this, hn']
  · rw [h2]
    split <;> exact ⟨rfl, rfl, rfl⟩

/-- C48. What is found under a name, other than a mere level of the hierarchy, was declared with this name,
with the type and handlers found.
Partial: for declarations in order. -/
theorem C48_only_declared_partial {D : List Decl} (hD : Orderly D) {name : Bytes} {n : Node}
    (h : retrieve (declare D) name = some n) (ht : n.info.type ≠ tObject) :
    ∃ d ∈ D, Names D [] (pieces name) d.path ∧ n.info.type = d.type ∧ n.info.cb.get = d.cb.get ∧
      n.info.cb.set = d.cb.set ∧ n.info.cb.sub = d.cb.sub := by
  have htd := tidy_declare hD
  rw [← tokens_pieces]
  obtain ⟨us, hus⟩ := names_total D (tokens name) []
  have hr := retrieve_names htd hus (n := (declare D).root) rfl
  have hn : nodeOf us (declare D).root = some n := by
    unfold retrieve at h
    split at h
    · cases h
    · rw [← hr, h]
  have : ∃ d ∈ D, d.path = us := by
    apply Classical.byContradiction
    intro hno
    exact ht (htd.undeclared us n (fun d hd he => hno ⟨d, hd, he⟩) hn)
  obtain ⟨d, hd, rfl⟩ := this
  obtain ⟨h1, h2⟩ := htd.declared d hd n hn
  refine ⟨d, hd, hus, h1, ?_⟩
  rw [h2]
  split <;> exact ⟨rfl, rfl, rfl⟩

/-- C48. Levels of the hierarchy found under a name lead to a declared element.
Partial: for declarations in order. -/
theorem C48_levels_partial {D : List Decl} (hD : Orderly D) {name : Bytes} {n : Node}
    (h : retrieve (declare D) name = some n) :
    ∃ us, Names D [] (pieces name) us ∧ ∃ d ∈ D, us <+: d.path ∨ (d.type = tTable ∧ us = d.path ++ [template]) := by
  have htd := tidy_declare hD
  rw [← tokens_pieces]
  obtain ⟨us, hus⟩ := names_total D (tokens name) []
  have hr := retrieve_names htd hus (n := (declare D).root) rfl
  refine ⟨us, hus, ?_⟩
  unfold retrieve at h
  split at h
  · cases h
  next hts =>
    rw [hr] at h
    rcases (htd.present us).mp (by rw [h]; rfl) with rfl | h'
    · generalize htk : tokens name = ts at hus hts
      cases hus
      exact (hts rfl).elim
    · exact h'

example : Orderly smallModel ∧ Names smallModel [] (pieces row1) [[65], [116], template, [112]] := by
  refine ⟨orderly_of_now (by decide +kernel), ?_⟩
  have htk : pieces row1 = [[65], [116], [49], [112]] := by decide +kernel
  rw [htk]
  refine .step ?_ (.step ?_ (.row ?_ (.step ?_ .nil))) <;> decide +kernel

/-- C48 (failure). An element declared below what is later declared a table is not found any more: here
`A.t.x`, then the table `A.t.{i}.`. -/
theorem C48_late_table_fails :
    let D : List Decl := [⟨[65, 46, 116, 46, 120], tProperty, {}⟩, ⟨[65, 46, 116, 46, 123, 105, 125, 46], tTable, {}⟩]
    (retrieve (declare (D.take 1)) [65, 46, 116, 46, 120]).isSome = true ∧
      ((retrieve (declare D) [65, 46, 116, 46, 120]).map (fun n => (n.info.type, n.info.name))) =
        some (tObject, template) := by
  decide +kernel

/-- C48 (failure). Declaring a table again makes everything below it unreachable. -/
theorem C48_again_fails :
    (retrieve (declare smallModel) row1).isSome = true ∧
      (retrieve (declare (smallModel ++ smallModel.take 1)) row1).isSome = false := by
  decide +kernel

/-! ## What a subscription covers -/

/-- C62. At any time a subscription covers exactly the elements its event name addresses, of the same kinds
as the element it was made for, whether their rows existed at the time of the request or were added later.
Partial: for event names as described at `C47_match_partial`; the element the request was made for must
still be there (`C62_dangling_fails`). -/
theorem C62_covers_partial {sc : Bool} {D s} (hl : Life sc D s) {x : Sub} (hx : x ∈ s.subs)
    {e : Nat} {up : List Info} {n : Node} (he : x.element = some e) (hel : locate s.tree e = some (up, n))
    {ps : List Part} {dotAtEnd : Bool} (hname : x.key.eventName = written ps dotAtEnd) (hps : ps ≠ [])
    (hw : AllProper ps (path up)) (hlen : 2 ≤ (written ps dotAtEnd).length)
    {m : Nat} {el : List Info} {n' : Node} (hm : locate s.tree m = some (el, n'))
    (hkind : n'.info.type ≠ tObject) (hreal : Spec.Provider.inTemplate el.tail = false)
    (hal : (∃ a, .rowCalled a ∈ ps) → ∀ st ∈ path el, st.row = true → st.alias ≠ none) :
    m ∈ x.instances ↔ up.map (·.type) = el.map (·.type) ∧ addresses ps (path el) = true := by
  obtain ⟨hi, hc⟩ := life_cover hl
  obtain ⟨c, h1, h2, h3, h4⟩ := hc.cov x hx
  obtain ⟨c', up', e', k1, k2, k3, k4, k5⟩ := hc.bound x hx
  rw [h1] at k1
  cases k1
  rw [he] at k2
  cases k2
  obtain ⟨-, -, -, -, hmem⟩ := locate_sound hel
  have hup := k5 up hmem
  subst hup
  obtain ⟨-, u, hu, -, hmm⟩ := locate_sound hm
  obtain ⟨c', hcr, -, hmt, -⟩ := C47_match_partial ps dotAtEnd up el hps hw hlen hal
  rw [hname, hcr] at k3
  cases k3
  rw [h4 m, ← hmt]
  have hvis : (m, el) ∈ Vis s.tree := by
    refine List.mem_filter.mpr ⟨hmm, ?_⟩
    rw [spec_inTemplate] at hreal
    simp only [picked, hreal, Bool.not_false, Bool.and_true, decide_eq_true_eq]
    rw [hu]
    simpa using hkind
  constructor
  · rintro ⟨l, hl', hm'⟩
    rw [← nodup_fst hc.wf.nodup (List.mem_filter.mp hl').1 hmm]
    exact hm'
  · exact fun h => ⟨el, hvis, h⟩

/-- `A.t.*.p` in parts. -/
def anyRowParts : List Part := [.exactly [65], .exactly [116], .anyRow, .exactly [112]]

/-- The subscription of the property in all rows was made for `A.t.{i}.p` and covers `A.t.2.p`, added
later. -/
example :
    (smallLife smallHistory).map (fun s => (s.subs.head?.map (fun x => (x.element, x.instances)),
        (locate s.tree 4).map (fun r => path r.1), (locate s.tree 8).map (fun r => path r.1))) =
      some (some (some 4, [6, 8]),
        some [⟨[65], none, false⟩, ⟨[116], none, false⟩, ⟨template, none, true⟩, ⟨[112], none, false⟩],
        some [⟨[65], none, false⟩, ⟨[116], none, false⟩, ⟨[50], none, true⟩, ⟨[112], none, false⟩]) ∧
    anyRowName = written anyRowParts false ∧
    AllProper anyRowParts
      [⟨[65], none, false⟩, ⟨[116], none, false⟩, ⟨template, none, true⟩, ⟨[112], none, false⟩] := by
  refine ⟨by decide +kernel, by decide +kernel, ?_⟩
  simp [anyRowParts, AllProper, Spec.EventName.Proper]

/-! ## Who gets an event -/

theorem subs_of_addrs {s : State} : ∀ {as : List Nat}, (∀ a ∈ as, ∃ x ∈ s.subs, x.addr = a) →
    ∃ xs : List Sub, xs.map (·.addr) = as ∧ ∀ x ∈ xs, x ∈ s.subs := by
  intro as
  induction as with
  | nil => intro _; exact ⟨[], rfl, by simp⟩
  | cons a as ih =>
    intro h
    obtain ⟨x, hx, hxa⟩ := h a (by simp)
    obtain ⟨xs, h1, h2⟩ := ih (fun b hb => h b (by simp [hb]))
    refine ⟨x :: xs, by simp [h1, hxa], fun y hy => ?_⟩
    rcases List.mem_cons.mp hy with rfl | hy
    · exact hx
    · exact h2 y hy

theorem wants_of_entitled {sc : Bool} {k : EventKind} {f : Filter.Filter} {g g' : Option Bool} {p : Bool}
    (h : entitled sc k f g = .ok (p, g')) : (p = true ↔ Wants sc k f) ∧
      (p = true → f ≠ .null → ∀ new old, k = .valueChanged (some new) (some old) →
        ∃ b, Filter.apply sc f new = .ok b ∧ g' = some b) := by
  unfold entitled at h
  split at h
  next new old =>
    rcases Decidable.em (f = .null) with hf | hf
    · rw [if_pos hf] at h
      cases h
      exact ⟨by simp [Wants, hf], fun _ hn => absurd hf hn⟩
    · rw [if_neg hf] at h
      obtain ⟨a, ha, h⟩ := res_bind_ok h
      obtain ⟨b, hb, h⟩ := res_bind_ok h
      simp only [Res.pure_eq, Res.ok.injEq] at h
      rcases Decidable.em (a = b) with hab | hab
      · rw [if_pos hab] at h
        cases h
        refine ⟨?_, by simp⟩
        simp [Wants, hf, ha, hb, hab]
      · rw [if_neg hab] at h
        cases h
        refine ⟨by simp [Wants, hf, ha, hb, hab], fun _ _ new' old' he => ?_⟩
        cases he
        exact ⟨a, ha, rfl⟩
  next hno =>
    cases h
    refine ⟨?_, fun _ _ new old he => absurd he (hno new old)⟩
    simp only [true_iff]
    unfold Wants
    split
    next new old => exact absurd rfl (hno new old)
    · trivial

/-- C46. When an event has been published on an element, each subscription that covers the element and is
entitled to the event (see `Wants`) has been sent it exactly once, nobody else, under its own event name
and id; those with a filter are told its new answer in the field `filter`; and the answer is success
exactly if `rbus_publishSubscriberEvent` answered success for every message (which does not tell that it was sent, see
`C91_unsent_fails`).
Partial: subscribers without filter see no field `filter` only if no subscriber of the element has a filter
(`C46_filter_field_fails`). -/
theorem C46_publish_partial {sc : Bool} {D s} (hl : Life sc D s) {name : Bytes} {k : EventKind}
    {net : Nat → Bool} {ms : List Msg} {r : Nat} {el : Node} (hel : retrieveInstance s.tree name = some el)
    (hp : publish sc s name k net = .ok (ms, r)) (hr : r = eOk ∨ r = eBusError) :
    (ms.map (·.subscriptionId)).Nodup ∧
    (∀ x ∈ s.subs, (∃ m ∈ ms, m.subscriptionId = x.subscriptionId) ↔
      el.id ∈ x.instances ∧ x.key.rawData = false ∧ Wants sc k x.key.filter) ∧
    (∀ m ∈ ms, ∃ x ∈ s.subs, m.subscriptionId = x.subscriptionId ∧ m.listener = x.key.listener ∧
      m.eventName = x.key.eventName ∧ m.componentId = x.key.componentId ∧
      (x.key.filter ≠ .null → ∀ new old, k = .valueChanged (some new) (some old) →
        ∃ b, Filter.apply sc x.key.filter new = .ok b ∧ m.filter = some b)) ∧
    ((∀ x ∈ s.subs, el.id ∈ x.instances → x.key.filter = .null) → ∀ m ∈ ms, m.filter = none) ∧
    (r = eOk ↔ ∀ m ∈ ms, net m.subscriptionId = true) := by
  obtain ⟨hi, hc⟩ := life_cover hl
  obtain ⟨hnd, hatt⟩ := hc.att el.id
  have hdel : ∃ ok, deliver sc s k net none (s.attached el.id) = .ok (ms, ok) ∧
      r = if ok then eOk else eBusError := by
    unfold publish at hp
    rw [hel] at hp
    simp only at hp
    split at hp
    · cases hp
      rcases hr with hr | hr <;> cases hr
    · split at hp
      · cases hp
        rcases hr with hr | hr <;> cases hr
      · cases hp
        rcases hr with hr | hr <;> cases hr
      · obtain ⟨⟨ms', ok⟩, h1, h2⟩ := res_bind_ok hp
        cases h2
        exact ⟨ok, h1, rfl⟩
  obtain ⟨ok, hdel, hrok⟩ := hdel
  obtain ⟨xs, hxs, hsub⟩ := subs_of_addrs (s := s) (as := s.attached el.id)
    (fun a ha => by obtain ⟨x, h1, h2, -⟩ := (hatt a).mp ha; exact ⟨x, h1, h2⟩)
  have hmem : ∀ x ∈ s.subs, (x ∈ xs ↔ el.id ∈ x.instances) := by
    intro x hx
    constructor
    · intro h
      have : x.addr ∈ s.attached el.id := by rw [← hxs]; exact List.mem_map_of_mem h
      obtain ⟨y, hy, hya, hyi⟩ := (hatt _).mp this
      rw [← map_inj hi.addrs hy hx hya]
      exact hyi
    · intro h
      have : x.addr ∈ s.attached el.id := (hatt _).mpr ⟨x, hx, rfl, h⟩
      rw [← hxs] at this
      obtain ⟨y, hy, hya⟩ := List.mem_map.mp this
      rw [← map_inj hi.addrs (hsub y hy) hx hya]
      exact hy
  have hids : ∀ x ∈ s.subs, ∀ y ∈ s.subs, x.subscriptionId = y.subscriptionId → x = y := by
    intro x hx y hy he
    exact map_inj hi.ids_nodup hx hy he
  rw [← hxs] at hdel
  obtain ⟨pub, d1, d2, d3, d4, d5⟩ := deliver_spec (fun x hx => byAddr_mem hi.addrs (hsub x hx) rfl) hdel
  have hxnd : (xs.map (·.addr)).Nodup := by rw [hxs]; exact hnd
  have hidnd : (xs.map (·.subscriptionId)).Nodup := by
    rw [List.nodup_iff_pairwise_ne, List.pairwise_map] at hxnd ⊢
    refine hxnd.imp_of_mem ?_
    intro x y hx hy hne he
    exact hne (by rw [hids x (hsub x hx) y (hsub y hy) he])
  have hmsid : ms.map (·.subscriptionId) =
      (xs.filter (fun x => pub x && !x.key.rawData)).map (·.subscriptionId) := by
    have := congrArg (List.map (fun t : Bytes × Bytes × Int × Nat => t.2.2.2)) d2
    simpa [List.map_map, Function.comp_def] using this
  refine ⟨?_, ?_, ?_, ?_, ?_⟩
  · rw [hmsid]
    exact hidnd.sublist (List.filter_sublist.map _)
  · intro x hx
    have : (∃ m ∈ ms, m.subscriptionId = x.subscriptionId) ↔ x.subscriptionId ∈ ms.map (·.subscriptionId) := by
      simp
    rw [this, hmsid, ← hmem x hx]
    constructor
    · intro h
      obtain ⟨y, hy, hye⟩ := List.mem_map.mp h
      obtain ⟨h1, h2⟩ := List.mem_filter.mp hy
      have := hids y (hsub y h1) x hx hye
      subst this
      simp only [Bool.and_eq_true, Bool.not_eq_true'] at h2
      obtain ⟨g, g', hg⟩ := d1 y h1
      exact ⟨h1, h2.2, (wants_of_entitled hg).1.mp h2.1⟩
    · rintro ⟨h1, h2, h3⟩
      obtain ⟨g, g', hg⟩ := d1 x h1
      exact List.mem_map.mpr ⟨x, List.mem_filter.mpr ⟨h1, by
        rw [(wants_of_entitled hg).1.mpr h3, h2]; rfl⟩, rfl⟩
  · intro m hm
    have : (m.listener, m.eventName, m.componentId, m.subscriptionId) ∈
        ms.map (fun m => (m.listener, m.eventName, m.componentId, m.subscriptionId)) :=
      List.mem_map_of_mem (f := fun m : Msg => (m.listener, m.eventName, m.componentId, m.subscriptionId)) hm
    rw [d2] at this
    obtain ⟨x, hx, hxe⟩ := List.mem_map.mp this
    simp only [Prod.mk.injEq] at hxe
    have hx' := (List.mem_filter.mp hx).1
    refine ⟨x, hsub x hx', hxe.2.2.2.symm, hxe.1.symm, hxe.2.1.symm, hxe.2.2.1.symm, ?_⟩
    obtain ⟨y, hy, hye, g, g', hg', hg⟩ := d3 m hm
    have := hids y (hsub y hy) x (hsub x hx') (by rw [← hye, hxe.2.2.2])
    subst this
    intro hf new old hk
    obtain ⟨b, hb, hbg⟩ := (wants_of_entitled hg).2 rfl hf new old hk
    exact ⟨b, hb, hg'.trans hbg⟩
  · intro hnull
    exact d5 (fun x hx => hnull x (hsub x hx) ((hmem x (hsub x hx)).mp hx))
  · rw [← d4, hrok]
    cases ok <;> simp [eOk, eBusError]

/-- C46. Publishing never touches a subscription that is gone. -/
theorem C46_publish_defined {sc : Bool} {D s} (hl : Life sc D s) (name : Bytes) (net : Nat → Bool) :
    ∃ ms r, publish sc s name .other net = .ok (ms, r) := by
  obtain ⟨hi, hc⟩ := life_cover hl
  unfold publish
  split
  · exact ⟨_, _, rfl⟩
  next el hel =>
    split
    · exact ⟨_, _, rfl⟩
    · simp only
      have : ∀ (as : List Nat) (g : Option Bool), (∀ a ∈ as, a ∈ s.attached el.id) →
          ∃ r, deliver sc s .other net g as = .ok r := by
        intro as
        induction as with
        | nil => intro g _; exact ⟨_, rfl⟩
        | cons a as ih =>
          intro g ha
          obtain ⟨x, hx, hxa, -⟩ := ((hc.att el.id).2 a).mp (ha a (by simp))
          unfold deliver
          rw [byAddr_mem hi.addrs hx hxa]
          obtain ⟨r, hr⟩ := ih g (fun b hb => ha b (by simp [hb]))
          simp only [entitled, Res.ok_bind, hr, Res.pure_eq]
          split <;> exact ⟨_, rfl⟩
      obtain ⟨⟨ms, ok⟩, hr⟩ := this (s.attached el.id) none (fun _ h => h)
      rw [hr]
      exact ⟨_, _, rfl⟩

/-- C46. An event on an element without subscriptions is answered so. -/
theorem C46_nobody {sc : Bool} {D s} (hl : Life sc D s) {name : Bytes} {net : Nat → Bool} {k : EventKind}
    {el : Node} (hel : retrieveInstance s.tree name = some el) :
    publish sc s name k net = .ok ([], eNoSubscribers) ↔ ∀ x ∈ s.subs, el.id ∉ x.instances := by
  obtain ⟨hi, hc⟩ := life_cover hl
  have hempty : s.attached el.id = [] ↔ ∀ x ∈ s.subs, el.id ∉ x.instances := by
    rw [List.eq_nil_iff_forall_not_mem]
    constructor
    · exact fun h x hx hi => h x.addr (((hc.att el.id).2 _).mpr ⟨x, hx, rfl, hi⟩)
    · intro h a ha
      obtain ⟨x, hx, -, hxi⟩ := ((hc.att el.id).2 a).mp ha
      exact h x hx hxi
  rw [← hempty]
  unfold publish
  rw [hel]
  simp only
  constructor
  · intro h
    apply Decidable.byContradiction
    intro hne
    rw [if_neg hne] at h
    split at h
    · cases h
    · cases h
    · obtain ⟨⟨ms, ok⟩, -, h2⟩ := res_bind_ok h
      simp only [Res.pure_eq, Res.ok.injEq, Prod.mk.injEq] at h2
      have := h2.2
      split at this <;> cases this
  · intro h
    rw [if_pos h]

/-- The messages of an event, if the history is proper and the code defined. -/
def eventsSent (s : Option State) (name : Bytes) (k : EventKind) : Option (List (Bytes × Nat × Option Bool) × Nat) :=
  match s with
  | none => none
  | some s =>
    match publish false s name k (fun _ => true) with
    | .ok (ms, r) => some (ms.map (fun m => (m.listener, m.subscriptionId, m.filter)), r)
    | _ => none

example : eventsSent (smallLife smallHistory) row2 (.valueChanged (some (.int32 5)) (some (.int32 1))) =
    some ([([76], 3, none), ([77], 4, some true)], eOk) ∧
    eventsSent (smallLife smallHistory) row2 (.valueChanged (some (.int32 2)) (some (.int32 1))) =
    some ([([76], 3, none)], eOk) := ⟨by decide +kernel, by decide +kernel⟩

/-- C46 (failure). A subscriber without filter, subscribed after one with a filter, gets the other one's
field `filter` with the event. -/
theorem C46_filter_field_fails :
    eventsSent (smallLife [(.addRow 2 1 none, agreeable), (.addRow 2 2 none, agreeable),
        (.subscribe { plainSub [77] row2 with filter := .relation Filter.opGT (.int32 3) }, agreeable),
        (.subscribe (plainSub [76] row2), agreeable)]) row2
        (.valueChanged (some (.int32 5)) (some (.int32 1))) =
      some ([([77], 3, some true), ([76], 4, some true)], eOk) := by
  decide +kernel

/-- C46 (failure). Raw data events are answered with success even if no subscriber's message could be
sent. -/
theorem C46_raw_answer_fails {sc : Bool} {D s} (hl : Life sc D s) {name : Bytes} {el : Node}
    (hel : retrieveInstance s.tree name = some el) (hx : ∃ x ∈ s.subs, el.id ∈ x.instances) :
    ∃ ms, publishRaw s name (fun _ => false) true = .ok (ms, eOk) := by
  obtain ⟨hi, hc⟩ := life_cover hl
  obtain ⟨x, hx, hxi⟩ := hx
  have hne : s.attached el.id ≠ [] :=
    List.ne_nil_of_mem (((hc.att el.id).2 _).mpr ⟨x, hx, rfl, hxi⟩)
  unfold publishRaw
  rw [hel]
  simp only
  rw [if_neg hne]
  have : ∀ as : List Nat, (∀ a ∈ as, a ∈ s.attached el.id) → ∃ r, deliverRaw s (fun _ => false) as = .ok r := by
    intro as
    induction as with
    | nil => intro _; exact ⟨_, rfl⟩
    | cons a as ih =>
      intro ha
      obtain ⟨x, hx, hxa, -⟩ := ((hc.att el.id).2 a).mp (ha a (by simp))
      unfold deliverRaw
      rw [byAddr_mem hi.addrs hx hxa]
      obtain ⟨r, hr⟩ := ih (fun b hb => ha b (by simp [hb]))
      simp only [Res.ok_bind, hr, Res.pure_eq]
      split <;> exact ⟨_, rfl⟩
  obtain ⟨ms, hms⟩ := this _ (fun _ h => h)
  rw [hms]
  exact ⟨_, rfl⟩

/-! ## Deleted rows -/

/-- C33. When a row is deleted, every subscription covering an element below it is removed; the remaining
ones keep their order, and the oldest one that is removed covered an element below the row.
Partial: all subscriptions younger than that one are removed too (`C33_younger_fails`). -/
theorem C33_row_deleted_partial {sc : Bool} {D s} (hl : Life sc D s) {row : Nat} {env : Env} {s' : State}
    {o : Option Nat} (hsane : Sane s (.delRow row)) (h : Subs.step sc s (.delRow row, env) = .ok (s', o))
    {up : List Info} {n : Node} (hrow : locate s.tree row = some (up, n)) :
    (∀ x ∈ s'.subs, ∀ m ∈ x.instances, m ∉ (nodesList n.children).map (·.id)) ∧
    ∃ lost, s.subs = s'.subs ++ lost ∧
      ∀ x ∈ lost.head?, ∃ m ∈ x.instances, m ∈ (nodesList n.children).map (·.id) := by
  obtain ⟨hi, hc⟩ := life_cover hl
  obtain ⟨s1, h1, h2⟩ := res_bind_ok h
  cases h2
  have hv : inTemplate up = false := by
    have := (hsane up n hrow).2
    rwa [spec_inTemplate] at this
  unfold delRow at h1
  rw [hrow] at h1
  simp only at h1
  obtain ⟨sa, ha, h1⟩ := res_bind_ok h1
  obtain ⟨sb, hb, h1⟩ := res_bind_ok h1
  cases h1
  have hf := rowPolling_frame ha
  obtain ⟨hd1, -⟩ := dropAll_ok (hi.frame hf) hb
  rw [hf.subs] at hd1
  obtain ⟨-, u, hu, hsubl, hmem⟩ := locate_sound hrow
  refine ⟨?_, ?_⟩
  · intro x hx m hm hmem'
    have hx' : x ∈ sb.subs := hx
    rw [hd1] at hx'
    have hno := List.all_eq_true.mp (List.all_takeWhile (l := s.subs)
      (p := fun x => decide (∀ n' ∈ (visitList up n.children).map (·.1), n' ∉ x.instances))) x hx'
    simp only [decide_eq_true_eq] at hno
    have hxs : x ∈ s.subs := (List.takeWhile_sublist _).subset hx'
    refine hno m ?_ hm
    obtain ⟨c, -, -, -, k4⟩ := hc.cov x hxs
    obtain ⟨l, hl', -⟩ := (k4 m).mp hm
    rw [← nodesList_ids up] at hmem'
    obtain ⟨e, he, rfl⟩ := List.mem_map.mp hmem'
    have hle := nodup_fst hc.wf.nodup (List.mem_filter.mp hl').1
      (hsubl.subset (show (e.1, e.2) ∈ _ by rw [flat_eq, ← hu]; simp [he]))
    subst hle
    rw [visitList_flat up hv]
    exact List.mem_map.mpr ⟨e, List.mem_filter.mpr ⟨he, (List.mem_filter.mp hl').2⟩, rfl⟩
  · obtain ⟨r, hr1, hr2⟩ := takeWhile_split
      (fun x : Sub => decide (∀ n' ∈ (visitList up n.children).map (fun e : Nat × List Info => e.1), n' ∉ x.instances)) s.subs
    refine ⟨r, by rw [← hd1] at hr1; exact hr1, fun x hx => ?_⟩
    have := hr2 x hx
    simp only [decide_eq_false_iff_not, Classical.not_forall, Decidable.not_not] at this
    obtain ⟨m, hm1, hm2⟩ := this
    refine ⟨m, hm2, ?_⟩
    rw [visitList_flat up hv] at hm1
    rw [← nodesList_ids up]
    exact (List.filter_sublist.map _).subset hm1

/-- C33. If the subscriptions covering elements below the row are the youngest ones, exactly these are
removed. -/
theorem C33_exact_if_youngest {sc : Bool} {D s} (hl : Life sc D s) {row : Nat} {env : Env} {s' : State}
    {o : Option Nat} (hsane : Sane s (.delRow row)) (h : Subs.step sc s (.delRow row, env) = .ok (s', o))
    {up : List Info} {n : Node} (hrow : locate s.tree row = some (up, n)) {old young : List Sub}
    (hs : s.subs = old ++ young)
    (hold : ∀ x ∈ old, ∀ m ∈ x.instances, m ∉ (nodesList n.children).map (·.id))
    (hyoung : ∀ x ∈ young, ∃ m ∈ x.instances, m ∈ (nodesList n.children).map (·.id)) :
    s'.subs = old := by
  obtain ⟨h1, lost, h2, h3⟩ := C33_row_deleted_partial hl hsane h hrow
  rw [hs] at h2
  rcases List.append_eq_append_iff.mp h2 with ⟨a, ha, hb⟩ | ⟨a, ha, hb⟩
  · -- the survivors extend `old`
    cases a with
    | nil => simpa using ha
    | cons x a =>
      obtain ⟨m, hm1, hm2⟩ := hyoung x (by rw [hb]; simp)
      exact absurd hm2 (h1 x (by rw [ha]; simp) m hm1)
  · cases a with
    | nil => simpa using ha.symm
    | cons x a =>
      obtain ⟨m, hm1, hm2⟩ := h3 x (by rw [hb]; simp)
      exact absurd hm2 (hold x (by rw [ha]; simp) m hm1)

/-- Two rows, a subscription of everything in the second, and one of the first. -/
example :
    let s := smallLife [(.addRow 2 1 none, agreeable), (.addRow 2 2 none, agreeable),
      (.subscribe (plainSub [76] row2), agreeable), (.subscribe (plainSub [77] row1), agreeable)]
    (s.map fun s => (saneNow s (.delRow 5), (locate s.tree 5).map (fun r => (nodesList r.2.children).map (·.id)),
      s.subs.map (·.instances))) = some (true, some [6], [[8], [6]]) := by
  decide +kernel

/-- Listeners and instances after a history. -/
def survivors (s : Option State) : Option (List (Bytes × List Nat × Nat)) :=
  s.map (fun s => s.subs.map (fun x => (x.key.listener, x.instances, x.subscriptionId)))

/-- C33 (failure). Deleting the first row also removes the younger subscription of the second row. -/
theorem C33_younger_fails :
    survivors (smallLife [(.addRow 2 1 none, agreeable), (.addRow 2 2 none, agreeable),
        (.subscribe (plainSub [76] row1), agreeable), (.subscribe (plainSub [77] row2), agreeable)]) =
      some [([76], [6], 3), ([77], [8], 4)] ∧
    survivors (smallLife [(.addRow 2 1 none, agreeable), (.addRow 2 2 none, agreeable),
        (.subscribe (plainSub [76] row1), agreeable), (.subscribe (plainSub [77] row2), agreeable),
        (.delRow 5, agreeable)]) = some [] := ⟨by decide +kernel, by decide +kernel⟩

/-- C33 (failure). After that, deleting the second row leaves the polling thread with a record of a freed
element. -/
theorem C33_polling_freed_fails :
    (smallLife [(.addRow 2 1 none, agreeable), (.addRow 2 2 none, agreeable),
        (.subscribe (plainSub [76] row1), agreeable), (.subscribe (plainSub [77] row2), agreeable),
        (.delRow 5, agreeable), (.delRow 7, agreeable)]).map
      (fun s => (s.polled, s.polled.map (fun n => (locate s.tree n).isSome), s.tree.freed)) =
    some ([8], [false], [5, 6, 7, 8]) := by
  decide +kernel

/-- A table within a table: `A.t.{i}.`, `A.t.{i}.u.{i}.` and `A.t.{i}.u.{i}.q`. -/
def nestedModel : List Decl :=
  [⟨[65, 46, 116, 46, 123, 105, 125, 46], tTable, {}⟩,
   ⟨[65, 46, 116, 46, 123, 105, 125, 46, 117, 46, 123, 105, 125, 46], tTable, {}⟩,
   ⟨[65, 46, 116, 46, 123, 105, 125, 46, 117, 46, 123, 105, 125, 46, 113], tProperty, { get := some 1 }⟩]

/-- `A.t.1.u.*.q` -/
def nestedName : Bytes := [65, 46, 116, 46, 49, 46, 117, 46, 42, 46, 113]

/-- Row 1, a subscription of `A.t.1.u.*.q` while that inner table is empty, and the row deleted. -/
def nestedHistory : List (Op × Env) :=
  [(.addRow 2 1 none, agreeable), (.subscribe (plainSub [76] nestedName), agreeable), (.delRow 7, agreeable)]

/-- C62 (failure). A subscription for rows of an inner table that is empty stays when the outer row is
deleted, with a reference to a freed element; adding an outer row then reads freed memory. -/
theorem C62_dangling_fails :
    orderlyNow nestedModel = true ∧
    (lifeRun false { State.init with tree := declare nestedModel } nestedHistory).map
      (fun s => (s.subs.map (fun x => (x.element, x.element.map (fun e => (locate s.tree e).isSome))),
        saneNow s (.addRow 2 2 none),
        match Subs.step false s (.addRow 2 2 none, agreeable) with | .ub => true | _ => false)) =
      some ([(some 10, some false)], true, true) := ⟨by decide +kernel, by decide +kernel⟩

/-! ## Subscriptions stay -/

/-- C61. A subscription stays, with its id, through the requests of others, refused requests and the loss of
other consumers' connections. -/
theorem C61_stays {sc : Bool} {h s} (hh : History sc h s) {op : Op} {env : Env} {s' : State} {o : Option Nat}
    (hs : Subs.step sc s (op, env) = .ok (s', o)) {x : Sub} (hx : x ∈ s.subs)
    (hop : match op with
      | .subscribe _ => True
      | .unsubscribe k => ¬ SameKey sc x.key k
      | .disconnect l => x.key.listener ≠ l
      | _ => False) : x ∈ s'.subs := by
  cases op with
  | subscribe k =>
    obtain ⟨⟨s1, r⟩, h1, h2⟩ := res_bind_ok hs
    cases h2
    rcases request_cases h1 with ⟨rfl, -⟩ | ⟨el, -, h1⟩
    · exact hx
    · cases impl_added h1 with
      | refused hf => rw [hf.subs]; exact hx
      | rawTrace hm hf => rw [hf.subs, hm.subs]; simp [hx]
      | made hm hf => rw [hf.subs, hm.subs]; simp [hx]
  | unsubscribe k =>
    obtain ⟨⟨s1, r⟩, h1, h2⟩ := res_bind_ok hs
    cases h2
    rcases C28_unsubscribe_removes hh hs with ⟨-, h3⟩ | ⟨a, y, b, h3, h4, h5, -⟩
    · rw [h3]; exact hx
    · rw [h3] at hx
      rw [h4]
      simp only [List.mem_append, List.mem_cons] at hx ⊢
      rcases hx with hx | rfl | hx
      · exact .inl hx
      · exact absurd h5 hop
      · exact .inr hx
  | disconnect l =>
    obtain ⟨s1, h1, h2⟩ := res_bind_ok hs
    cases h2
    have ho := disconnectFrom_others (history_inv hh) h1
    have : x ∈ s.subs.filter (fun x => x.key.listener ≠ l) := List.mem_filter.mpr ⟨hx, by simpa using hop⟩
    rw [← ho.2] at this
    exact (List.mem_filter.mp this).1
  | addRow => exact hop.elim
  | delRow => exact hop.elim
  | register => exact hop.elim

/-- C61. When a row is added, a subscription stays, with its id, possibly covering more.
Partial: not if its event name begins with the row's name as text (`C61_new_id_fails`, `C61_lost_fails`). -/
theorem C61_row_added_partial {sc : Bool} {D s} (hl : Life sc D s) {t i : Nat} {al : Option Bytes} {env : Env}
    {s' : State} {o : Option Nat} (hsane : Sane s (.addRow t i al))
    (h : Subs.step sc s (.addRow t i al, env) = .ok (s', o)) {x : Sub} (hx : x ∈ s.subs)
    (hname : ∀ up n, locate s.tree t = some (up, n) →
      ¬ dotted (n.info.full ++ [decimal i]) <+: x.key.eventName) :
    ∃ y ∈ s'.subs, y.key = x.key ∧ y.subscriptionId = x.subscriptionId ∧ y.addr = x.addr ∧
      y.element = x.element ∧ y.autoPublish = x.autoPublish := by
  obtain ⟨hi, hc⟩ := life_cover hl
  obtain ⟨s1, h1, h2⟩ := res_bind_ok h
  cases h2
  rcases addRow_mid hc (fun up n hl => by
    have := hsane up n hl
    rwa [spec_inTemplate] at this) h1 with rfl | ⟨up, n, s2, hloc, hc2, hal, h⟩
  · exact ⟨x, hx, rfl, rfl, rfl, rfl, rfl⟩
  · have hmem : ({ x with instances := [] } : Sub) ∈ s.subs.map (fun x => { x with instances := [] }) :=
      List.mem_map_of_mem (f := fun x : Sub => { x with instances := [] }) hx
    have hal' : s2.subs.map (fun x => { x with instances := [] }) =
        s.subs.map (fun x => { x with instances := [] }) := hal
    rw [← hal'] at hmem
    obtain ⟨y, hy, hyx⟩ := List.mem_map.mp hmem
    simp only [Sub.mk.injEq] at hyx
    have hk : y.key = x.key := hyx.2.1
    refine ⟨y, ?_, hk, hyx.2.2.2.2.2.2, hyx.1, hyx.2.2.2.2.1, hyx.2.2.1⟩
    refine resubscribeRow_keeps (fun _ hx => hx) hc2.addrs hc2.addrs hc2 h y hy ?_
    rw [hk]
    have hft : ∀ p : Path, fullText p = dotted p := by
      intro p
      induction p with
      | nil => rfl
      | cons a p ih =>
        cases p with
        | nil => rfl
        | cons b p => simp only [fullText, dotted, ih, Element.dot]
    rw [hft]
    exact hname up n hloc

/-- `A.t.10.p` -/
def row10 : Bytes := [65, 46, 116, 46, 49, 48, 46, 112]

example : survivors (smallLife [(.addRow 2 1 none, agreeable), (.subscribe (plainSub [76] anyRowName), agreeable),
      (.addRow 2 2 none, agreeable)]) = some [([76], [6, 8], 3)] ∧
    ¬ dotted [[65], [116], [50]] <+: anyRowName := ⟨by decide +kernel, by decide +kernel⟩

/-- C61 (failure). Adding row 1 replaces a subscription of row 10 by a new one with another id; raw data
events go by the id. -/
theorem C61_new_id_fails :
    survivors (smallLife [(.addRow 2 10 none, agreeable), (.subscribe (plainSub [76] row10), agreeable)]) =
      some [([76], [6], 3)] ∧
    survivors (smallLife [(.addRow 2 10 none, agreeable), (.subscribe (plainSub [76] row10), agreeable),
      (.addRow 2 1 none, agreeable)]) = some [([76], [6], 4)] := ⟨by decide +kernel, by decide +kernel⟩

/-- `A.t.{i}.` and an event `A.t.{i}.p` whose subscriptions are up to a handler. -/
def askedModel : List Decl :=
  [⟨[65, 46, 116, 46, 123, 105, 125, 46], tTable, {}⟩,
   ⟨[65, 46, 116, 46, 123, 105, 125, 46, 112], tEvent, { sub := some 1 }⟩]

/-- A handler that refuses. -/
def refusing : Env := ⟨fun _ _ auto => (1, auto), fun _ => true⟩

/-- C61 (failure). If the provider's handler refuses at that moment, for example because it allows one
subscription at a time, the subscription is gone without the consumer being told; the cache file still has
it. -/
theorem C61_lost_fails :
    orderlyNow askedModel = true ∧
    (lifeRun false { State.init with tree := declare askedModel }
      [(.addRow 2 10 none, agreeable), (.subscribe (plainSub [76] row10), agreeable),
       (.addRow 2 1 none, refusing)]).map (fun s => (s.subs.length, s.cache)) =
      some (0, [plainSub [76] row10]) := ⟨by decide +kernel, by decide +kernel⟩

end Verif.Props
