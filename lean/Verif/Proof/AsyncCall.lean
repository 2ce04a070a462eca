import Verif.Spec.AsyncCall
import Verif.Proof.Exec

/-!
# Proofs about asynchronous calls
-/

namespace Verif.Proof.AsyncCall

open Verif Verif.AsyncCall Verif.Spec.AsyncCall

theorem calls_snoc (h : List (Event × Out)) (x) : calls (h ++ [x]) = note (calls h) x := by simp [calls]
theorem mine_snoc (o) (h : List (Event × Out)) (x) : mine o (h ++ [x]) = own o (mine o h) x := by simp [mine]
theorem content_snoc (o) (h : List (Event × Out)) (x) : content (h ++ [x]) o = put o (content h o) x := by
  simp [content]

/-- The callback's parameters. -/
def Stage.out : Stage → Option Nat
  | .inside o => some o
  | _ => none

/-- A thread as a call. -/
def toCall (x : Job) : Call := ⟨x.id, x.handle, x.name, x.params, Stage.out x.stage⟩

/-- How many references the threads have. -/
def uses (o : Nat) (l : List Job) : Nat :=
  l.countP (fun x => x.params = some o) + l.countP (fun x => Stage.out x.stage = some o)

/-- One if so. -/
def one (p : Prop) [Decidable p] : Nat := if p then 1 else 0

theorem uses_append (o : Nat) (l : List Job) (x : Job) :
    uses o (l ++ [x]) = uses o l + one (x.params = some o) + one (Stage.out x.stage = some o) := by
  simp only [uses, List.countP_append, List.countP_cons, List.countP_nil, one, decide_eq_true_eq]
  omega

theorem uses_cons (o : Nat) (l : List Job) (x : Job) :
    uses o (x :: l) = uses o l + one (x.params = some o) + one (Stage.out x.stage = some o) := by
  simp only [uses, List.countP_cons, one, decide_eq_true_eq]
  omega

theorem filter_id {l : List Job} {j : Nat} (h : ∀ x ∈ l, x.id ≠ j) : l.filter (fun y => y.id != j) = l := by
  rw [List.filter_eq_self]
  intro x hx
  simp [h x hx]

theorem map_id' {l : List Job} {j : Nat} {st : Stage} (h : ∀ x ∈ l, x.id ≠ j) :
    l.map (fun x => if x.id = j then { x with stage := st } else x) = l := by
  conv => rhs; rw [← List.map_id l]
  apply List.map_congr_left
  intro x hx
  simp [h x hx]

theorem uses_filter (o : Nat) {l : List Job} (hn : (l.map (·.id)).Nodup) {x : Job} (hx : x ∈ l) :
    uses o l = uses o (l.filter (fun y => y.id != x.id)) + one (x.params = some o) +
      one (Stage.out x.stage = some o) := by
  induction l with
  | nil => simp at hx
  | cons y l ih =>
    simp only [List.map_cons, List.nodup_cons, List.mem_map, not_exists, not_and] at hn
    rcases List.mem_cons.mp hx with rfl | hx
    · have : (l.filter (fun y => y.id != x.id)) = l := filter_id (fun z hz => hn.1 z hz)
      simp [this, uses_cons]
    · have hne : y.id ≠ x.id := fun e => hn.1 x hx e.symm
      rw [List.filter_cons, if_pos (by simpa using hne), uses_cons, uses_cons, ih hn.2 hx]
      omega

theorem uses_move (o : Nat) {l : List Job} (hn : (l.map (·.id)).Nodup) {x : Job} (hx : x ∈ l) (st : Stage) :
    uses o (l.map (fun y => if y.id = x.id then { y with stage := st } else y)) +
      one (Stage.out x.stage = some o) = uses o l + one (Stage.out st = some o) := by
  induction l with
  | nil => simp at hx
  | cons y l ih =>
    simp only [List.map_cons, List.nodup_cons, List.mem_map, not_exists, not_and] at hn
    rcases List.mem_cons.mp hx with rfl | hx
    · rw [List.map_cons, map_id' (fun z hz => hn.1 z hz)]
      simp only [if_true, uses_cons]
      omega
    · have hne : y.id ≠ x.id := fun e => hn.1 x hx e.symm
      have := ih hn.2 hx
      simp only [List.map_cons, hne, if_false, uses_cons]
      omega

theorem uses_strand (o : Nat) (l : List Job) : uses o (l.map Job.strand) = uses o l := by
  induction l with
  | nil => rfl
  | cons x l ih =>
    rw [List.map_cons, uses_cons, uses_cons, ih]
    unfold Job.strand
    by_cases h : x.stage = .waiting
    · simp [h, Stage.out]
    · simp [h]

theorem uses_pos {o : Nat} {l : List Job} {x : Job} (hx : x ∈ l) :
    one (x.params = some o) + one (Stage.out x.stage = some o) ≤ uses o l := by
  obtain ⟨a, b, rfl⟩ := List.append_of_mem hx
  clear hx
  induction a with
  | nil => rw [List.nil_append, uses_cons]; omega
  | cons y a ih => rw [List.cons_append, uses_cons]; omega

theorem map_toCall_move (l : List Job) (j : Nat) (st : Stage) :
    (l.map (fun y => if y.id = j then { y with stage := st } else y)).map toCall =
      (l.map toCall).map (fun c => if c.id = j then { c with out := Stage.out st } else c) := by
  simp only [List.map_map]
  apply List.map_congr_left
  intro x _
  by_cases h : x.id = j <;> simp [toCall, h]

theorem map_toCall_filter (l : List Job) (j : Nat) :
    (l.filter (fun y => y.id != j)).map toCall = (l.map toCall).filter (fun c => c.id != j) := by
  rw [List.filter_map]; rfl

theorem map_toCall_strand (l : List Job) : (l.map Job.strand).map toCall = l.map toCall := by
  rw [List.map_map]
  apply List.map_congr_left
  intro x _
  simp only [Function.comp_apply]
  unfold Job.strand
  by_cases h : x.stage = .waiting
  · simp [toCall, h, Stage.out]
  · simp [h]

theorem countP_calls (o : Nat) (l : List Job) :
    (l.map toCall).countP (fun c => c.params = some o) + (l.map toCall).countP (fun c => c.out = some o) =
      uses o l := by
  simp only [List.countP_map, uses]; rfl

/-- What holds without further hypotheses: the numbers, the calls, their history. -/
structure Base (s : State) (h : List (Event × Out)) : Prop where
  ids : (s.jobs.map (·.id)).Nodup
  below : ∀ x ∈ s.jobs, x.id < s.started
  calls : calls h = s.jobs.map toCall
  content : ∀ o, content h o = s.content o
  asked : ∀ j o, (Event.ask j, o) ∈ h → j < s.started
  entered : ∀ j r o, (Event.enter j r, o) ∈ h → j < s.started
  left : ∀ j o, (Event.leave j, o) ∈ h → j < s.started
  from' : ∀ x ∈ s.jobs, ∃ sec dflt, (Event.invoke x.handle x.name x.params sec dflt true, Out.started x.id) ∈ h ∧
    x.timeout = wait sec dflt
  fresh : ∀ x ∈ s.jobs, x.stage = .fresh → ∀ o, (Event.ask x.id, o) ∉ h
  sent : ∀ x ∈ s.jobs, x.stage ≠ .fresh → ∃ c, (Event.ask x.id, Out.sent x.name c x.timeout) ∈ h
  quiet : ∀ x ∈ s.jobs, Stage.out x.stage = none → ∀ r o, (Event.enter x.id r, o) ∉ h
  inside : ∀ x ∈ s.jobs, ∀ k, x.stage = .inside k → ∃ r, (Event.enter x.id r, Out.called x.handle x.name r.error k) ∈ h
  stay : ∀ x ∈ s.jobs, ∀ o, (Event.leave x.id, o) ∉ h

theorem job_some {s : State} {j : Nat} {x : Job} (h : s.job j = some x) : x ∈ s.jobs ∧ x.id = j := by
  have h1 := List.mem_of_find?_eq_some h
  have h2 := List.find?_some (p := fun y : Job => y.id == j) h
  exact ⟨h1, by simpa using h2⟩

theorem asyncTimeout_wait {dflt sec t : Int} (h : Method.asyncTimeout dflt sec = .ok t) : t = wait sec dflt := by
  unfold Method.asyncTimeout at h
  unfold wait
  split at h
  · split at h
    · injection h with h; rename_i h1 _; rw [if_pos h1]; omega
    · cases h
  · rename_i h1; injection h with h; rw [if_neg h1]; omega

theorem mem_snoc {α : Type} {l : List α} {a b : α} : a ∈ l ++ [b] ↔ a ∈ l ∨ a = b := by simp


theorem stage_out_inside {st : Stage} {k : Nat} (h : Stage.out st = some k) : st = .inside k := by
  cases st <;> simp [Stage.out] at h
  rw [h]

theorem base_init : Base init [] := by
  constructor <;> simp [init, calls, content]

theorem base_same {s s' : State} {h : List (Event × Out)} {e : Event} {out : Out} (hb : Base s h) (f : Job → Job)
    (hf : ∀ x, (f x).id = x.id ∧ (f x).handle = x.handle ∧ (f x).name = x.name ∧ (f x).params = x.params ∧
      (f x).timeout = x.timeout ∧ Stage.out (f x).stage = Stage.out x.stage ∧
      ((f x).stage = .fresh ↔ x.stage = .fresh))
    (hj : s'.jobs = s.jobs.map f) (hs : s'.started = s.started)
    (hc : ∀ o, s'.content o = put o (s.content o) (e, out)) (hn : note (calls h) (e, out) = calls h)
    (h1 : ∀ j, e ≠ .ask j) (h2 : ∀ j r, e ≠ .enter j r) (h3 : ∀ j, e ≠ .leave j) : Base s' (h ++ [(e, out)]) := by
  have mem : ∀ {x}, x ∈ s'.jobs → ∃ y ∈ s.jobs, x = f y := by
    intro x hx
    rw [hj] at hx
    obtain ⟨y, hy, rfl⟩ := List.mem_map.mp hx
    exact ⟨y, hy, rfl⟩
  constructor
  · rw [hj, List.map_map]
    have : ((fun x : Job => x.id) ∘ f) = (·.id) := funext fun x => (hf x).1
    rw [this]; exact hb.ids
  · intro x hx
    obtain ⟨y, hy, rfl⟩ := mem hx
    rw [(hf y).1, hs]; exact hb.below y hy
  · rw [calls_snoc, hn, hb.calls, hj, List.map_map]
    apply List.map_congr_left
    intro y _
    obtain ⟨a, b, c, d, _, f', _⟩ := hf y
    simp [toCall, a, b, c, d, f']
  · intro o
    rw [content_snoc, hb.content, hc]
  · intro j o hm
    rcases mem_snoc.mp hm with hm | hm
    · rw [hs]; exact hb.asked j o hm
    · injection hm with hm _; exact absurd hm.symm (h1 j)
  · intro j r o hm
    rcases mem_snoc.mp hm with hm | hm
    · rw [hs]; exact hb.entered j r o hm
    · injection hm with hm _; exact absurd hm.symm (h2 j r)
  · intro j o hm
    rcases mem_snoc.mp hm with hm | hm
    · rw [hs]; exact hb.left j o hm
    · injection hm with hm _; exact absurd hm.symm (h3 j)
  · intro x hx
    obtain ⟨y, hy, rfl⟩ := mem hx
    obtain ⟨a, b, c, d, t, _, _⟩ := hf y
    rw [a, b, c, d, t]
    obtain ⟨sec, dflt, hm, ht⟩ := hb.from' y hy
    exact ⟨sec, dflt, mem_snoc.mpr (.inl hm), ht⟩
  · intro x hx hst o hm
    obtain ⟨y, hy, rfl⟩ := mem hx
    rw [(hf y).1] at hm
    rcases mem_snoc.mp hm with hm | hm
    · exact hb.fresh y hy ((hf y).2.2.2.2.2.2.mp hst) o hm
    · injection hm with hm _; exact absurd hm.symm (h1 _)
  · intro x hx hst
    obtain ⟨y, hy, rfl⟩ := mem hx
    obtain ⟨a, b, c, d, t, _, g⟩ := hf y
    rw [a, c, t]
    obtain ⟨c', hm⟩ := hb.sent y hy (fun e => hst (g.mpr e))
    exact ⟨c', mem_snoc.mpr (.inl hm)⟩
  · intro x hx hst r o hm
    obtain ⟨y, hy, rfl⟩ := mem hx
    obtain ⟨a, _, _, _, _, g, _⟩ := hf y
    rw [a] at hm
    rcases mem_snoc.mp hm with hm | hm
    · exact hb.quiet y hy (g ▸ hst) r o hm
    · injection hm with hm _; exact absurd hm.symm (h2 _ _)
  · intro x hx k hst
    obtain ⟨y, hy, rfl⟩ := mem hx
    obtain ⟨a, b, c, _, _, g, _⟩ := hf y
    rw [a, b, c]
    have : Stage.out y.stage = some k := by rw [← g, hst]; rfl
    obtain ⟨r, hm⟩ := hb.inside y hy k (stage_out_inside this)
    exact ⟨r, mem_snoc.mpr (.inl hm)⟩
  · intro x hx o hm
    obtain ⟨y, hy, rfl⟩ := mem hx
    rw [(hf y).1] at hm
    rcases mem_snoc.mp hm with hm | hm
    · exact hb.stay y hy o hm
    · injection hm with hm _; exact absurd hm.symm (h3 _)

theorem strand_keeps (x : Job) : x.strand.id = x.id ∧ x.strand.handle = x.handle ∧ x.strand.name = x.name ∧
    x.strand.params = x.params ∧ x.strand.timeout = x.timeout ∧ Stage.out x.strand.stage = Stage.out x.stage ∧
    (x.strand.stage = .fresh ↔ x.stage = .fresh) := by
  unfold Job.strand
  by_cases h : x.stage = .waiting
  · simp [h, Stage.out]
  · simp [h]

theorem id_keeps (x : Job) : (id x).id = x.id ∧ (id x).handle = x.handle ∧ (id x).name = x.name ∧
    (id x).params = x.params ∧ (id x).timeout = x.timeout ∧ Stage.out (id x).stage = Stage.out x.stage ∧
    ((id x).stage = .fresh ↔ x.stage = .fresh) := ⟨rfl, rfl, rfl, rfl, rfl, rfl, Iff.rfl⟩

theorem base_start {s s' : State} {h : List (Event × Out)} {hd : Nat} {n : Bytes} {p : Option Nat} {sec dflt t : Int}
    (hb : Base s h) (hj : s'.jobs = s.jobs ++ [⟨s.started, hd, n, p, t, .fresh⟩]) (hs : s'.started = s.started + 1)
    (hc : s'.content = s.content) (ht : t = wait sec dflt) :
    Base s' (h ++ [(.invoke hd n p sec dflt true, .started s.started)]) := by
  have mem : ∀ {x}, x ∈ s'.jobs → x ∈ s.jobs ∨ x = ⟨s.started, hd, n, p, t, .fresh⟩ := by
    intro x hx
    rw [hj] at hx
    exact mem_snoc.mp hx
  constructor
  · rw [hj, List.map_append, List.map_cons, List.map_nil, List.nodup_append]
    refine ⟨hb.ids, by simp, ?_⟩
    intro a ha b hb' e
    obtain ⟨y, hy, rfl⟩ := List.mem_map.mp ha
    have := hb.below y hy
    simp at hb'
    omega
  · intro x hx
    rcases mem hx with hx | rfl
    · have := hb.below x hx; omega
    · simp [hs]
  · rw [calls_snoc, hb.calls, hj]
    simp [note, toCall, Stage.out]
  · intro o
    rw [content_snoc, hb.content, hc]; rfl
  · intro j o hm
    rcases mem_snoc.mp hm with hm | hm
    · have := hb.asked j o hm; omega
    · cases hm
  · intro j r o hm
    rcases mem_snoc.mp hm with hm | hm
    · have := hb.entered j r o hm; omega
    · cases hm
  · intro j o hm
    rcases mem_snoc.mp hm with hm | hm
    · have := hb.left j o hm; omega
    · cases hm
  · intro x hx
    rcases mem hx with hx | rfl
    · obtain ⟨sec, dflt, hm, ht⟩ := hb.from' x hx
      exact ⟨sec, dflt, mem_snoc.mpr (.inl hm), ht⟩
    · exact ⟨sec, dflt, mem_snoc.mpr (.inr rfl), ht⟩
  · intro x hx hst o hm
    rcases mem_snoc.mp hm with hm | hm
    · rcases mem hx with hx | rfl
      · exact hb.fresh x hx hst o hm
      · have := hb.asked _ o hm; simp at this
    · cases hm
  · intro x hx hst
    rcases mem hx with hx | rfl
    · obtain ⟨c, hm⟩ := hb.sent x hx hst
      exact ⟨c, mem_snoc.mpr (.inl hm)⟩
    · exact absurd rfl hst
  · intro x hx hst r o hm
    rcases mem_snoc.mp hm with hm | hm
    · rcases mem hx with hx | rfl
      · exact hb.quiet x hx hst r o hm
      · have := hb.entered _ r o hm; simp at this
    · cases hm
  · intro x hx k hst
    rcases mem hx with hx | rfl
    · obtain ⟨r, hm⟩ := hb.inside x hx k hst
      exact ⟨r, mem_snoc.mpr (.inl hm)⟩
    · cases hst
  · intro x hx o hm
    rcases mem_snoc.mp hm with hm | hm
    · rcases mem hx with hx | rfl
      · exact hb.stay x hx o hm
      · have := hb.left _ o hm; simp at this
    · cases hm

theorem mem_move {s : State} {j : Nat} {st : Stage} {y : Job} (h : y ∈ (s.move j st).jobs) :
    (y ∈ s.jobs ∧ y.id ≠ j) ∨ ∃ x ∈ s.jobs, x.id = j ∧ y = { x with stage := st } := by
  obtain ⟨x, hx, rfl⟩ := List.mem_map.mp h
  by_cases e : x.id = j
  · right; exact ⟨x, hx, e, by simp [e]⟩
  · left; simp [e, hx]

theorem same_of_id {l : List Job} (hn : (l.map (·.id)).Nodup) {x y : Job} (hx : x ∈ l) (hy : y ∈ l)
    (e : x.id = y.id) : x = y := by
  induction l with
  | nil => simp at hx
  | cons z l ih =>
    simp only [List.map_cons, List.nodup_cons, List.mem_map, not_exists, not_and] at hn
    rcases List.mem_cons.mp hx with rfl | hx' <;> rcases List.mem_cons.mp hy with rfl | hy'
    · rfl
    · exact absurd e.symm (hn.1 y hy')
    · exact absurd e (hn.1 x hx')
    · exact ih hn.2 hx' hy'

theorem ids_move (s : State) (j : Nat) (st : Stage) : (s.move j st).jobs.map (·.id) = s.jobs.map (·.id) := by
  simp only [State.move, List.map_map]
  apply List.map_congr_left
  intro x _
  by_cases e : x.id = j <;> simp [e]

theorem base_ask {s : State} {h : List (Event × Out)} {x : Job} {c : Option Bytes}
    (hb : Base s h) (hx : x ∈ s.jobs) (hst : x.stage = .fresh) :
    Base (s.move x.id .waiting) (h ++ [(.ask x.id, .sent x.name c x.timeout)]) := by
  constructor
  · rw [ids_move]; exact hb.ids
  · intro y hy
    rcases mem_move hy with ⟨hy, _⟩ | ⟨z, hz, _, rfl⟩
    · exact hb.below y hy
    · exact hb.below z hz
  · rw [calls_snoc, hb.calls]
    simp only [State.move, map_toCall_move, note]
    conv => lhs; rw [← List.map_id (s.jobs.map toCall)]
    apply List.map_congr_left
    intro c hc
    obtain ⟨y, hy, rfl⟩ := List.mem_map.mp hc
    by_cases e : y.id = x.id
    · have := same_of_id hb.ids hy hx e
      subst this
      simp [toCall, hst, Stage.out]
    · simp [toCall, e]
  · intro o
    rw [content_snoc, hb.content]; rfl
  · intro j o hm
    rcases mem_snoc.mp hm with hm | hm
    · exact hb.asked j o hm
    · cases hm; exact hb.below x hx
  · intro j r o hm
    rcases mem_snoc.mp hm with hm | hm
    · exact hb.entered j r o hm
    · cases hm
  · intro j o hm
    rcases mem_snoc.mp hm with hm | hm
    · exact hb.left j o hm
    · cases hm
  · intro y hy
    rcases mem_move hy with ⟨hy, _⟩ | ⟨z, hz, _, rfl⟩
    · obtain ⟨sec, dflt, hm, ht⟩ := hb.from' y hy
      exact ⟨sec, dflt, mem_snoc.mpr (.inl hm), ht⟩
    · obtain ⟨sec, dflt, hm, ht⟩ := hb.from' z hz
      exact ⟨sec, dflt, mem_snoc.mpr (.inl hm), ht⟩
  · intro y hy hs o hm
    rcases mem_move hy with ⟨hy, hne⟩ | ⟨z, hz, _, rfl⟩
    · rcases mem_snoc.mp hm with hm | hm
      · exact hb.fresh y hy hs o hm
      · injection hm with hm _; injection hm with hm; exact hne hm
    · cases hs
  · intro y hy hs
    rcases mem_move hy with ⟨hy, hne⟩ | ⟨z, hz, e, rfl⟩
    · obtain ⟨c', hm⟩ := hb.sent y hy hs
      exact ⟨c', mem_snoc.mpr (.inl hm)⟩
    · have := same_of_id hb.ids hz hx e
      subst this
      exact ⟨c, mem_snoc.mpr (.inr rfl)⟩
  · intro y hy hs r o hm
    rcases mem_snoc.mp hm with hm' | hm'
    · rcases mem_move hy with ⟨hy, hne⟩ | ⟨z, hz, e, rfl⟩
      · exact hb.quiet y hy hs r o hm'
      · have := same_of_id hb.ids hz hx e
        subst this
        exact hb.quiet z hz (by rw [hst]; rfl) r o hm'
    · cases hm'
  · intro y hy k hs
    rcases mem_move hy with ⟨hy, hne⟩ | ⟨z, hz, e, rfl⟩
    · obtain ⟨r, hm⟩ := hb.inside y hy k hs
      exact ⟨r, mem_snoc.mpr (.inl hm)⟩
    · cases hs
  · intro y hy o hm
    rcases mem_snoc.mp hm with hm | hm
    · rcases mem_move hy with ⟨hy, hne⟩ | ⟨z, hz, e, rfl⟩
      · exact hb.stay y hy o hm
      · exact hb.stay z hz o hm
    · cases hm

theorem base_enter {s : State} {h : List (Event × Out)} {x : Job} {r : Reply}
    (hb : Base s h) (hx : x ∈ s.jobs) (hst : x.stage = .waiting) :
    Base (s.enter x r).1 (h ++ [(.enter x.id r, (s.enter x r).2)]) := by
  have hj : (s.enter x r).1.jobs = (s.move x.id (.inside s.made)).jobs := rfl
  constructor
  · rw [hj, ids_move]; exact hb.ids
  · intro y hy
    rw [hj] at hy
    rcases mem_move hy with ⟨hy, _⟩ | ⟨z, hz, _, rfl⟩
    · exact hb.below y hy
    · exact hb.below z hz
  · rw [calls_snoc, hb.calls, hj]
    simp only [State.move, map_toCall_move, note, State.enter, Stage.out]
  · intro o
    rw [content_snoc, hb.content]
    simp only [put, State.enter, State.move, State.create, eq_comm]
  · intro j o hm
    rcases mem_snoc.mp hm with hm | hm
    · exact hb.asked j o hm
    · cases hm
  · intro j r' o hm
    rcases mem_snoc.mp hm with hm | hm
    · exact hb.entered j r' o hm
    · cases hm; exact hb.below x hx
  · intro j o hm
    rcases mem_snoc.mp hm with hm | hm
    · exact hb.left j o hm
    · cases hm
  · intro y hy
    rw [hj] at hy
    rcases mem_move hy with ⟨hy, _⟩ | ⟨z, hz, _, rfl⟩
    · obtain ⟨sec, dflt, hm, ht⟩ := hb.from' y hy
      exact ⟨sec, dflt, mem_snoc.mpr (.inl hm), ht⟩
    · obtain ⟨sec, dflt, hm, ht⟩ := hb.from' z hz
      exact ⟨sec, dflt, mem_snoc.mpr (.inl hm), ht⟩
  · intro y hy hs o hm
    rw [hj] at hy
    rcases mem_move hy with ⟨hy, hne⟩ | ⟨z, hz, _, rfl⟩
    · rcases mem_snoc.mp hm with hm | hm
      · exact hb.fresh y hy hs o hm
      · cases hm
    · cases hs
  · intro y hy hs
    rw [hj] at hy
    rcases mem_move hy with ⟨hy, hne⟩ | ⟨z, hz, e, rfl⟩
    · obtain ⟨c', hm⟩ := hb.sent y hy hs
      exact ⟨c', mem_snoc.mpr (.inl hm)⟩
    · have := same_of_id hb.ids hz hx e
      subst this
      obtain ⟨c', hm⟩ := hb.sent z hz (by rw [hst]; simp)
      exact ⟨c', mem_snoc.mpr (.inl hm)⟩
  · intro y hy hs r' o hm
    rw [hj] at hy
    rcases mem_move hy with ⟨hy, hne⟩ | ⟨z, hz, e, rfl⟩
    · rcases mem_snoc.mp hm with hm | hm
      · exact hb.quiet y hy hs r' o hm
      · injection hm with hm _; injection hm with hm _; exact hne hm
    · cases hs
  · intro y hy k hs
    rw [hj] at hy
    rcases mem_move hy with ⟨hy, hne⟩ | ⟨z, hz, e, rfl⟩
    · obtain ⟨r, hm⟩ := hb.inside y hy k hs
      exact ⟨r, mem_snoc.mpr (.inl hm)⟩
    · have := same_of_id hb.ids hz hx e
      subst this
      injection hs with hs
      subst hs
      exact ⟨r, mem_snoc.mpr (.inr rfl)⟩
  · intro y hy o hm
    rw [hj] at hy
    rcases mem_snoc.mp hm with hm | hm
    · rcases mem_move hy with ⟨hy, hne⟩ | ⟨z, hz, e, rfl⟩
      · exact hb.stay y hy o hm
      · exact hb.stay z hz o hm
    · cases hm

theorem base_leave {s s' : State} {h : List (Event × Out)} {x : Job} {out : Out}
    (hb : Base s h) (hx : x ∈ s.jobs) (hj : s'.jobs = s.jobs.filter (fun y => y.id != x.id))
    (hs : s'.started = s.started) (hc : s'.content = s.content) : Base s' (h ++ [(.leave x.id, out)]) := by
  have mem : ∀ {y}, y ∈ s'.jobs → y ∈ s.jobs ∧ y.id ≠ x.id := by
    intro y hy
    rw [hj] at hy
    simpa using hy
  constructor
  · rw [hj]
    exact List.Nodup.sublist (List.Sublist.map _ List.filter_sublist) hb.ids
  · intro y hy; rw [hs]; exact hb.below y (mem hy).1
  · rw [calls_snoc, hb.calls, hj, map_toCall_filter]; rfl
  · intro o
    rw [content_snoc, hb.content, hc]; rfl
  · intro j o hm
    rcases mem_snoc.mp hm with hm | hm
    · rw [hs]; exact hb.asked j o hm
    · cases hm
  · intro j r' o hm
    rcases mem_snoc.mp hm with hm | hm
    · rw [hs]; exact hb.entered j r' o hm
    · cases hm
  · intro j o hm
    rcases mem_snoc.mp hm with hm | hm
    · rw [hs]; exact hb.left j o hm
    · cases hm; rw [hs]; exact hb.below x hx
  · intro y hy
    obtain ⟨sec, dflt, hm, ht⟩ := hb.from' y (mem hy).1
    exact ⟨sec, dflt, mem_snoc.mpr (.inl hm), ht⟩
  · intro y hy hs o hm
    rcases mem_snoc.mp hm with hm | hm
    · exact hb.fresh y (mem hy).1 hs o hm
    · cases hm
  · intro y hy hs
    obtain ⟨c', hm⟩ := hb.sent y (mem hy).1 hs
    exact ⟨c', mem_snoc.mpr (.inl hm)⟩
  · intro y hy hs r' o hm
    rcases mem_snoc.mp hm with hm | hm
    · exact hb.quiet y (mem hy).1 hs r' o hm
    · cases hm
  · intro y hy k hs
    obtain ⟨r, hm⟩ := hb.inside y (mem hy).1 k hs
    exact ⟨r, mem_snoc.mpr (.inl hm)⟩
  · intro y hy o hm
    rcases mem_snoc.mp hm with hm | hm
    · exact hb.stay y (mem hy).1 o hm
    · injection hm with hm _; injection hm with hm; exact (mem hy).2 hm

theorem take_ok {s s' : State} {o : Nat} (h : s.take o = .ok s') :
    s.refs o ≠ 0 ∧ s' = { s with refs := fun x => if x = o then s.refs x + 1 else s.refs x } := by
  unfold State.take at h
  split at h
  · cases h
  · rename_i hr; injection h with h; exact ⟨hr, h.symm⟩

theorem drop_ok {s s' : State} {o : Nat} {os : List Nat} (h : s.drop o = .ok (s', os)) :
    s.refs o ≠ 0 ∧ s' = { s with refs := fun x => if x = o then s.refs x - 1 else s.refs x } ∧
      os = if s.refs o = 1 then [o] else [] := by
  unfold State.drop at h
  split at h
  · cases h
  · rename_i hr; injection h with h; injection h with h1 h2; exact ⟨hr, h1.symm, h2.symm⟩

theorem mem_opt (p : Prop) [Decidable p] (a b : Nat) : a ∈ (if p then [b] else []) ↔ a = b ∧ p := by
  by_cases h : p <;> simp [h]

theorem nodup_opt (p : Prop) [Decidable p] (b : Nat) : (if p then [b] else []).Nodup := by
  by_cases h : p <;> simp [h]

/-- The kinds of steps, with what they change. -/
inductive Kind (s : State) : Event → Out → State → Prop where
  | openHandle : Kind s .openHandle (.handle s.opened) { s with handles := s.handles ++ [s.opened], opened := s.opened + 1 }
  | closed (h) : h ∉ s.handles → Kind s (.close h) .invalidHandle s
  | close (h) : h ∈ s.handles → Kind s (.close h) (.gone []) (s.close h)
  | make (c) : Kind s (.make c) (.object s.made) (s.create c)
  | write (o c) : s.refs o ≠ 0 →
      Kind s (.write o c) (.gone []) { s with content := fun x => if x = o then c else s.content x }
  | retain (o) : s.refs o ≠ 0 →
      Kind s (.retain o) (.gone []) { s with refs := fun x => if x = o then s.refs x + 1 else s.refs x }
  | release (o) : s.refs o ≠ 0 →
      Kind s (.release o) (.gone (if s.refs o = 1 then [o] else []))
        { s with refs := fun x => if x = o then s.refs x - 1 else s.refs x }
  | noHandle (h n p sec dflt t) : h ∉ s.handles → Kind s (.invoke h n p sec dflt t) .invalidHandle s
  | noThread (h n p sec dflt) : h ∈ s.handles → (∀ o, p = some o → s.refs o ≠ 0) →
      Kind s (.invoke h n p sec dflt false) .busError
        { s with refs := fun x => if p = some x then s.refs x + 1 else s.refs x }
  | start (h n p sec dflt) : h ∈ s.handles → (∀ o, p = some o → s.refs o ≠ 0) →
      Kind s (.invoke h n p sec dflt true) (.started s.started)
        { s with refs := fun x => if p = some x then s.refs x + 1 else s.refs x
                 jobs := s.jobs ++ [⟨s.started, h, n, p, wait sec dflt, .fresh⟩], started := s.started + 1 }
  | ask (x) : x ∈ s.jobs → x.stage = .fresh → x.handle ∈ s.handles → (∀ o, x.params = some o → s.refs o ≠ 0) →
      Kind s (.ask x.id) (.sent x.name (x.params.map s.content) x.timeout) (s.move x.id .waiting)
  | enter (x r) : x ∈ s.jobs → x.stage = .waiting → Kind s (.enter x.id r) (s.enter x r).2 (s.enter x r).1
  | leave (x k os refs) : x ∈ s.jobs → x.stage = .inside k →
      (∀ o, refs o = s.refs o - one (x.params = some o) - one (k = o)) →
      (∀ o, one (x.params = some o) + one (k = o) ≤ s.refs o) →
      (∀ o, o ∈ os ↔ (x.params = some o ∨ k = o) ∧ refs o = 0) → os.Nodup →
      Kind s (.leave x.id) (.gone os)
        { s with refs := refs, jobs := s.jobs.filter (fun y => y.id != x.id) }

theorem kind_of_step {s s' : State} {e : Event} {out : Out} (h : step s e = .ok (s', out)) : Kind s e out s' := by
  have thr : ∀ {j : Nat} {P : Prop}, (match s.job j with
      | some x => s.thread x e
      | none => .fail) = .ok (s', out) → (∀ x, x ∈ s.jobs → x.id = j → s.thread x e = .ok (s', out) → P) → P := by
    intro j P h k
    cases hj : s.job j with
    | none => rw [hj] at h; cases h
    | some x =>
      rw [hj] at h
      exact k x (job_some hj).1 (job_some hj).2 h
  cases e with
  | openHandle => cases h; exact .openHandle
  | close hd =>
    simp only [step] at h
    split at h
    · cases h; rename_i hc; exact .close hd (by simpa using hc)
    · cases h; rename_i hc; exact .closed hd (by simpa using hc)
  | make c => cases h; exact .make c
  | write o c =>
    simp only [step] at h
    split at h
    · cases h
    · cases h; rename_i hr; exact .write o c hr
  | retain o =>
    obtain ⟨s1, h1, h⟩ := res_bind_ok h
    obtain ⟨hr, rfl⟩ := take_ok h1
    cases h
    exact .retain o hr
  | release o =>
    obtain ⟨⟨s1, os⟩, h1, h⟩ := res_bind_ok h
    obtain ⟨hr, rfl, rfl⟩ := drop_ok h1
    cases h
    exact .release o hr
  | invoke hd n p sec dflt t =>
    simp only [step] at h
    split at h
    · rename_i hc
      have hc : hd ∈ s.handles := by simpa using hc
      unfold State.invoke at h
      obtain ⟨s1, h1, h⟩ := res_bind_ok h
      obtain ⟨w, h2, h⟩ := res_bind_ok h
      have hw := asyncTimeout_wait h2
      subst hw
      have hs1 : (∀ o, p = some o → s.refs o ≠ 0) ∧
          s1 = { s with refs := fun x => if p = some x then s.refs x + 1 else s.refs x } := by
        cases p with
        | none =>
          cases h1
          exact ⟨(fun _ e => by cases e), by simp⟩
        | some o =>
          obtain ⟨hr, rfl⟩ := take_ok h1
          refine ⟨(fun o' e => by injection e with e; exact e ▸ hr), ?_⟩
          congr 1
          funext x
          simp [eq_comm]
      obtain ⟨hl, rfl⟩ := hs1
      cases t with
      | true => cases h; exact .start hd n p sec dflt hc hl
      | false => cases h; exact .noThread hd n p sec dflt hc hl
    · cases h; rename_i hc; exact .noHandle hd n p sec dflt t (by simpa using hc)
  | ask j =>
    refine thr h ?_
    rintro x hx rfl h
    simp only [State.thread] at h
    cases hst : x.stage <;> rw [hst] at h <;> try cases h
    dsimp only at h
    unfold State.ask at h
    obtain ⟨p, h1, h⟩ := res_bind_ok h
    split at h
    · rename_i hc
      cases h
      have : (∀ o, x.params = some o → s.refs o ≠ 0) ∧ p = x.params.map s.content := by
        cases hp : x.params with
        | none => rw [hp] at h1; cases h1; simp
        | some o =>
          rw [hp] at h1
          simp only [State.read] at h1
          split at h1
          · cases h1
          · rename_i hr; cases h1; exact ⟨(fun o' e => by injection e with e; exact e ▸ hr), rfl⟩
      rw [this.2]
      exact .ask x hx hst (by simpa using hc) this.1
    · cases h
  | enter j r =>
    refine thr h ?_
    rintro x hx rfl h
    simp only [State.thread] at h
    cases hst : x.stage <;> rw [hst] at h <;> try cases h
    exact .enter x r hx hst
  | leave j =>
    refine thr h ?_
    rintro x hx rfl h
    simp only [State.thread] at h
    cases hst : x.stage <;> rw [hst] at h <;> try cases h
    rename_i k
    dsimp only at h
    unfold State.leave at h
    obtain ⟨⟨s1, a⟩, h1, h⟩ := res_bind_ok h
    obtain ⟨⟨s2, b⟩, h2, h⟩ := res_bind_ok h
    cases h
    obtain ⟨hr2, rfl, rfl⟩ := drop_ok h2
    have hs1 : s1 = { s with refs := fun o => s.refs o - one (x.params = some o) } ∧
        (∀ o, x.params = some o → s.refs o ≠ 0) ∧ (∀ o, o ∈ a ↔ x.params = some o ∧ s.refs o = 1) ∧ a.Nodup := by
      cases hp : x.params with
      | none =>
        rw [hp] at h1; cases h1
        exact ⟨by simp [one], by simp, by simp, by simp⟩
      | some q =>
        rw [hp] at h1
        obtain ⟨hr, rfl, rfl⟩ := drop_ok h1
        refine ⟨?_, ?_, ?_, ?_⟩
        · congr 1
          funext o
          by_cases e : o = q
          · simp [one, e]
          · simp [one, e, Ne.symm e]
        · intro o e; injection e with e; exact e ▸ hr
        · intro o
          rw [mem_opt]
          exact ⟨(fun ⟨a, b⟩ => ⟨congrArg some a.symm, a ▸ b⟩),
            (fun ⟨a, b⟩ => by injection a with a; exact ⟨a.symm, a ▸ b⟩)⟩
        · exact nodup_opt _ _
    obtain ⟨rfl, hl, ha, hna⟩ := hs1
    dsimp only at hr2 ⊢
    have hle : ∀ o, one (x.params = some o) ≤ s.refs o := by
      intro o
      unfold one
      split
      · rename_i e; have := hl o e; omega
      · omega
    refine .leave x k _ _ hx hst ?_ ?_ ?_ ?_
    · intro o
      by_cases e : o = k
      · simp [one, e]
      · simp [one, e, Ne.symm e]
    · intro o
      have := hle o
      by_cases e : k = o
      · subst e; simp only [one, if_true] at *; omega
      · simp only [one, e, if_false] at *; omega
    · intro o
      have hb : o ∈ (if s.refs k - one (x.params = some k) = 1 then [k] else []) ↔
          o = k ∧ s.refs k - one (x.params = some k) = 1 := mem_opt _ _ _
      rw [List.mem_append, ha, hb]
      have hle := hle o
      have hl := hl o
      by_cases e : o = k
      · subst e
        by_cases hp : x.params = some o
        · simp only [hp, one, if_true, true_and, true_or, forall_const] at *
          omega
        · simp only [hp, one, if_true, true_and, if_false, or_true, false_and, false_or] at *
          omega
      · by_cases hp : x.params = some o
        · simp only [hp, e, Ne.symm e, one, if_true, true_and, if_false, or_false, false_and, forall_const] at *
          omega
        · simp only [hp, e, Ne.symm e, false_and, or_self]
    · rw [List.nodup_append]
      refine ⟨hna, nodup_opt _ _, ?_⟩
      intro p hp q hq e
      subst e
      rw [ha] at hp
      by_cases h1 : s.refs k - one (x.params = some k) = 1
      · rw [if_pos h1] at hq
        simp at hq
        subst hq
        simp [one, hp.1, hp.2] at h1
      · rw [if_neg h1] at hq; simp at hq

theorem base_step {s s' : State} {e : Event} {out : Out} {h : List (Event × Out)} (hb : Base s h)
    (hs : step s e = .ok (s', out)) : Base s' (h ++ [(e, out)]) := by
  cases kind_of_step hs with
  | openHandle => exact base_same hb id id_keeps (by simp) rfl (fun _ => rfl) rfl (by simp) (by simp) (by simp)
  | closed hd => exact base_same hb id id_keeps (by simp) rfl (fun _ => rfl) rfl (by simp) (by simp) (by simp)
  | close hd =>
    by_cases hc : s.handles.erase hd = []
    · exact base_same hb Job.strand strand_keeps (by simp [State.close, hc]) (by simp [State.close, hc])
        (fun _ => by simp [State.close, hc, put]) rfl (by simp) (by simp) (by simp)
    · exact base_same hb id id_keeps (by simp [State.close, hc]) (by simp [State.close, hc])
        (fun _ => by simp [State.close, hc, put]) rfl (by simp) (by simp) (by simp)
  | make c =>
    exact base_same hb id id_keeps (by simp [State.create]) rfl (fun o => by simp [State.create, put, eq_comm]) rfl
      (by simp) (by simp) (by simp)
  | write o c =>
    exact base_same hb id id_keeps (by simp) rfl (fun o => by simp [put, eq_comm]) rfl (by simp) (by simp) (by simp)
  | retain o => exact base_same hb id id_keeps (by simp) rfl (fun _ => rfl) rfl (by simp) (by simp) (by simp)
  | release o => exact base_same hb id id_keeps (by simp) rfl (fun _ => rfl) rfl (by simp) (by simp) (by simp)
  | noHandle => exact base_same hb id id_keeps (by simp) rfl (fun _ => rfl) rfl (by simp) (by simp) (by simp)
  | noThread => exact base_same hb id id_keeps (by simp) rfl (fun _ => rfl) rfl (by simp) (by simp) (by simp)
  | start hd n p sec dflt hc hl => exact base_start hb rfl rfl rfl rfl
  | ask x hx hst hh hl => exact base_ask hb hx hst
  | enter x r hx hst => exact base_enter hb hx hst
  | leave x k os refs hx hst => exact base_leave hb hx rfl rfl rfl

theorem base_exec {h : List (Event × Out)} {s : State} (hx : Exec step init h s) : Base s h := by
  induction hx with
  | nil => exact base_init
  | snoc _ hs ih => exact base_step ih hs

theorem made_snoc (o : Nat) (h : List (Event × Out)) (x) : Made o (h ++ [x]) ↔ Made o h ∨ news o x = true := by
  unfold Made
  constructor
  · rintro ⟨y, hy, e⟩
    rcases mem_snoc.mp hy with hy | rfl
    · exact .inl ⟨y, hy, e⟩
    · exact .inr e
  · rintro (⟨y, hy, e⟩ | e)
    · exact ⟨y, mem_snoc.mpr (.inl hy), e⟩
    · exact ⟨x, mem_snoc.mpr (.inr rfl), e⟩

theorem made_exec {h : List (Event × Out)} {s : State} (hx : Exec step init h s) (o : Nat) :
    Made o h ↔ o < s.made := by
  induction hx with
  | nil => simp [Made, init]
  | @snoc h s e out s' _ hs ih =>
    rw [made_snoc, ih]
    cases kind_of_step hs with
    | close hd =>
      by_cases hc : s.handles.erase hd = [] <;> simp [news, State.close, hc]
    | make c => simp only [news, State.create, decide_eq_true_eq]; omega
    | enter x r => simp only [news, State.enter, State.move, State.create, decide_eq_true_eq]; omega
    | _ => simp [news, State.move]

/-- References counted, for programs that are careful. -/
structure Inv (s : State) (h : List (Event × Out)) : Prop where
  refs : ∀ o, s.refs o = mine o h + uses o s.jobs + h.countP (failed o)
  made : ∀ o, Made o h ↔ o < s.made
  later : ∀ o, s.made ≤ o → s.refs o = 0
  gone : ∀ o, o ∈ h.flatMap gone ↔ o < s.made ∧ s.refs o = 0
  once : (h.flatMap Spec.AsyncCall.gone).Nodup
  safe : ∀ x ∈ s.jobs, Stage.out x.stage = none → x.handle ∈ s.handles ∧ x.stage ≠ .stranded
  handles : s.handles.Nodup ∧ ∀ x ∈ s.handles, x < s.opened

theorem inv_init : Inv init [] := by
  constructor <;> simp [init, mine, uses, Made]

theorem inv_next {s s' : State} {h : List (Event × Out)} {x : Event × Out} (hi : Inv s h)
    (r : ∀ o, s'.refs o = own o (mine o h) x + uses o s'.jobs + (h.countP (failed o) + one (failed o x = true)))
    (m : ∀ o, o < s.made ∨ news o x = true ↔ o < s'.made) (n : ∀ o, s'.made ≤ o → s'.refs o = 0)
    (g : ∀ o, o < s.made ∧ s.refs o = 0 ∨ o ∈ gone x ↔ o < s'.made ∧ s'.refs o = 0)
    (d : (gone x).Nodup ∧ ∀ o ∈ gone x, s.refs o ≠ 0)
    (sf : ∀ x ∈ s'.jobs, Stage.out x.stage = none → x.handle ∈ s'.handles ∧ x.stage ≠ .stranded)
    (hh : s'.handles.Nodup ∧ ∀ x ∈ s'.handles, x < s'.opened) : Inv s' (h ++ [x]) := by
  constructor
  · intro o
    rw [r o, mine_snoc, List.countP_append]
    simp [List.countP_cons, one]
  · intro o
    rw [made_snoc, hi.made, m]
  · exact n
  · intro o
    rw [List.flatMap_append, List.mem_append, hi.gone]
    simpa using g o
  · rw [List.flatMap_append, List.nodup_append]
    refine ⟨hi.once, by simpa using d.1, ?_⟩
    intro a ha b hb e
    subst e
    have hb : a ∈ Spec.AsyncCall.gone x := by simpa using hb
    exact d.2 a hb ((hi.gone a).mp ha).2
  · exact sf
  · exact hh

theorem live {s : State} {h : List (Event × Out)} (hb : Base s h) (hi : Inv s h) {o : Nat} (ho : Has h o) :
    s.refs o ≠ 0 := by
  have hr := hi.refs o
  rcases ho with ho | ⟨c, hc, ho⟩
  · omega
  · rw [hb.calls] at hc
    obtain ⟨x, hx, rfl⟩ := List.mem_map.mp hc
    have hp := uses_pos (o := o) hx
    have : Stage.out x.stage = some o := ho
    simp only [one, this, if_true] at hp
    omega

theorem below_made {s : State} {h : List (Event × Out)} (hi : Inv s h) {o : Nat} (ho : s.refs o ≠ 0) : o < s.made := by
  rcases Nat.lt_or_ge o s.made with hl | hl
  · exact hl
  · exact absurd (hi.later o hl) ho

theorem nodup_snoc {l : List Nat} (h : l.Nodup) {n : Nat} (hn : n ∉ l) : (l ++ [n]).Nodup := by
  rw [List.nodup_append]
  refine ⟨h, by simp, ?_⟩
  intro a ha b hb e
  simp at hb
  subst hb; subst e
  exact hn ha

theorem inv_step {s s' : State} {e : Event} {out : Out} {h : List (Event × Out)} (hb : Base s h) (hi : Inv s h)
    (ha : Allowed h e) (hs : step s e = .ok (s', out)) : Inv s' (h ++ [(e, out)]) := by
  have mk : ∀ {o : Nat}, s.refs o ≠ 0 → o < s.made := fun h => below_made hi h
  cases kind_of_step hs with
  | openHandle =>
    refine inv_next hi (fun o => by simpa [own, failed, one] using hi.refs o) (fun o => by simp [news]) hi.later
      (fun o => by simp [gone]) (by simp [gone]) ?_ ?_
    · intro x hx ho
      have := hi.safe x hx ho
      exact ⟨List.mem_append_left _ this.1, this.2⟩
    · refine ⟨nodup_snoc hi.handles.1 (fun hm => ?_), ?_⟩
      · have := hi.handles.2 _ hm; omega
      · intro x hx
        rcases mem_snoc.mp hx with hx | rfl
        · have := hi.handles.2 x hx
          show x < s.opened + 1
          omega
        · exact Nat.lt_succ_self _
  | closed hd =>
    exact inv_next hi (fun o => by simpa [own, failed, one] using hi.refs o) (fun o => by simp [news]) hi.later
      (fun o => by simp [gone]) (by simp [gone]) hi.safe hi.handles
  | close hd hm =>
    have ha' : ∀ x ∈ s.jobs, x.handle = hd → (Stage.out x.stage).isSome := by
      intro x hx e
      exact ha (toCall x) (by rw [hb.calls]; exact List.mem_map_of_mem hx) e
    have hsub : ∀ x ∈ s.handles.erase hd, x ∈ s.handles := fun x hx => List.mem_of_mem_erase hx
    have keep : ∀ x ∈ s.jobs, Stage.out x.stage = none → x.handle ∈ s.handles.erase hd := by
      intro x hx ho
      have hne : x.handle ≠ hd := fun e => by have := ha' x hx e; simp [ho] at this
      exact (List.mem_erase_of_ne hne).mpr (hi.safe x hx ho).1
    by_cases hc : s.handles.erase hd = []
    · have hs' : s.close hd = { s with handles := [], jobs := s.jobs.map Job.strand } := by simp [State.close, hc]
      rw [hs']
      refine inv_next hi (fun o => ?_) (fun o => by simp [news]) hi.later (fun o => by simp [gone]) (by simp [gone]) ?_ ?_
      · simpa [own, failed, one, uses_strand] using hi.refs o
      · intro x hx ho
        obtain ⟨y, hy, rfl⟩ := List.mem_map.mp hx
        rw [(strand_keeps y).2.2.2.2.2.1] at ho
        have := keep y hy ho
        rw [hc] at this
        simp at this
      · simp
    · have hs' : s.close hd = { s with handles := s.handles.erase hd } := by simp [State.close, hc]
      rw [hs']
      refine inv_next hi (fun o => by simpa [own, failed, one] using hi.refs o) (fun o => by simp [news]) hi.later
        (fun o => by simp [gone]) (by simp [gone]) ?_ ?_
      · intro x hx ho
        exact ⟨keep x hx ho, (hi.safe x hx ho).2⟩
      · exact ⟨hi.handles.1.erase _, fun x hx => hi.handles.2 x (hsub x hx)⟩
  | make c =>
    refine inv_next hi (fun o => ?_) (fun o => ?_) (fun o ho => ?_) (fun o => ?_) (by simp [gone]) hi.safe hi.handles
    · have := hi.refs o
      have hl := hi.later o
      simp only [State.create, own, failed, one, Bool.false_eq_true, if_false]
      by_cases e : o = s.made
      · subst e
        simp only [if_true]
        have := hl (Nat.le_refl _)
        omega
      · simp only [e, Ne.symm e, if_false]; omega
    · simp only [news, State.create, decide_eq_true_eq]; omega
    · simp only [State.create] at ho ⊢
      have hne : o ≠ s.made := by omega
      rw [if_neg hne]
      exact hi.later o (by omega)
    · simp only [State.create, gone, List.not_mem_nil, or_false]
      by_cases e : o = s.made
      · simp [e]
      · simp only [e, if_false]
        constructor
        · rintro ⟨a, b⟩; exact ⟨by omega, b⟩
        · rintro ⟨a, b⟩; exact ⟨by omega, b⟩
  | write o c =>
    exact inv_next hi (fun o => by simpa [own, failed, one] using hi.refs o) (fun o => by simp [news]) hi.later
      (fun o => by simp [gone]) (by simp [gone]) hi.safe hi.handles
  | retain q hr =>
    refine inv_next hi (fun o => ?_) (fun o => by simp [news]) (fun o ho => ?_) (fun o => ?_) (by simp [gone]) hi.safe
      hi.handles
    · have := hi.refs o
      simp only [own, failed, one, Bool.false_eq_true, if_false]
      by_cases e : o = q
      · subst e; simp only [if_true]; omega
      · simp only [e, Ne.symm e, if_false]; omega
    · have := mk hr
      have hne : o ≠ q := by have : s.made ≤ o := ho; omega
      show (if o = q then _ else _) = 0
      rw [if_neg hne]; exact hi.later o ho
    · simp only [gone, List.not_mem_nil, or_false]
      by_cases e : o = q
      · subst e; simp [hr]
      · simp [e]
  | release q hr =>
    have hp : 0 < mine q h := ha
    refine inv_next hi (fun o => ?_) (fun o => by simp [news]) (fun o ho => ?_) (fun o => ?_) ⟨nodup_opt _ _, ?_⟩ hi.safe
      hi.handles
    · have := hi.refs o
      simp only [own, failed, one, Bool.false_eq_true, if_false]
      by_cases e : o = q
      · subst e; simp only [if_true]; omega
      · simp only [e, Ne.symm e, if_false]; omega
    · have := mk hr
      have hne : o ≠ q := by have : s.made ≤ o := ho; omega
      show (if o = q then _ else _) = 0
      rw [if_neg hne]; exact hi.later o ho
    · simp only [gone, mem_opt]
      have := mk hr
      by_cases e : o = q
      · subst e; simp only [if_true, true_and]; omega
      · simp [e]
    · intro o ho
      simp only [gone, mem_opt] at ho
      exact ho.1 ▸ hr
  | noHandle =>
    exact inv_next hi (fun o => by simpa [own, failed, one] using hi.refs o) (fun o => by simp [news]) hi.later
      (fun o => by simp [gone]) (by simp [gone]) hi.safe hi.handles
  | noThread hd n p sec dflt hm hl =>
    refine inv_next hi (fun o => ?_) (fun o => by simp [news]) (fun o ho => ?_) (fun o => ?_) (by simp [gone]) hi.safe
      hi.handles
    · have := hi.refs o
      simp only [own, failed, one, decide_eq_true_eq]
      by_cases e : p = some o
      · simp only [e, if_true]; omega
      · simp only [e, if_false]; omega
    · have hne : p ≠ some o := fun e => by have := mk (hl o e); have : s.made ≤ o := ho; omega
      show (if p = some o then _ else _) = 0
      rw [if_neg hne]; exact hi.later o ho
    · simp only [gone, List.not_mem_nil, or_false]
      by_cases e : p = some o
      · simp [e, hl o e]
      · simp [e]
  | start hd n p sec dflt hm hl =>
    refine inv_next hi (fun o => ?_) (fun o => by simp [news]) (fun o ho => ?_) (fun o => ?_) (by simp [gone]) ?_
      hi.handles
    · have := hi.refs o
      simp only [own, failed, one, Bool.false_eq_true, if_false, uses_append]
      by_cases e : p = some o
      · simp [e, Stage.out]; omega
      · simp [e, Stage.out]; omega
    · have hne : p ≠ some o := fun e => by have := mk (hl o e); have : s.made ≤ o := ho; omega
      show (if p = some o then _ else _) = 0
      rw [if_neg hne]; exact hi.later o ho
    · simp only [gone, List.not_mem_nil, or_false]
      by_cases e : p = some o
      · simp [e, hl o e]
      · simp [e]
    · intro x hx ho
      rcases mem_snoc.mp hx with hx | rfl
      · exact hi.safe x hx ho
      · exact ⟨hm, by simp⟩
  | ask x hx hst hh hl =>
    refine inv_next hi (fun o => ?_) (fun o => by simp [news, State.move]) hi.later (fun o => by simp [gone, State.move])
      (by simp [gone]) ?_ hi.handles
    · have := hi.refs o
      have hu := uses_move o hb.ids hx .waiting
      simp only [hst, Stage.out, one, reduceCtorEq, if_false] at hu
      simp only [own, failed, one, Bool.false_eq_true, if_false, State.move]
      omega
    · intro y hy ho
      rcases mem_move hy with ⟨hy, _⟩ | ⟨z, hz, e, rfl⟩
      · exact hi.safe y hy ho
      · have := same_of_id hb.ids hz hx e
        subst this
        exact ⟨hh, by simp⟩
  | enter x r hx hst =>
    refine inv_next hi (fun o => ?_) (fun o => ?_) (fun o ho => ?_) (fun o => ?_) (by simp [gone, State.enter]) ?_
      hi.handles
    · have := hi.refs o
      have hl := hi.later o
      have hu := uses_move o hb.ids hx (.inside s.made)
      simp only [hst, Stage.out, one, reduceCtorEq, if_false, Option.some.injEq] at hu
      simp only [own, failed, one, Bool.false_eq_true, if_false, State.enter, State.move, State.create]
      by_cases e : o = s.made
      · subst e
        simp only [if_true] at hu ⊢
        have := hl (Nat.le_refl _)
        omega
      · simp only [e, Ne.symm e, if_false] at hu ⊢; omega
    · simp only [news, State.enter, State.move, State.create, decide_eq_true_eq]; omega
    · simp only [State.enter, State.move, State.create] at ho ⊢
      have hne : o ≠ s.made := by omega
      rw [if_neg hne]
      exact hi.later o (by omega)
    · simp only [State.enter, State.move, State.create, gone, List.not_mem_nil, or_false]
      by_cases e : o = s.made
      · simp [e]
      · simp only [e, if_false]
        constructor
        · rintro ⟨a, b⟩; exact ⟨by omega, b⟩
        · rintro ⟨a, b⟩; exact ⟨by omega, b⟩
    · intro y hy ho
      rcases mem_move (s := s) hy with ⟨hy, _⟩ | ⟨z, hz, e, rfl⟩
      · exact hi.safe y hy ho
      · cases ho
  | leave x k os refs hx hst hrefs hle hos hnd =>
    refine inv_next hi (fun o => ?_) (fun o => by simp [news]) (fun o ho => ?_) (fun o => ?_) ⟨hnd, ?_⟩ ?_ hi.handles
    · have := hi.refs o
      have hu := uses_filter o hb.ids hx
      have h1 := hrefs o
      have h2 := hle o
      simp only [hst, Stage.out, one, Option.some.injEq] at hu
      simp only [one] at h1 h2
      simp only [own, failed, one, Bool.false_eq_true, if_false]
      omega
    · have := hi.later o ho
      have h1 := hrefs o
      show refs o = 0
      omega
    · simp only [gone, hos]
      have h1 := hrefs o
      have h2 := hle o
      have hlt : s.refs o ≠ 0 → o < s.made := mk
      by_cases e : x.params = some o ∨ k = o
      · have hr0 : s.refs o ≠ 0 := by
          rcases e with e | e <;> simp only [one, e, if_true] at h2 <;> omega
        simp only [e, true_and, hr0, and_false, false_or, hlt hr0]
      · have e1 : x.params ≠ some o := fun h => e (.inl h)
        have e2 : k ≠ o := fun h => e (.inr h)
        simp only [one, e1, e2, if_false] at h1
        simp [e1, e2, h1]
    · intro o ho
      have h2 := hle o
      rcases ((hos o).mp ho).1 with e | e <;> simp only [one, e, if_true] at h2 <;> omega
    · intro y hy ho
      have hy : y ∈ s.jobs ∧ y.id ≠ x.id := by simpa using hy
      exact hi.safe y hy.1 ho

theorem careful_prefix {h : List (Event × Out)} {x : Event × Out} (hc : Careful (h ++ [x])) :
    Careful h ∧ Allowed h x.1 :=
  ⟨(fun a y b e => hc a y (b ++ [x]) (by simp [e])), hc h x [] rfl⟩

theorem inv_exec {h : List (Event × Out)} {s : State} (hx : Exec step init h s) (hc : Careful h) : Inv s h := by
  induction hx with
  | nil => exact inv_init
  | snoc hx hs ih =>
    have := careful_prefix hc
    exact inv_step (base_exec hx) (ih this.1) this.2 hs

theorem held_eq {s : State} {h : List (Event × Out)} (hb : Base s h) (o : Nat) :
    held o h = mine o h + uses o s.jobs := by
  unfold held
  rw [hb.calls]
  have := countP_calls o s.jobs
  omega

theorem defined {s : State} {h : List (Event × Out)} (hb : Base s h) (hi : Inv s h) {e : Event} (ha : Allowed h e) :
    step s e ≠ .ub := by
  have hp : ∀ {x : Job}, x ∈ s.jobs → ∀ o, x.params = some o → s.refs o ≠ 0 := by
    intro x hx o e
    have := uses_pos (o := o) hx
    have := hi.refs o
    simp only [one, e, if_true] at *
    omega
  have thr : ∀ {j : Nat}, (∀ x, x ∈ s.jobs → x.id = j → s.thread x e ≠ .ub) → (match s.job j with
      | some x => s.thread x e
      | none => .fail) ≠ .ub := by
    intro j hk
    cases hj : s.job j with
    | none => simp
    | some x => exact hk x (job_some hj).1 (job_some hj).2
  cases e with
  | openHandle => simp [step]
  | close hd => simp only [step]; split <;> simp
  | make c => simp [step]
  | write o c => simp [step, live hb hi (show Has h o from ha)]
  | retain o => simp [step, State.take, live hb hi (show Has h o from ha)]
  | release o => simp [step, State.drop, live hb hi (show Has h o from .inl ha)]
  | invoke hd n p sec dflt t =>
    simp only [step]
    split
    · obtain ⟨h1, h2⟩ := (show (∀ o, p = some o → Has h o) ∧ sec ≤ 2147483 from ha)
      have ht : ∃ w, Method.asyncTimeout dflt sec = .ok w := by
        unfold Method.asyncTimeout
        by_cases h0 : sec > 0
        · rw [if_pos h0, if_pos (by omega)]; exact ⟨_, rfl⟩
        · rw [if_neg h0]; exact ⟨_, rfl⟩
      obtain ⟨w, hw⟩ := ht
      have ho : ∃ s1, s.takeOpt p = .ok s1 := by
        cases p with
        | none => exact ⟨s, rfl⟩
        | some o => exact ⟨_, by simp only [State.takeOpt, State.take, live hb hi (h1 o rfl), if_false]; rfl⟩
      obtain ⟨s1, hs1⟩ := ho
      unfold State.invoke
      rw [hs1, Res.ok_bind, hw, Res.ok_bind]
      cases t <;> simp
    · simp
  | ask j =>
    refine thr ?_
    rintro x hx rfl
    simp only [State.thread]
    cases hst : x.stage <;> simp
    have hr : ∃ q, s.read x.params = .ok q := by
      cases hpq : x.params with
      | none => exact ⟨_, rfl⟩
      | some o => exact ⟨_, by simp only [State.read, hp hx o hpq, if_false]; rfl⟩
    obtain ⟨q, hq⟩ := hr
    have hm := (hi.safe x hx (by rw [hst]; rfl)).1
    simp [State.ask, hq, hm]
  | enter j r =>
    refine thr ?_
    rintro x hx rfl
    simp only [State.thread]
    cases hst : x.stage <;> simp
    exact (hi.safe x hx (by rw [hst]; rfl)).2 hst
  | leave j =>
    refine thr ?_
    rintro x hx rfl
    simp only [State.thread]
    cases hst : x.stage <;> simp
    rename_i k
    have hk := uses_pos (o := k) hx
    have hr := hi.refs k
    simp only [hst, Stage.out, one, if_true] at hk
    cases hpq : x.params with
    | none =>
      have : s.refs k ≠ 0 := by omega
      simp [State.leave, hpq, State.dropOpt, State.drop, this]
    | some o =>
      have hro := hp hx o hpq
      simp only [hpq] at hk
      have h2 : (if k = o then s.refs k - 1 else s.refs k) ≠ 0 := by
        by_cases e : k = o
        · subst e; simp only [if_true] at hk ⊢; omega
        · rw [if_neg e]; omega
      simp [State.leave, hpq, State.dropOpt, State.drop, hro, h2]

theorem leave_ok {s : State} {h : List (Event × Out)} (hb : Base s h) (hi : Inv s h) {x : Job} (hx : x ∈ s.jobs)
    {k : Nat} (hst : x.stage = .inside k) : ∃ s' os, step s (.leave x.id) = .ok (s', .gone os) := by
  have hnub := defined hb hi (e := .leave x.id) trivial
  have hj : s.job x.id = some x := by
    unfold State.job
    cases hf : s.jobs.find? (fun y => y.id == x.id) with
    | none =>
      have := List.find?_eq_none.mp hf x hx
      simp at this
    | some y =>
      have := job_some (s := s) hf
      rw [same_of_id hb.ids this.1 hx this.2]
  simp only [step, hj, State.thread, hst] at hnub ⊢
  unfold State.leave State.dropOpt State.drop at *
  cases hpq : x.params with
  | none =>
    simp only [hpq, Res.ok_bind] at hnub ⊢
    by_cases h1 : s.refs k = 0
    · simp [h1] at hnub
    · simp [h1]
  | some o =>
    simp only [hpq] at hnub ⊢
    by_cases h1 : s.refs o = 0
    · simp [h1] at hnub
    · simp only [h1, if_false, Res.ok_bind] at hnub ⊢
      by_cases h2 : (if k = o then s.refs k - 1 else s.refs k) = 0
      · simp [h2] at hnub
      · simp [h2]

theorem job_self {s : State} {h : List (Event × Out)} (hb : Base s h) {x : Job} (hx : x ∈ s.jobs) :
    s.job x.id = some x := by
  unfold State.job
  cases hf : s.jobs.find? (fun y => y.id == x.id) with
  | none =>
    have := List.find?_eq_none.mp hf x hx
    simp at this
  | some y =>
    have := job_some (s := s) hf
    rw [same_of_id hb.ids this.1 hx this.2]

theorem ask_ok {s : State} {h : List (Event × Out)} (hb : Base s h) (hi : Inv s h) {x : Job} (hx : x ∈ s.jobs)
    (hst : x.stage = .fresh) :
    step s (.ask x.id) = .ok (s.move x.id .waiting, .sent x.name (x.params.map s.content) x.timeout) := by
  have hm := (hi.safe x hx (by rw [hst]; rfl)).1
  have hr : s.read x.params = .ok (x.params.map s.content) := by
    cases hpq : x.params with
    | none => rfl
    | some o =>
      have := uses_pos (o := o) hx
      have := hi.refs o
      have h0 : s.refs o ≠ 0 := by simp only [one, hpq, if_true] at *; omega
      simp [State.read, h0]
  simp [step, job_self hb hx, State.thread, hst, State.ask, hr, hm]

theorem enter_ok {s : State} {h : List (Event × Out)} (hb : Base s h) {x : Job} (hx : x ∈ s.jobs)
    (hst : x.stage = .waiting) (r : Reply) : step s (.enter x.id r) = .ok (s.enter x r) := by
  simp [step, job_self hb hx, State.thread, hst]

end Verif.Proof.AsyncCall
