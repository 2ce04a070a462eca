import Verif.Proof.Handle

/-!
# C52: handle lookup; C57: one open handle per component name
-/

namespace Verif.Props

open Verif Verif.Handle

/-- **C52.** After every history of opening and closing, looking up a name gives the handle that the
history left open under this name, or nothing if there is none. -/
theorem C52_lookup_by_name (ops : List Op) (s : State) (outs : List Out)
    (h : Verif.Handle.run Verif.Handle.init ops = .ok (s, outs)) (name : Bytes) :
    getByName s name = openAfter (ops.zip outs) name := (run_holds holds_init h).2 name

/-- **C52.** A pointer counts as a valid handle exactly when it is an open one. -/
theorem C52_valid_iff_open (ops : List Op) (s : State) (outs : List Out)
    (h : Verif.Handle.run Verif.Handle.init ops = .ok (s, outs)) (addr : Nat) :
    isValid s addr = true ↔
      ∃ name x, openAfter (ops.zip outs) name = some x ∧ x.addr = addr := by
  obtain ⟨hi, hf⟩ := run_holds holds_init h
  simp only [openAfter]
  constructor
  · intro hv
    simp only [isValid, List.any_eq_true, decide_eq_true_eq] at hv
    obtain ⟨x, hx, ha⟩ := hv
    refine ⟨x.name, x, ?_, ha⟩
    rw [← hf]
    cases e : getByNameLoop x.name s.handles with
    | none => exact absurd rfl (getByNameLoop_none.mp e x hx)
    | some y =>
      obtain ⟨hy, hn⟩ := getByNameLoop_some e
      rw [inj_of_nodup_map hi.names hy hx hn]
  · rintro ⟨name, x, hx, ha⟩
    rw [← hf] at hx
    simp only [isValid, List.any_eq_true, decide_eq_true_eq]
    exact ⟨x, (getByNameLoop_some hx).1, ha⟩

/-- **C52**, as far as it holds: looking up the component id of an open handle gives that handle.
Missing: ids of no open handle, see `C52_unknown_id_fails`. -/
theorem C52_lookup_by_id_partial (ops : List Op) (s : State) (outs : List Out)
    (h : Verif.Handle.run Verif.Handle.init ops = .ok (s, outs)) (name : Bytes) (x : Handle)
    (hx : openAfter (ops.zip outs) name = some x) : getById s x.id = some x := by
  obtain ⟨hi, hf⟩ := run_holds holds_init h
  simp only [openAfter] at hx
  rw [← hf] at hx
  have hm := (getByNameLoop_some hx).1
  unfold getById
  rw [getByIdLoop_eq]
  cases e : s.handles.find? (fun h => h.id = x.id) with
  | none =>
    rw [List.find?_eq_none] at e
    exact absurd (decide_eq_true (rfl : x.id = x.id)) (e x hm)
  | some y =>
    have hy := List.mem_of_find?_eq_some e
    have hyi : y.id = x.id := by simpa using List.find?_some e
    rw [inj_of_nodup_map hi.ids hy hm hyi]
    rfl

/-- **C52 fails** for an id that no open handle has: while any handle is open, the lookup gives one
of them although its id is another. -/
theorem C52_unknown_id_fails (ops : List Op) (s : State) (outs : List Out)
    (h : Verif.Handle.run Verif.Handle.init ops = .ok (s, outs)) (id : Nat)
    (hid : ∀ name x, openAfter (ops.zip outs) name = some x → x.id ≠ id)
    (hopen : ∃ name x, openAfter (ops.zip outs) name = some x) :
    ∃ y, getById s id = some y ∧ y.id ≠ id := by
  obtain ⟨hi, hf⟩ := run_holds holds_init h
  simp only [openAfter] at hid hopen
  obtain ⟨name, x, hx⟩ := hopen
  rw [← hf] at hx
  have hm := (getByNameLoop_some hx).1
  have hall : ∀ z ∈ s.handles, z.id ≠ id := by
    intro z hz
    apply hid z.name z
    rw [← hf]
    cases e : getByNameLoop z.name s.handles with
    | none => exact absurd rfl (getByNameLoop_none.mp e z hz)
    | some y =>
      obtain ⟨hy, hn⟩ := getByNameLoop_some e
      rw [inj_of_nodup_map hi.names hy hz hn]
  unfold getById
  rw [getByIdLoop_eq, List.find?_eq_none.mpr (by simpa using hall)]
  cases e : s.handles.getLast? with
  | none => rw [List.getLast?_eq_none_iff] at e; rw [e] at hm; cases hm
  | some y =>
    exact ⟨y, rfl, hall y (List.mem_of_getLast? e)⟩

/-- **C57.** At any time at most 16 handles are open, and no two open handles share a name, an
address or a component id. -/
theorem C57_handles_distinct (ops : List Op) (s : State) (outs : List Out)
    (h : Verif.Handle.run Verif.Handle.init ops = .ok (s, outs)) :
    s.handles.length ≤ 16 ∧ (s.handles.map (·.name)).Nodup ∧ (s.handles.map (·.addr)).Nodup ∧
    (s.handles.map (·.id)).Nodup := by
  obtain ⟨hi, -⟩ := run_holds holds_init h
  exact ⟨hi.size, hi.names, hi.addrs, hi.ids⟩

/-- **C57**, as far as it holds: opening a name, when connecting to the broker succeeds, is safe and
gives a handle unless registering fails or there are 16 others; a handle the name had before is closed.
Missing: connecting fails, see `C57_reopen_fails`. -/
theorem C57_open_partial (ops : List Op) (s : State) (outs : List Out)
    (h : Verif.Handle.run Verif.Handle.init ops = .ok (s, outs)) (hl : s.lastId + 1 < 2 ^ 31)
    (name : Bytes) (env : Env) (hc : env.connectOk = true) :
    ∃ s' out, step s (.open_ name env) = .ok (s', out) ∧
      (∀ p, getByName s name = some p → isValid s' p.addr = false) ∧
      ((∃ x, out = .opened x ∧ x.name = name) ↔
        env.registerOk = true ∧ env.timeoutsOk = true ∧
        (s.handles.length < 16 ∨ (getByName s name).isSome)) := by
  obtain ⟨hi, hf⟩ := run_holds holds_init h
  -- the part after closing a previous handle
  have rest : ∀ (t : State) (p : Option Handle), Inv t → t.lastId = s.lastId →
      (p.isSome → t.handles.length < 16) →
      ∃ s' o, openRest t name env p = .ok (s', o) ∧
        (s'.handles = t.handles ∨ ∃ x, s'.handles = t.handles ++ [x] ∧ x.addr = t.nextAddr) ∧
        ((∃ x, o = some x ∧ x.name = name) ↔
          env.registerOk = true ∧ env.timeoutsOk = true ∧ t.handles.length < 16) := by
    intro t p ht hlast hp
    have onew : ∀ u : State, u.handles = t.handles → u.nextAddr = t.nextAddr →
        u.lastId = t.lastId → t.handles.length < 16 →
        ∃ s' o, openNew u name env = .ok (s', o) ∧
        (s'.handles = t.handles ∨ ∃ x, s'.handles = t.handles ++ [x] ∧ x.addr = t.nextAddr) ∧
        ((∃ x, o = some x ∧ x.name = name) ↔
          env.registerOk = true ∧ env.timeoutsOk = true ∧ t.handles.length < 16) := by
      intro u e1 e2 e3 hlt
      unfold openNew
      dsimp only
      by_cases hr : env.registerOk = false ∨ env.timeoutsOk = false
      · rw [if_pos hr]
        refine ⟨_, _, rfl, Or.inl e1, ?_⟩
        rcases hr with hr | hr <;> simp [hr]
      · rw [if_neg hr, if_neg (by omega)]
        refine ⟨_, _, rfl, Or.inr ⟨_, by rw [e1], by simp [e2]⟩, ?_⟩
        simp only [not_or, Bool.not_eq_false] at hr
        simp [hr.1, hr.2, hlt]
    unfold openRest
    by_cases hfull : isFull t = true
    · rw [if_pos hfull]
      have hge : ¬ t.handles.length < 16 := by
        simp only [isFull, maxHandles, ge_iff_le, decide_eq_true_eq] at hfull; omega
      cases p with
      | some q => exact absurd (hp rfl) hge
      | none => exact ⟨_, _, rfl, Or.inl rfl, by simp [hge]⟩
    · rw [if_neg hfull]
      have hlt : t.handles.length < 16 := by
        simp only [isFull, maxHandles, ge_iff_le, decide_eq_true_eq] at hfull; omega
      split
      · exact onew t rfl rfl rfl hlt
      · exact onew _ rfl rfl rfl hlt
  have fin : ∀ (t s' : State) (o : Option Handle), Inv t →
      (s'.handles = t.handles ∨ ∃ x, s'.handles = t.handles ++ [x] ∧ x.addr = t.nextAddr) →
      ∀ q : Handle, q.addr < t.nextAddr → isValid t q.addr = false → isValid s' q.addr = false := by
    intro t s' o ht hc q hq hv
    rcases hc with e | ⟨x, e, hx⟩
    · simp only [isValid, e]; exact hv
    · simp only [isValid, e, List.any_append, Bool.or_eq_false_iff]
      refine ⟨hv, ?_⟩
      simp only [List.any_cons, List.any_nil, Bool.or_false, decide_eq_false_iff_not]
      omega
  have fold : ∀ (s' : State) (o : Option Handle), openHandle s name env = .ok (s', o) →
      ∃ out, step s (.open_ name env) = .ok (s', out) ∧
        ((∃ x, out = .opened x ∧ x.name = name) ↔ ∃ x, o = some x ∧ x.name = name) := by
    intro s' o ho
    simp only [step, ho, Res.ok_bind]
    cases o with
    | none => exact ⟨_, rfl, by simp⟩
    | some x => exact ⟨_, rfl, by simp⟩
  cases hp : getByName s name with
  | none =>
    obtain ⟨s', o, e, hcase, hiff⟩ := rest s none hi rfl (by simp)
    obtain ⟨out, e1, e2⟩ := fold s' o (by simp only [openHandle, hp]; exact e)
    refine ⟨s', out, e1, by simp, ?_⟩
    rw [e2, hiff]; simp
  | some q =>
    have hq := getByNameLoop_some (l := s.handles) hp
    have hlen : (close s q.addr).1.handles.length + 1 = s.handles.length := by
      rw [close_handles, remove_eq,
        List.length_eraseP_of_mem (a := q) hq.1 (by simp)]
      have : 0 < s.handles.length := List.length_pos_of_mem hq.1
      omega
    have hsz := hi.size
    simp only [maxHandles] at hsz
    obtain ⟨s', o, e, hcase, hiff⟩ := rest (close s q.addr).1 (some q) (inv_close hi _)
      (close_next s q.addr).2 (by intro _; omega)
    obtain ⟨out, e1, e2⟩ := fold s' o (by simp only [openHandle, hp]; exact e)
    refine ⟨s', out, e1, ?_, ?_⟩
    · rintro p hpp
      cases hpp
      apply fin _ s' o (inv_close hi _) hcase q
      · rw [(close_next s q.addr).1]; exact hi.addrBound q hq.1
      · simp only [isValid, close_handles, List.any_eq_false, decide_eq_true_eq]
        exact fun z hz => addr_of_mem_remove hi.addrs hz
    · rw [e2, hiff]
      constructor
      · rintro ⟨a, b, -⟩; exact ⟨a, b, Or.inr rfl⟩
      · rintro ⟨a, b, -⟩; exact ⟨a, b, by omega⟩

/-- An environment in which everything succeeds, and one with the broker down. -/
private def good : Env := ⟨true, true, true⟩
private def down : Env := ⟨false, true, true⟩

example : ∃ s outs, Verif.Handle.run Verif.Handle.init
    [.open_ [65] good, .open_ [66] good, .open_ [65] good, .close 2] = .ok (s, outs) ∧
    getByName s [65] = some ⟨3, 3, [65]⟩ ∧ getByName s [66] = none ∧ s.lastId + 1 < 2 ^ 31 ∧
    isValid s 3 ∧ ¬ isValid s 1 ∧ getById s 3 = some ⟨3, 3, [65]⟩ ∧ getById s 2 = some ⟨3, 3, [65]⟩ :=
  ⟨_, _, rfl, by decide⟩

example : ∃ s outs, Verif.Handle.run Verif.Handle.init [.open_ [65] good] = .ok (s, outs) ∧
    s.handles = [⟨1, 1, [65]⟩] ∧ down.connectOk = false := ⟨_, _, rfl, by decide⟩

/-- **C57 fails** when a component that has the only open handle is opened again and the broker
cannot be reached: the previous handle is closed, which also drops the connection, and then freed a
second time. -/
theorem C57_reopen_fails (s : State) (x : Handle) (hx : s.handles = [x])
    (env : Env) (hc : env.connectOk = false) : step s (.open_ x.name env) = .ub := by
  have hg : getByName s x.name = some x := by simp [getByName, hx, getByNameLoop]
  have hcl : (close s x.addr).1 = { s with handles := [], connected := false } := by
    simp [close, isValid, hx, remove]
  simp only [step, openHandle, hg, hcl, openRest, isFull, maxHandles, hc, exitError1]
  rfl

end Verif.Props
