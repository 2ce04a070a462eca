import Verif.Proof.DynamicTable

/-!
# C101: tables kept up to date by handlers
-/

namespace Verif.Props

open Verif Verif.DynamicTable Verif.Spec.DynamicTable

private def ip : Bytes := "IP".toUTF8.data.toList
private def port : Bytes := "Port".toUTF8.data.toList
private def address : Bytes := "Address".toUTF8.data.toList
private def status : Bytes := "Status".toUTF8.data.toList

/-- `IP.Port.{i}.Status` and `IP.Port.{i}.Address.{i}.`. -/
private def demoTree : List Node :=
  [.object (.word ip) [.table (.word port) true
    [.leaf (.word status), .table (.word address) true [.leaf (.word status)] []] []]]

private def demoData : Path → List Nat := fun p => if p.length = 2 then [2, 5] else [7]

private theorem registered_demo : Registered demoTree := by
  refine .mk _ (by decide) ?_ ?_ (by simp [demoTree]) (by simp [demoTree])
  · simp [demoTree, Node.tok]
  · intro tok cs h
    simp only [demoTree, List.mem_singleton, Node.object.injEq] at h
    obtain ⟨_, rfl⟩ := h
    refine .mk _ (by simp) (by simp [Node.tok]) (by simp) (by simp) ?_
    intro tok h tm rs hm
    simp only [List.mem_singleton, Node.table.injEq] at hm
    obtain ⟨_, _, rfl, _⟩ := hm
    refine .mk _ (by decide) (by simp [Node.tok]) (by simp) (by simp) ?_
    intro tok h tm rs hm
    simp only [List.mem_cons, reduceCtorEq, Node.table.injEq, List.not_mem_nil, or_false, false_or] at hm
    obtain ⟨_, _, rfl, _⟩ := hm
    exact .mk _ (by simp) (by simp [Node.tok]) (by simp) (by simp) (by simp)

/-- Whatever was asked before, and however the data changed then and during that, the names below an element are those
of what is registered with the rows of the data now, each once, in the levels asked for; an element that is not there
with the data now is not found. The number told before the names is that of the names. -/
theorem C101_names (reg : List Node) (hreg : Registered reg) (h : List (World × Request)) (d : Path → List Nat)
    (p : Path) (hp : p ≠ []) (depth : Int) :
    ∃ ns r, after reg h = .ok ns ∧ serve (fun _ => d) ns (.names p depth) = .ok r ∧
      match lookup d [] reg p with
      | none => r.2.2 = .absent
      | some _ => ∃ l, r.2.2 = .names l.length l ∧ l.Nodup ∧
          ∀ q, q ∈ l ↔ ∃ s, q = p ++ s ∧ (lookup d [] reg q).isSome ∧ InDepth depth s.length := by
  obtain ⟨ns, hns⟩ := after_alive h reg
  have hf := after_fits h reg ns (fits_self hreg).1 hns
  refine ⟨ns, _, hns, rfl, ?_⟩
  obtain ⟨h1, h2⟩ := descend_at d (namesAt (fun _ => d) depth) hp 0 hf
  cases hl : lookup d [] reg p with
  | none => exact h1 hl
  | some kind =>
    obtain ⟨c, i, u, hci, _, hn, ha⟩ := h2 kind hl
    refine ⟨outs d (wanted depth) depth.natAbs p i, ?_, outs_nodup _ _ _ _ c i hci, ?_⟩
    · rw [ha, namesAt_answer, visit_out]
    · intro q
      rw [outs_mem d _ _ p c i hci q]
      constructor
      · rintro ⟨s, rfl, hs, k, hk, he⟩
        refine ⟨s, rfl, ?_, ?_⟩
        · rw [← hn, hk]; rfl
        · simp only [wanted, Bool.or_eq_true, decide_eq_true_eq, beq_iff_eq] at he
          unfold InDepth
          omega
      · rintro ⟨s, rfl, hs, hd⟩
        obtain ⟨k, hk⟩ := Option.isSome_iff_exists.mp hs
        rw [← hn] at hk
        refine ⟨s, rfl, ?_, k, hk, ?_⟩
        · rcases hd with ⟨_, h⟩ | ⟨_, h⟩ <;> omega
        · simp only [wanted, Bool.or_eq_true, decide_eq_true_eq, beq_iff_eq]
          rcases hd with ⟨h, _⟩ | ⟨_, h⟩
          · exact Or.inl h
          · right; omega

example : ∃ r, serve (fun _ => demoData) demoTree (.names [.word ip, .word port] 1) = .ok r ∧
    r.2.2 = .names 3 [[.word ip, .word port], [.word ip, .word port, .row 2], [.word ip, .word port, .row 5]] :=
  ⟨_, rfl, by decide +kernel⟩

/-- The rows of a table are those of the data now, each once; what is no table or not there is told apart. -/
theorem C101_row_names (reg : List Node) (hreg : Registered reg) (h : List (World × Request)) (d : Path → List Nat)
    (p : Path) (hp : p ≠ []) :
    ∃ ns r, after reg h = .ok ns ∧ serve (fun _ => d) ns (.rowNames p) = .ok r ∧
      match lookup d [] reg p with
      | none => r.2.2 = .absent
      | some .table => ∃ l, r.2.2 = .rows l ∧ l.Nodup ∧ ∀ n, n ∈ l ↔ n ∈ d p
      | some _ => r.2.2 = .notTable := by
  obtain ⟨ns, hns⟩ := after_alive h reg
  have hf := after_fits h reg ns (fits_self hreg).1 hns
  refine ⟨ns, _, hns, rfl, ?_⟩
  obtain ⟨h1, h2⟩ := descend_at d (rowsAt (fun _ => d)) hp 0 hf
  cases hl : lookup d [] reg p with
  | none => exact h1 hl
  | some kind =>
    obtain ⟨c, i, u, hci, hk, _, ha⟩ := h2 kind hl
    cases kind with
    | table => exact rows_answer d hp 0 hf hl
    | leaf => cases hci <;> first | exact ha | exact absurd hk (by simp [Node.kind])
    | object => cases hci <;> first | exact ha | exact absurd hk (by simp [Node.kind])

example : ∃ ns r, after demoTree [(fun t _ => if t = 0 then [2, 5, 9] else [2, 9],
      .wildcard [.word ip, .word port] [.word status])] = .ok ns ∧
    serve (fun _ => demoData) ns (.rowNames [.word ip, .word port]) = .ok r ∧ r.2.2 = .rows [2, 5] :=
  ⟨_, _, rfl, rfl, by decide +kernel⟩

/-- A property can be read exactly when it is there with the data now, with rows that nobody asked for before too. -/
theorem C101_value (reg : List Node) (hreg : Registered reg) (h : List (World × Request)) (d : Path → List Nat)
    (p : Path) (hp : p ≠ []) :
    ∃ ns r, after reg h = .ok ns ∧ serve (fun _ => d) ns (.value p) = .ok r ∧
      r.2.2 = match lookup d [] reg p with
        | none => .absent
        | some .leaf => .values [p]
        | some _ => .values [] := by
  obtain ⟨ns, hns⟩ := after_alive h reg
  have hf := after_fits h reg ns (fits_self hreg).1 hns
  refine ⟨ns, _, hns, rfl, ?_⟩
  cases hl : lookup d [] reg p with
  | none => exact (descend_at d valueAt hp 0 hf).1 hl
  | some kind =>
    have := value_answer d hp 0 hf hl
    cases kind <;> exact this

example : ∃ r, serve (fun _ => demoData) demoTree
      (.value [.word ip, .word port, .row 5, .word address, .row 7, .word status]) = .ok r ∧
    r.2.2 = .values [[.word ip, .word port, .row 5, .word address, .row 7, .word status]] :=
  ⟨_, rfl, by decide +kernel⟩

/-- A read of all that is below an element gives each property there with the data now, once. -/
theorem C101_branch (reg : List Node) (hreg : Registered reg) (h : List (World × Request)) (d : Path → List Nat)
    (p : Path) (hp : p ≠ []) :
    ∃ ns r, after reg h = .ok ns ∧ serve (fun _ => d) ns (.branch p) = .ok r ∧
      match lookup d [] reg p with
      | none => r.2.2 = .absent
      | some _ => ∃ l, r.2.2 = .values l ∧ l.Nodup ∧
          ∀ q, q ∈ l ↔ ∃ s, q = p ++ s ∧ lookup d [] reg q = some .leaf := by
  obtain ⟨ns, hns⟩ := after_alive h reg
  have hf := after_fits h reg ns (fits_self hreg).1 hns
  refine ⟨ns, _, hns, rfl, ?_⟩
  obtain ⟨h1, h2⟩ := descend_at d (branchAt (fun _ => d)) hp 0 hf
  cases hl : lookup d [] reg p with
  | none => exact h1 hl
  | some kind =>
    obtain ⟨c, i, u, hci, _, hn, ha⟩ := h2 kind hl
    refine ⟨outs d (fun _ k => k == .leaf) i.height p i, ?_, outs_nodup _ _ _ _ c i hci, ?_⟩
    · rw [ha]
      simp only [branchAt, visit_out]
    · intro q
      have hh : c.height = i.height := by
        have := fits_height hci
        simpa [Node.height.heights] using this
      rw [outs_mem d _ _ p c i hci q]
      constructor
      · rintro ⟨s, rfl, hs, k, hk, he⟩
        refine ⟨s, rfl, ?_⟩
        rw [← hn, hk]
        simpa using he
      · rintro ⟨s, rfl, hs⟩
        rw [← hn] at hs
        exact ⟨s, rfl, hh ▸ lookNode_height d p c s _ hs, .leaf, hs, by simp⟩

example : ∃ r, serve (fun _ => demoData) demoTree (.branch [.word ip]) = .ok r ∧
    r.2.2 = .values [[.word ip, .word port, .row 2, .word status],
      [.word ip, .word port, .row 2, .word address, .row 7, .word status],
      [.word ip, .word port, .row 5, .word status],
      [.word ip, .word port, .row 5, .word address, .row 7, .word status]] :=
  ⟨_, rfl, by decide +kernel⟩

/-- As long as the data does not change during the read, `table.*.rest` gives the property of each row of the data,
once. -/
theorem C101_wildcard_partial (reg : List Node) (hreg : Registered reg) (h : List (World × Request))
    (d : Path → List Nat) (table rest : Path) (hp : table ≠ []) (ht : lookup d [] reg table = some .table)
    (hl : ∀ r ∈ d table, lookup d [] reg (table ++ .row r :: rest) = some .leaf) :
    ∃ ns r l, after reg h = .ok ns ∧ serve (fun _ => d) ns (.wildcard table rest) = .ok r ∧ r.2.2 = .values l ∧
      l.Nodup ∧ ∀ q, q ∈ l ↔ ∃ r ∈ d table, q = table ++ .row r :: rest := by
  obtain ⟨ns, hns⟩ := after_alive h reg
  have hf := after_fits h reg ns (fits_self hreg).1 hns
  obtain ⟨l, ha, hnd, hm⟩ := rows_answer d hp 0 hf ht
  obtain ⟨ns', t', e⟩ := wildcard_answer d table rest reg hreg l
    (descend (fun _ => d) (rowsAt (fun _ => d)) table [] 0 ns).2.1 _ []
    (descend_fits _ (rowsAt_fits _) _ _ 0 _ _ hf) (descend_rows_holds _ _ _ _ _ _ ha)
    (fun r hr => hl r ((hm r).mp hr))
  refine ⟨ns, (ns', t', .values ([] ++ l.map (fun r => table ++ .row r :: rest))),
    [] ++ l.map (fun r => table ++ .row r :: rest), hns, ?_, rfl, ?_, ?_⟩
  · unfold serve
    simp only [ha]
    exact e
  · rw [List.nil_append]
    refine List.pairwise_map.mpr (hnd.imp ?_)
    intro a b hab e
    simp only [List.append_cancel_left_eq, List.cons.injEq, Token.row.injEq, and_true] at e
    exact hab e
  · intro q
    simp only [List.nil_append, List.mem_map]
    constructor
    · rintro ⟨r, hr, rfl⟩; exact ⟨r, (hm r).mp hr, rfl⟩
    · rintro ⟨r, hr, rfl⟩; exact ⟨r, (hm r).mpr hr, rfl⟩

example : ∃ r, serve (fun _ => demoData) demoTree (.wildcard [.word ip, .word port] [.word status]) = .ok r ∧
    r.2.2 = .values [[.word ip, .word port, .row 2, .word status], [.word ip, .word port, .row 5, .word status]] :=
  ⟨_, rfl, by decide +kernel⟩

/-- Even when the data changes during a request, and whatever the tree: the number told before the names is that of
the names, and the names are given once the handlers have been called, with none called between counting and
listing. -/
theorem C101_count (w : World) (ns : List Node) (p : Path) (depth : Int) (n : Nat) (l : List Path)
    (r : List Node × Nat × Answer) (h : serve w ns (.names p depth) = .ok r) (ha : r.2.2 = .names n l) :
    n = l.length := by
  simp only [serve, Res.ok.injEq] at h
  subst h
  have H : ∀ (path pre : Path) (t : Nat) (ns : List Node),
      (descend w (namesAt w depth) path pre t ns).2.2 = .names n l → n = l.length := by
    intro path
    induction path with
    | nil => intro pre t ns h; simp [descend] at h
    | cons tok rest ih =>
      intro pre t ns h
      rw [descend_cons] at h
      cases hf : ns.find? (fun n => n.tok == tok) with
      | none => rw [(onFirst_find tok _ t ns).1 hf] at h; simp at h
      | some m =>
        rw [(onFirst_find tok _ t ns).2 m hf] at h
        cases rest with
        | nil =>
          simp only [stepNode, namesAt_answer, Answer.names.injEq] at h
          rw [← h.1, ← h.2]
        | cons a b =>
          cases m with
          | leaf tk => simp [stepNode] at h
          | object tk cs => exact ih _ _ _ h
          | table tk hd tm rs => exact ih _ _ _ h
  exact H p [] 0 ns ha

example : ∃ r, serve (fun t _ => [t, t + 1]) demoTree (.names [.word ip] 4) = .ok r ∧
    ∃ n l, r.2.2 = .names n l ∧ n = 12 :=
  ⟨_, rfl, _, _, rfl, by decide +kernel⟩

/-- However the data changes during requests, no request goes on from a row that has been removed. -/
theorem C101_alive (reg : List Node) (h : List (World × Request)) (w : World) (q : Request) :
    ∃ ns r, after reg h = .ok ns ∧ serve w ns q = .ok r := by
  obtain ⟨ns, hns⟩ := after_alive h reg
  obtain ⟨r, hr⟩ := serve_alive w ns q
  exact ⟨ns, r, hns, hr⟩

/-- A row that goes away before the read comes to it is not given. -/
example : ∃ r, serve (fun t _ => if t = 0 then [2, 5, 9] else [2, 9]) demoTree
      (.wildcard [.word ip, .word port] [.word status]) = .ok r ∧
    r.2.2 = .values [[.word ip, .word port, .row 2, .word status], [.word ip, .word port, .row 9, .word status]] :=
  ⟨_, rfl, by decide +kernel⟩

/-- A read with a wildcard fails as a whole when a row goes away while it runs: each row is read by its full name, which
calls the handler again, and a row that this removes is an error that ends the read. Here row 1 is there all the time,
and its value is lost with that of row 2. -/
theorem C101_wildcard_fails (b x : Bytes) :
    let reg := [Node.table (.word b) true [.leaf (.word x)] []]
    let w : World := fun t _ => if t < 2 then [1, 2] else [1]
    Registered reg ∧ (∀ t p, 1 ∈ w t p) ∧
      ∃ r, serve w reg (.wildcard [.word b] [.word x]) = .ok r ∧ r.2.2 = .absent := by
  refine ⟨?_, ?_, ?_⟩
  · refine .mk _ (by simp) (by simp [Node.tok]) (by simp) (by simp) ?_
    intro tok h tm rs hm
    simp only [List.mem_singleton, Node.table.injEq] at hm
    obtain ⟨_, _, rfl, _⟩ := hm
    exact .mk _ (by simp) (by simp [Node.tok]) (by simp) (by simp) (by simp)
  · intro t p
    dsimp only
    split <;> simp
  · obtain ⟨r, hr⟩ := serve_alive (fun t _ => if t < 2 then [1, 2] else [1])
      [Node.table (.word b) true [.leaf (.word x)] []] (.wildcard [.word b] [.word x])
    refine ⟨r, hr, ?_⟩
    simp [serve, descend, onFirst, rowsAt, valueAt, callHandler, syncRows, dropRows, registerRow, Node.tok, rowNumbers,
      wildcardLoop, holds, Node.kind, List.filterMap] at hr
    rw [← hr]

/-- A handler given to a table inside a table after rows exist does not reach these rows: rows have copies of what the
template had when they were made, and `rbus_registerDynamicTableSyncHandler` changes the template only. Whatever the
data, such a table stays empty, while in rows made later it is kept up to date. -/
theorem C101_late_fails (a b x : Bytes) (d : Path → List Nat) (hd : d [.word a] = [1, 2])
    (n : Nat) (h2 : d [.word a, .row 2, .word b] = [n]) :
    ∃ ns, after [Node.table (.word a) true [.table (.word b) false [.leaf (.word x)] []] []]
        [(fun _ _ => [1], .rowNames [.word a])] = .ok ns ∧
      (∃ r, serve (fun _ => d) (setHandler [a, b] ns) (.rowNames [.word a, .row 1, .word b]) = .ok r ∧
        r.2.2 = .rows []) ∧
      (∃ r, serve (fun _ => d) (setHandler [a, b] ns) (.rowNames [.word a, .row 2, .word b]) = .ok r ∧
        r.2.2 = .rows [n]) := by
  refine ⟨[Node.table (.word a) true [.table (.word b) false [.leaf (.word x)] []]
    [.object (.row 1) [.table (.word b) false [.leaf (.word x)] []]]], ?_, ?_, ?_⟩
  · simp [after, serve, descend, onFirst, rowsAt, callHandler, syncRows, dropRows, registerRow, Node.tok]
  · refine ⟨_, rfl, ?_⟩
    simp [setHandler, descend, onFirst, rowsAt, callHandler, syncRows, dropRows, registerRow, Node.tok, rowNumbers, hd]
  · refine ⟨_, rfl, ?_⟩
    simp [setHandler, descend, onFirst, rowsAt, callHandler, syncRows, dropRows, registerRow, Node.tok, rowNumbers, hd, h2]

/-- Handlers are told a name without the dot at the end that the description promises. A handler that registers its rows
under the name as given makes a second row of the same number each time it is called: the check for an existing row
looks for another name. -/
theorem C101_name_fails (n : Nat) (template : List Node) :
    rowNumbers (syncRowsAsGiven [n] template (syncRowsAsGiven [n] template [])) = [n, n] ∧
      rowNumbers (syncRows [n] template (syncRows [n] template [])) = [n] := by
  simp [syncRowsAsGiven, syncRows, dropRows, registerRow, rowNumbers, Node.tok]

end Verif.Props
