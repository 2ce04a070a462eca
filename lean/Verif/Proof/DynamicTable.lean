import Verif.Spec.DynamicTable

/-!
# Lemmas about tables kept up to date by handlers
-/

namespace Verif.DynamicTable

open Verif Verif.Spec.DynamicTable

/-- The rows as if each had been registered by itself. -/
def virt (tm rows : List Node) : List Node := rows.map (fun r => .object r.tok tm)

/-- The tree now is that registered, with rows. -/
inductive Fits : List Node → List Node → Prop
  | nil : Fits [] []
  | leaf (t : Token) (cs ds : List Node) (h : Fits cs ds) : Fits (.leaf t :: cs) (.leaf t :: ds)
  | object (t : Token) (xs ys cs ds : List Node) (nd : (xs.map Node.tok).Nodup) (hx : Fits xs ys) (h : Fits cs ds) :
      Fits (.object t xs :: cs) (.object t ys :: ds)
  | table (t : Token) (tm rs rows cs ds : List Node) (nd : (tm.map Node.tok).Nodup) (self : Fits tm tm)
      (nr : (rows.map Node.tok).Nodup) (num : ∀ r ∈ rows, ∃ n, r.tok = .row n) (hr : Fits (virt tm rows) rows)
      (h : Fits cs ds) : Fits (.table t true tm rs :: cs) (.table t true tm rows :: ds)

theorem fits_toks {cs ds : List Node} (h : Fits cs ds) : cs.map Node.tok = ds.map Node.tok := by
  induction h with
  | nil => rfl
  | leaf t cs ds _ ih => simp [Node.tok, ih]
  | object t xs ys cs ds _ _ _ _ ih => simp [Node.tok, ih]
  | table t tm rs rows cs ds _ _ _ _ _ _ _ _ ih => simp [Node.tok, ih]

theorem fits_cons {c i : Node} {cs ds : List Node} (h : Fits [c] [i]) (ht : Fits cs ds) : Fits (c :: cs) (i :: ds) := by
  cases h with
  | leaf t _ _ _ => exact .leaf t cs ds ht
  | object t xs ys _ _ nd hx _ => exact .object t xs ys cs ds nd hx ht
  | table t tm rs rows _ _ nd self nr num hr _ => exact .table t tm rs rows cs ds nd self nr num hr ht

theorem fits_uncons {c i : Node} {cs ds : List Node} (h : Fits (c :: cs) (i :: ds)) : Fits [c] [i] ∧ Fits cs ds := by
  cases h with
  | leaf t _ _ h => exact ⟨.leaf t _ _ .nil, h⟩
  | object t xs ys _ _ nd hx h => exact ⟨.object t xs ys _ _ nd hx .nil, h⟩
  | table t tm rs rows _ _ nd self nr num hr h => exact ⟨.table t tm rs rows _ _ nd self nr num hr .nil, h⟩

theorem fits_ind {P : List Node → List Node → Prop} (nil : P [] [])
    (cons : ∀ c i cs ds, Fits [c] [i] → Fits cs ds → P cs ds → P (c :: cs) (i :: ds)) :
    ∀ {cs ds : List Node}, Fits cs ds → P cs ds := by
  intro cs
  induction cs with
  | nil => intro ds h; cases h; exact nil
  | cons c cs ih =>
    intro ds h
    cases ds with
    | nil => cases h
    | cons i ds =>
      obtain ⟨h1, h2⟩ := fits_uncons h
      exact cons c i cs ds h1 h2 (ih h2)

theorem fits_tok {c i : Node} (h : Fits [c] [i]) : c.tok = i.tok := by
  have := fits_toks h
  simpa using this

theorem fits_kind {c i : Node} (h : Fits [c] [i]) : c.kind = i.kind := by
  cases h <;> rfl

theorem fits_right {cs ds : List Node} (h : Fits cs ds) : ∀ i ∈ ds, ∃ c ∈ cs, Fits [c] [i] := by
  refine fits_ind (P := fun cs ds => ∀ i ∈ ds, ∃ c ∈ cs, Fits [c] [i]) (by simp) ?_ h
  intro c i cs ds h1 _ ih j hj
  rcases List.mem_cons.mp hj with rfl | hj
  · exact ⟨c, by simp, h1⟩
  · obtain ⟨c', hc, h'⟩ := ih j hj
    exact ⟨c', by simp [hc], h'⟩

theorem fits_left {cs ds : List Node} (h : Fits cs ds) : ∀ c ∈ cs, ∃ i ∈ ds, Fits [c] [i] := by
  refine fits_ind (P := fun cs ds => ∀ c ∈ cs, ∃ i ∈ ds, Fits [c] [i]) (by simp) ?_ h
  intro c i cs ds h1 _ ih j hj
  rcases List.mem_cons.mp hj with rfl | hj
  · exact ⟨i, by simp, h1⟩
  · obtain ⟨c', hc, h'⟩ := ih j hj
    exact ⟨c', by simp [hc], h'⟩

theorem fits_self {ns : List Node} (h : Registered ns) : Fits ns ns ∧ (ns.map Node.tok).Nodup := by
  induction h with
  | mk ns nd wo ob ha te iho iht =>
    refine ⟨?_, nd⟩
    suffices H : ∀ l : List Node, (∀ n ∈ l, n ∈ ns) → Fits l l from H ns (fun _ h => h)
    intro l
    induction l with
    | nil => intro _; exact .nil
    | cons n l ih =>
      intro hl
      have htl := ih (fun m hm => hl m (by simp [hm]))
      have hn := hl n (by simp)
      cases n with
      | leaf t => exact .leaf t _ _ htl
      | object t cs => exact .object t cs cs _ _ (iho t cs hn).2 (iho t cs hn).1 htl
      | table t h tm rs =>
        obtain ⟨rfl, rfl⟩ := ha t h tm rs hn
        exact .table t tm [] [] _ _ (iht _ _ _ _ hn).2 (iht _ _ _ _ hn).1 (by simp) (by simp) .nil htl

/-! ## Rows after a handler -/

/-- Rows of a table with this template. -/
def RowsFit (tm rows : List Node) : Prop :=
  (rows.map Node.tok).Nodup ∧ (∀ r ∈ rows, ∃ n, r.tok = .row n) ∧ Fits (virt tm rows) rows

theorem virt_eq_of_toks {tm a b : List Node} (h : a.map Node.tok = b.map Node.tok) : virt tm a = virt tm b := by
  have e : ∀ l : List Node, virt tm l = (l.map Node.tok).map (fun t => Node.object t tm) := by
    intro l; simp [virt, Function.comp_def]
  rw [e, e, h]

theorem virt_toks (tm rows : List Node) : (virt tm rows).map Node.tok = rows.map Node.tok := by
  simp [virt, Function.comp_def, Node.tok]

theorem fits_append {as bs cs ds : List Node} (h1 : Fits as bs) (h2 : Fits cs ds) : Fits (as ++ cs) (bs ++ ds) := by
  revert h2
  refine fits_ind (P := fun as bs => Fits cs ds → Fits (as ++ cs) (bs ++ ds)) (fun h => h) ?_ h1
  intro c i as bs hci _ ih h
  exact fits_cons hci (ih h)

theorem rowsFit_drop {tm rows : List Node} (data : List Nat) (h : RowsFit tm rows) : RowsFit tm (dropRows data rows) := by
  obtain ⟨h1, h2, h3⟩ := h
  refine ⟨?_, ?_, ?_⟩
  · exact h1.sublist (List.filter_sublist.map _)
  · intro r hr
    exact h2 r (List.mem_filter.mp hr).1
  · unfold dropRows
    generalize (fun r : Node => match r.tok with
      | .row n => data.contains n
      | .word _ => true) = P
    clear h1 h2
    induction rows with
    | nil => exact .nil
    | cons r rs ih =>
      obtain ⟨ha, hb⟩ := fits_uncons h3
      rw [List.filter_cons]
      split
      · exact fits_cons ha (ih hb)
      · exact ih hb

theorem rowsFit_register {tm rows : List Node} (self : Fits tm tm) (nd : (tm.map Node.tok).Nodup) (n : Nat)
    (h : RowsFit tm rows) : RowsFit tm (registerRow true tm rows n) := by
  unfold registerRow
  split
  · exact h
  · rename_i hn
    obtain ⟨h1, h2, h3⟩ := h
    simp only [Bool.true_and, List.any_eq_true, beq_iff_eq, not_exists, not_and] at hn
    refine ⟨?_, ?_, ?_⟩
    · rw [List.map_append, List.nodup_append]
      refine ⟨h1, by simp, ?_⟩
      intro a ha b hb e
      obtain ⟨r, hr, rfl⟩ := List.mem_map.mp ha
      simp only [List.map_cons, List.map_nil, List.mem_singleton, Node.tok] at hb
      exact hn r hr (e.trans hb)
    · intro r hr
      rcases List.mem_append.mp hr with hr | hr
      · exact h2 r hr
      · simp only [List.mem_singleton] at hr
        exact ⟨n, by rw [hr]; rfl⟩
    · simp only [virt, List.map_append]
      exact fits_append h3 (.object _ _ _ _ _ nd self .nil)

theorem rowsFit_sync {tm rows : List Node} (self : Fits tm tm) (nd : (tm.map Node.tok).Nodup) (data : List Nat)
    (h : RowsFit tm rows) : RowsFit tm (syncRows data tm rows) := by
  unfold syncRows
  suffices H : ∀ (l : List Nat) (rs : List Node), RowsFit tm rs → RowsFit tm (l.foldl (registerRow true tm) rs) from
    H data _ (rowsFit_drop data h)
  intro l
  induction l with
  | nil => intro rs h; exact h
  | cons n l ih => intro rs h; exact ih _ (rowsFit_register self nd n h)

theorem register_toks (tm rows : List Node) (n : Nat) (t : Token) :
    t ∈ (registerRow true tm rows n).map Node.tok ↔ t ∈ rows.map Node.tok ∨ t = .row n := by
  unfold registerRow
  split
  · rename_i h
    simp only [Bool.true_and, List.any_eq_true, beq_iff_eq] at h
    obtain ⟨r, hr, e⟩ := h
    constructor
    · exact Or.inl
    · rintro (h | rfl)
      · exact h
      · exact List.mem_map.mpr ⟨r, hr, e⟩
  · simp [Node.tok]

theorem sync_toks (data : List Nat) (tm rows : List Node) (n : Nat) :
    .row n ∈ (syncRows data tm rows).map Node.tok ↔ n ∈ data := by
  unfold syncRows
  have H : ∀ (l : List Nat) (rs : List Node), .row n ∈ (l.foldl (registerRow true tm) rs).map Node.tok ↔
      .row n ∈ rs.map Node.tok ∨ n ∈ l := by
    intro l
    induction l with
    | nil => intro rs; simp
    | cons m l ih =>
      intro rs
      rw [List.foldl_cons, ih, register_toks]
      simp only [Token.row.injEq, List.mem_cons, or_assoc]
  rw [H]
  constructor
  · rintro (h | h)
    · obtain ⟨r, hr, e⟩ := List.mem_map.mp h
      have := (List.mem_filter.mp hr).2
      rw [e] at this
      simpa using this
    · exact h
  · exact Or.inr

theorem rowsFit_call {tm rows : List Node} (self : Fits tm tm) (nd : (tm.map Node.tok).Nodup) (w : World) (p : Path)
    (t : Nat) (b : Bool) (h : RowsFit tm rows) : RowsFit tm (callHandler w p t b tm rows).1 := by
  unfold callHandler
  split
  · exact rowsFit_sync self nd _ h
  · exact h

/-! ## The tree keeps its form -/

theorem each_fits {g : Nat → Node → Node × Nat × List Path}
    (hg : ∀ t c i, Fits [c] [i] → Fits [c] [(g t i).1]) {cs ds : List Node} (h : Fits cs ds) :
    ∀ t, Fits cs (each g t ds).1 := by
  refine fits_ind (P := fun cs ds => ∀ t, Fits cs (each g t ds).1) (fun _ => .nil) ?_ h
  intro c i cs ds hci _ ih t
  exact fits_cons (hg t c i hci) (ih _)

theorem rowsFit_of {tm rows rows' : List Node} (h : RowsFit tm rows) (hf : Fits (virt tm rows) rows') :
    RowsFit tm rows' := by
  have ht : rows.map Node.tok = rows'.map Node.tok := by rw [← virt_toks tm rows]; exact fits_toks hf
  refine ⟨ht ▸ h.1, ?_, virt_eq_of_toks (tm := tm) ht ▸ hf⟩
  intro r hr
  have : r.tok ∈ rows.map Node.tok := ht ▸ List.mem_map_of_mem hr
  obtain ⟨r', hr', e⟩ := List.mem_map.mp this
  rw [← e]
  exact h.2.1 r' hr'

theorem visit_fits (w : World) (sync : Bool) (emit : Nat → Kind → Bool) :
    ∀ (k : Nat) (p : Path) (t : Nat) (c i : Node), Fits [c] [i] → Fits [c] [(visit w sync emit k p t i).1] := by
  intro k
  induction k with
  | zero => intro p t c i h; exact h
  | succ k ih =>
    intro p t c i h
    cases h with
    | leaf tok _ _ _ => exact .leaf tok _ _ .nil
    | object tok xs ys _ _ nd hx _ =>
      exact .object tok _ _ _ _ nd (each_fits (fun t c i h => ih _ t c i h) hx t) .nil
    | table tok tm rs rows _ _ nd self nr num hr _ =>
      have h1 := rowsFit_call self nd w p t (sync && true) ⟨nr, num, hr⟩
      have h2 := rowsFit_of h1 (each_fits (fun t c i h => ih (p ++ [i.tok]) t c i h) h1.2.2
        (callHandler w p t (sync && true) tm rows).2)
      exact .table tok _ _ _ _ _ nd self h2.1 h2.2.1 h2.2.2 .nil

theorem onFirst_fits {tok : Token} {g : Node → Node × Nat × Answer} {t : Nat}
    (hg : ∀ c i, Fits [c] [i] → Fits [c] [(g i).1]) {cs ds : List Node} (h : Fits cs ds) :
    Fits cs (onFirst tok g t ds).1 := by
  refine fits_ind (P := fun cs ds => Fits cs (onFirst tok g t ds).1) .nil ?_ h
  intro c i cs ds hci hcs ih
  unfold onFirst
  split
  · exact fits_cons (hg c i hci) hcs
  · exact fits_cons hci ih

theorem descend_fits (w : World) {f : Path → Nat → Node → Node × Nat × Answer}
    (hf : ∀ p t c i, Fits [c] [i] → Fits [c] [(f p t i).1]) :
    ∀ (path pre : Path) (t : Nat) (cs ds : List Node), Fits cs ds → Fits cs (descend w f path pre t ds).1 := by
  intro path
  induction path with
  | nil => intro pre t cs ds h; exact h
  | cons tok rest ih =>
    intro pre t cs ds h
    unfold descend
    refine onFirst_fits ?_ h
    intro c i hci
    cases rest with
    | nil => exact hf _ t c i hci
    | cons a b =>
      cases hci with
      | leaf tok _ _ _ => exact .leaf tok _ _ .nil
      | object tok xs ys _ _ nd hx _ => exact .object tok _ _ _ _ nd (ih _ t _ _ hx) .nil
      | table tk tm rs rows _ _ nd self nr num hr _ =>
        have h1 := rowsFit_call self nd w (pre ++ [tok]) t true ⟨nr, num, hr⟩
        have h2 := rowsFit_of h1 (ih (pre ++ [tok]) (callHandler w (pre ++ [tok]) t true tm rows).2 _ _ h1.2.2)
        exact .table tk _ _ _ _ _ nd self h2.1 h2.2.1 h2.2.2 .nil

theorem namesAt_fits (w : World) (depth : Int) (p : Path) (t : Nat) (c i : Node) (h : Fits [c] [i]) :
    Fits [c] [(namesAt w depth p t i).1] := by
  unfold namesAt
  exact visit_fits _ _ _ _ _ _ _ _ (visit_fits _ _ _ _ _ _ _ _ h)

theorem rowsAt_fits (w : World) (p : Path) (t : Nat) (c i : Node) (h : Fits [c] [i]) :
    Fits [c] [(rowsAt w p t i).1] := by
  cases h with
  | leaf tok _ _ _ => exact .leaf tok _ _ .nil
  | object tok xs ys _ _ nd hx _ => exact .object tok _ _ _ _ nd hx .nil
  | table tk tm rs rows _ _ nd self nr num hr _ =>
    have h1 := rowsFit_call self nd w p t true ⟨nr, num, hr⟩
    exact .table tk _ _ _ _ _ nd self h1.1 h1.2.1 h1.2.2 .nil

theorem branchAt_fits (w : World) (p : Path) (t : Nat) (c i : Node) (h : Fits [c] [i]) :
    Fits [c] [(branchAt w p t i).1] := visit_fits _ _ _ _ _ _ _ _ h

theorem wildcard_fits (w : World) (table rest : Path) (cs : List Node) :
    ∀ (l : List Nat) (t : Nat) (ns : List Node) (acc : List Path), Fits cs ns →
      ∀ r, wildcardLoop w table rest l t ns acc = .ok r → Fits cs r.1 := by
  intro l
  induction l with
  | nil => intro t ns acc h r hr; simp only [wildcardLoop, Res.ok.injEq] at hr; subst hr; exact h
  | cons n l ih =>
    intro t ns acc h r hr
    have hd := descend_fits w (f := valueAt) (fun _ _ _ _ h => h) (table ++ .row n :: rest) [] t cs ns h
    unfold wildcardLoop at hr
    dsimp only at hr
    split at hr
    · split at hr
      · split at hr
        · exact ih _ _ _ hd r hr
        · exact absurd hr (by simp)
      · simp only [Res.ok.injEq] at hr; subst hr; exact hd
    · exact ih _ _ _ h r hr

theorem serve_fits (w : World) (q : Request) {cs ns : List Node} (h : Fits cs ns) {r : List Node × Nat × Answer}
    (hr : serve w ns q = .ok r) : Fits cs r.1 := by
  cases q with
  | names p depth =>
    simp only [serve, Res.ok.injEq] at hr; subst hr
    exact descend_fits w (namesAt_fits w depth) _ _ _ _ _ h
  | rowNames p =>
    simp only [serve, Res.ok.injEq] at hr; subst hr
    exact descend_fits w (rowsAt_fits w) _ _ _ _ _ h
  | value p =>
    simp only [serve, Res.ok.injEq] at hr; subst hr
    exact descend_fits w (fun _ _ _ _ h => h) _ _ _ _ _ h
  | branch p =>
    simp only [serve, Res.ok.injEq] at hr; subst hr
    exact descend_fits w (branchAt_fits w) _ _ _ _ _ h
  | wildcard table rest =>
    have hd := descend_fits w (rowsAt_fits w) table [] 0 cs ns h
    unfold serve at hr
    dsimp only at hr
    split at hr
    · exact wildcard_fits w _ _ _ _ _ _ _ hd r hr
    · simp only [Res.ok.injEq] at hr; subst hr; exact hd

theorem after_fits {cs : List Node} : ∀ (h : List (World × Request)) (ns ns' : List Node), Fits cs ns →
    after ns h = .ok ns' → Fits cs ns' := by
  intro h
  induction h with
  | nil => intro ns ns' hf he; simp only [after, Res.ok.injEq] at he; exact he ▸ hf
  | cons e h ih =>
    intro ns ns' hf he
    obtain ⟨w, q⟩ := e
    simp only [after] at he
    cases hs : serve w ns q with
    | ok r =>
      rw [hs] at he
      exact ih r.1 ns' (serve_fits w q hf hs) he
    | fail => rw [hs] at he; simp at he
    | ub => rw [hs] at he; simp at he

/-! ## Answers when the data does not change -/

/-- The element `s` below the registered element `c` at `p`. -/
def lookNode (d : Path → List Nat) (p : Path) : Node → Path → Option Kind
  | .leaf _, s => if s.isEmpty then some .leaf else none
  | .object _ cs, s => lookup d p cs s
  | .table _ _ _ _, [] => some .table
  | .table _ _ tm _, .row r :: s => if r ∈ d p then lookup d (p ++ [.row r]) tm s else none
  | .table _ _ _ _, .word _ :: _ => none

theorem lookNode_nil (d : Path → List Nat) (p : Path) (c : Node) : lookNode d p c [] = some c.kind := by
  cases c <;> simp [lookNode, Node.kind, lookup]

theorem lookup_cons (d : Path → List Nat) (pre : Path) (cs : List Node) (tok : Token) (rest : Path) :
    lookup d pre cs (tok :: rest) =
      match cs.find? (fun n => n.tok == tok) with
      | none => none
      | some c => lookNode d (pre ++ [tok]) c rest := by
  rw [lookup.eq_def]
  dsimp only
  cases cs.find? (fun n => n.tok == tok) with
  | none => rfl
  | some c =>
    cases c with
    | leaf t => rfl
    | object t ys => rfl
    | table t h tm rs =>
      cases rest with
      | nil => rfl
      | cons a b =>
        cases a with
        | row r => simp [lookNode]
        | word b => rfl

theorem find_of_mem {cs : List Node} (nd : (cs.map Node.tok).Nodup) {c : Node} (hc : c ∈ cs) :
    cs.find? (fun n => n.tok == c.tok) = some c := by
  induction cs with
  | nil => simp at hc
  | cons a cs ih =>
    rw [List.map_cons, List.nodup_cons] at nd
    rcases List.mem_cons.mp hc with rfl | hc
    · simp
    · have : a.tok ≠ c.tok := fun e => nd.1 (e ▸ List.mem_map_of_mem hc)
      rw [List.find?_cons_of_neg (by simpa using this)]
      exact ih nd.2 hc

theorem lookup_cons_iff {d : Path → List Nat} {pre : Path} {cs : List Node} (nd : (cs.map Node.tok).Nodup)
    {tok : Token} {rest : Path} {k : Kind} :
    lookup d pre cs (tok :: rest) = some k ↔ ∃ c ∈ cs, c.tok = tok ∧ lookNode d (pre ++ [tok]) c rest = some k := by
  rw [lookup_cons]
  constructor
  · intro h
    cases hf : cs.find? (fun n => n.tok == tok) with
    | none => rw [hf] at h; exact absurd h (by simp)
    | some c =>
      rw [hf] at h
      exact ⟨c, List.mem_of_find?_eq_some hf, by simpa using List.find?_some hf, h⟩
  · rintro ⟨c, hc, rfl, h⟩
    rw [find_of_mem nd hc]
    exact h

/-- Inside a table, the registered rows are those of the data. -/
theorem lookNode_table {d : Path → List Nat} {p : Path} {t : Token} {h : Bool} {tm rs rows : List Node}
    (hr : RowsFit tm rows) (hd : ∀ n, .row n ∈ rows.map Node.tok ↔ n ∈ d p) (tok : Token) (s : Path) :
    lookNode d p (.table t h tm rs) (tok :: s) = lookup d p (virt tm rows) (tok :: s) := by
  have nd : ((virt tm rows).map Node.tok).Nodup := by rw [virt_toks]; exact hr.1
  rw [lookup_cons]
  cases tok with
  | row n =>
    by_cases hn : n ∈ d p
    · obtain ⟨r, hm, e⟩ := List.mem_map.mp ((hd n).mpr hn)
      have hv : Node.object (.row n) tm ∈ virt tm rows := List.mem_map.mpr ⟨r, hm, by rw [e]⟩
      have := find_of_mem nd hv
      rw [show (Node.object (.row n) tm).tok = .row n from rfl] at this
      rw [this]
      simp [lookNode, hn]
    · have : (virt tm rows).find? (fun m => m.tok == .row n) = none := by
        rw [List.find?_eq_none]
        intro m hm e
        have : m.tok ∈ (virt tm rows).map Node.tok := List.mem_map_of_mem hm
        rw [virt_toks, (by simpa using e : m.tok = .row n)] at this
        exact hn ((hd n).mp this)
      rw [this]
      simp [lookNode, hn]
  | word b =>
    have : (virt tm rows).find? (fun m => m.tok == .word b) = none := by
      rw [List.find?_eq_none]
      intro m hm e
      have : m.tok ∈ (virt tm rows).map Node.tok := List.mem_map_of_mem hm
      rw [virt_toks, (by simpa using e : m.tok = .word b)] at this
      obtain ⟨r, hr', e'⟩ := List.mem_map.mp this
      obtain ⟨n, hn⟩ := hr.2.1 r hr'
      rw [hn] at e'
      exact absurd e' (by simp)
    rw [this]
    rfl

/-- The children that are gone through when the data is `d`. -/
def kids (d : Path → List Nat) (p : Path) : Node → List Node
  | .leaf _ => []
  | .object _ cs => cs
  | .table _ h tm rs => if h then syncRows (d p) tm rs else rs

/-- What `visit` gives when the data is `d`. -/
def outs (d : Path → List Nat) (emit : Nat → Kind → Bool) : Nat → Path → Node → List Path
  | 0, p, node => if emit 0 node.kind then [p] else []
  | k + 1, p, node =>
    (if emit (k + 1) node.kind then [p] else []) ++
      (kids d p node).flatMap (fun c => outs d emit k (p ++ [c.tok]) c)

theorem each_out {g : Nat → Node → Node × Nat × List Path} {o : Node → List Path}
    (hg : ∀ t c, (g t c).2.2 = o c) : ∀ (cs : List Node) (t : Nat), (each g t cs).2.2 = cs.flatMap o := by
  intro cs
  induction cs with
  | nil => intro t; rfl
  | cons c cs ih => intro t; simp only [each, List.flatMap_cons, hg, ih]

theorem visit_out (d : Path → List Nat) (emit : Nat → Kind → Bool) :
    ∀ (k : Nat) (p : Path) (t : Nat) (node : Node),
      (visit (fun _ => d) true emit k p t node).2.2 = outs d emit k p node := by
  intro k
  induction k with
  | zero => intro p t node; rfl
  | succ k ih =>
    intro p t node
    cases node with
    | leaf tok => simp [visit, outs, kids]
    | object tok cs =>
      simp only [visit, outs, kids]
      rw [each_out (o := fun c => outs d emit k (p ++ [c.tok]) c) (fun t c => ih _ t c)]
    | table tok h tm rs =>
      simp only [visit, outs, kids]
      rw [each_out (o := fun c => outs d emit k (p ++ [c.tok]) c) (fun t c => ih _ t c)]
      cases h <;> rfl

theorem outs_prefix (d : Path → List Nat) (emit : Nat → Kind → Bool) :
    ∀ (k : Nat) (p : Path) (node : Node), ∀ q ∈ outs d emit k p node, ∃ s, q = p ++ s := by
  intro k
  induction k with
  | zero =>
    intro p node q hq
    simp only [outs] at hq
    split at hq
    · exact ⟨[], by simpa using hq⟩
    · simp at hq
  | succ k ih =>
    intro p node q hq
    simp only [outs, List.mem_append, List.mem_flatMap] at hq
    rcases hq with hq | ⟨c, _, hq⟩
    · split at hq
      · exact ⟨[], by simpa using hq⟩
      · simp at hq
    · obtain ⟨s, rfl⟩ := ih _ c q hq
      exact ⟨c.tok :: s, by simp⟩

/-- What an element gives, said with `lookNode`. -/
def Gives (d : Path → List Nat) (emit : Nat → Kind → Bool) (k : Nat) (p : Path) (c : Node) (q : Path) : Prop :=
  ∃ s, q = p ++ s ∧ s.length ≤ k ∧ ∃ kind, lookNode d p c s = some kind ∧ emit (k - s.length) kind = true

theorem list_mem {d : Path → List Nat} {emit : Nat → Kind → Bool} {k : Nat}
    (ih : ∀ p c i, Fits [c] [i] → ∀ q, q ∈ outs d emit k p i ↔ Gives d emit k p c q)
    {cs ds : List Node} (h : Fits cs ds) (nd : (cs.map Node.tok).Nodup) (p q : Path) :
    q ∈ ds.flatMap (fun c => outs d emit k (p ++ [c.tok]) c) ↔
      ∃ tok s, q = p ++ tok :: s ∧ s.length ≤ k ∧ ∃ kind, lookup d p cs (tok :: s) = some kind ∧
        emit (k - s.length) kind = true := by
  rw [List.mem_flatMap]
  constructor
  · rintro ⟨i, hi, hq⟩
    obtain ⟨c, hc, hf⟩ := fits_right h i hi
    obtain ⟨s, rfl, hl, kind, hk, he⟩ := (ih _ c i hf q).mp hq
    exact ⟨i.tok, s, by simp, hl, kind, (lookup_cons_iff nd).mpr ⟨c, hc, fits_tok hf, hk⟩, he⟩
  · rintro ⟨tok, s, rfl, hl, kind, hk, he⟩
    obtain ⟨c, hc, rfl, hn⟩ := (lookup_cons_iff nd).mp hk
    obtain ⟨i, hi, hf⟩ := fits_left h c hc
    refine ⟨i, hi, (ih _ c i hf _).mpr ⟨s, ?_, hl, kind, ?_, he⟩⟩
    · rw [fits_tok hf]; simp
    · rw [← fits_tok hf]; exact hn

theorem synced {d : Path → List Nat} {p : Path} {tm rows : List Node} (self : Fits tm tm)
    (nd : (tm.map Node.tok).Nodup) (h : RowsFit tm rows) :
    RowsFit tm (syncRows (d p) tm rows) ∧
      ∀ n, .row n ∈ (syncRows (d p) tm rows).map Node.tok ↔ n ∈ d p :=
  ⟨rowsFit_sync self nd _ h, sync_toks _ _ _⟩

theorem outs_mem (d : Path → List Nat) (emit : Nat → Kind → Bool) :
    ∀ (k : Nat) (p : Path) (c i : Node), Fits [c] [i] → ∀ q, q ∈ outs d emit k p i ↔ Gives d emit k p c q := by
  intro k
  induction k with
  | zero =>
    intro p c i h q
    simp only [outs]
    rw [← fits_kind h]
    constructor
    · intro hq
      split at hq
      · rename_i he
        refine ⟨[], by simpa using hq, by simp, c.kind, lookNode_nil d p c, by simpa using he⟩
      · simp at hq
    · rintro ⟨s, rfl, hl, kind, hk, he⟩
      have : s = [] := List.length_eq_zero_iff.mp (by omega)
      subst this
      rw [lookNode_nil] at hk
      obtain rfl := Option.some.inj hk
      simp only [List.length_nil, Nat.sub_zero] at he
      simp [he]
  | succ k ih =>
    intro p c i h q
    have key : ∀ q, q ∈ (kids d p i).flatMap (fun c => outs d emit k (p ++ [c.tok]) c) ↔
        ∃ tok s, q = p ++ tok :: s ∧ s.length ≤ k ∧ ∃ kind, lookNode d p c (tok :: s) = some kind ∧
          emit (k - s.length) kind = true := by
      intro q
      cases h with
      | leaf t _ _ _ => simp [kids, lookNode]
      | object t xs ys _ _ nd hx _ => exact list_mem ih hx nd p q
      | table t tm rs rows _ _ nd self nr num hr _ =>
        obtain ⟨h1, h2⟩ := synced (d := d) (p := p) self nd ⟨nr, num, hr⟩
        have := list_mem ih h1.2.2 (by rw [virt_toks]; exact h1.1) p q
        simp only [kids, if_true]
        rw [this]
        constructor
        · rintro ⟨tok, s, a, b, kind, e, f⟩
          exact ⟨tok, s, a, b, kind, (lookNode_table h1 h2 tok s).trans e, f⟩
        · rintro ⟨tok, s, a, b, kind, e, f⟩
          exact ⟨tok, s, a, b, kind, (lookNode_table h1 h2 tok s).symm.trans e, f⟩
    simp only [outs, List.mem_append, key]
    rw [← fits_kind h]
    constructor
    · rintro (hq | ⟨tok, s, rfl, hl, kind, hk, he⟩)
      · split at hq
        · rename_i he
          exact ⟨[], by simpa using hq, by simp, c.kind, lookNode_nil d p c, by simpa using he⟩
        · simp at hq
      · refine ⟨tok :: s, rfl, by simp; omega, kind, hk, ?_⟩
        rw [List.length_cons, Nat.add_sub_add_right]; exact he
    · rintro ⟨s, rfl, hl, kind, hk, he⟩
      cases s with
      | nil =>
        left
        rw [lookNode_nil] at hk
        obtain rfl := Option.some.inj hk
        simp only [List.length_nil, Nat.sub_zero] at he
        simp [he]
      | cons tok s =>
        right
        rw [List.length_cons, Nat.add_sub_add_right] at he
        rw [List.length_cons] at hl
        exact ⟨tok, s, rfl, by omega, kind, hk, he⟩

theorem flatMap_nodup {p : Path} {o : Node → List Path} : ∀ {ds : List Node}, (ds.map Node.tok).Nodup →
    (∀ i ∈ ds, (o i).Nodup) → (∀ i ∈ ds, ∀ q ∈ o i, ∃ s, q = (p ++ [i.tok]) ++ s) → (ds.flatMap o).Nodup := by
  intro ds
  induction ds with
  | nil => intro _ _ _; simp
  | cons i ds ih =>
    intro nd h1 h2
    rw [List.map_cons, List.nodup_cons] at nd
    rw [List.flatMap_cons, List.nodup_append]
    refine ⟨h1 i (by simp), ih nd.2 (fun j hj => h1 j (by simp [hj])) (fun j hj => h2 j (by simp [hj])), ?_⟩
    intro a ha b hb e
    subst e
    obtain ⟨j, hj, hb⟩ := List.mem_flatMap.mp hb
    obtain ⟨s, e1⟩ := h2 i (by simp) a ha
    obtain ⟨s', e2⟩ := h2 j (by simp [hj]) a hb
    rw [e1] at e2
    simp only [List.append_assoc, List.append_cancel_left_eq, List.cons_append, List.nil_append,
      List.cons.injEq] at e2
    exact nd.1 (e2.1 ▸ List.mem_map_of_mem hj)

theorem outs_nodup (d : Path → List Nat) (emit : Nat → Kind → Bool) :
    ∀ (k : Nat) (p : Path) (c i : Node), Fits [c] [i] → (outs d emit k p i).Nodup := by
  intro k
  induction k with
  | zero => intro p c i _; simp only [outs]; split <;> simp
  | succ k ih =>
    intro p c i h
    simp only [outs]
    rw [List.nodup_append]
    refine ⟨by split <;> simp, ?_, ?_⟩
    · have fin : ∀ cs ds : List Node, Fits cs ds → (cs.map Node.tok).Nodup →
          (ds.flatMap (fun c => outs d emit k (p ++ [c.tok]) c)).Nodup := by
        intro cs ds hf nd
        refine flatMap_nodup (p := p) (fits_toks hf ▸ nd) ?_ ?_
        · intro i hi
          obtain ⟨c, _, hc⟩ := fits_right hf i hi
          exact ih _ c i hc
        · intro i _ q hq
          exact outs_prefix d emit k _ i q hq
      cases h with
      | leaf t _ _ _ => simp [kids]
      | object t xs ys _ _ nd hx _ => exact fin _ _ hx nd
      | table t tm rs rows _ _ nd self nr num hr _ =>
        obtain ⟨h1, _⟩ := synced (d := d) (p := p) self nd ⟨nr, num, hr⟩
        simp only [kids, if_true]
        exact fin _ _ h1.2.2 (by rw [virt_toks]; exact h1.1)
    · intro a ha b hb e
      subst e
      have hap : a = p := by
        split at ha
        · simpa using ha
        · simp at ha
      obtain ⟨j, _, hb⟩ := List.mem_flatMap.mp hb
      obtain ⟨s, e2⟩ := outs_prefix d emit k _ j a hb
      rw [hap] at e2
      have := congrArg List.length e2
      simp at this

/-! ## The second pass -/

theorem visit_same (w : World) (sync : Bool) (emit : Nat → Kind → Bool) (k : Nat) (p : Path) (t : Nat) (n : Node) :
    (visit w sync emit k p t n).1.tok = n.tok ∧ (visit w sync emit k p t n).1.kind = n.kind := by
  cases k <;> cases n <;> exact ⟨rfl, rfl⟩

theorem each_again {g g' : Nat → Node → Node × Nat × List Path} {u : Nat}
    (hg : ∀ t c, g' u (g t c).1 = ((g t c).1, u, (g t c).2.2)) :
    ∀ (cs : List Node) (t : Nat), each g' u (each g t cs).1 = ((each g t cs).1, u, (each g t cs).2.2) := by
  intro cs
  induction cs with
  | nil => intro t; rfl
  | cons c cs ih =>
    intro t
    simp only [each, hg]
    rw [ih]

theorem second_pass (w : World) (emit : Nat → Kind → Bool) (u : Nat) :
    ∀ (k : Nat) (p : Path) (t : Nat) (n : Node),
      visit w false emit k p u (visit w true emit k p t n).1 =
        ((visit w true emit k p t n).1, u, (visit w true emit k p t n).2.2) := by
  intro k
  induction k with
  | zero => intro p t n; rfl
  | succ k ih =>
    intro p t n
    cases n with
    | leaf tok => rfl
    | object tok cs =>
      have := each_again (u := u) (g := fun t c => visit w true emit k (p ++ [c.tok]) t c)
        (g' := fun t c => visit w false emit k (p ++ [c.tok]) t c)
        (by
          intro t c
          show visit w false emit k (p ++ [(visit w true emit k (p ++ [c.tok]) t c).1.tok]) u _ = _
          rw [(visit_same w true emit k _ t c).1]; exact ih _ t c) cs t
      simp only [visit, this]
      rfl
    | table tok h tm rs =>
      have := each_again (u := u) (g := fun t c => visit w true emit k (p ++ [c.tok]) t c)
        (g' := fun t c => visit w false emit k (p ++ [c.tok]) t c)
        (by
          intro t c
          show visit w false emit k (p ++ [(visit w true emit k (p ++ [c.tok]) t c).1.tok]) u _ = _
          rw [(visit_same w true emit k _ t c).1]; exact ih _ t c)
        (callHandler w p t (true && h) tm rs).1 (callHandler w p t (true && h) tm rs).2
      have e : ∀ x y, callHandler w p u (false && h) x y = (y, u) := fun _ _ => by simp [callHandler]
      simp only [visit, e, this]
      rfl

theorem namesAt_answer (w : World) (depth : Int) (p : Path) (t : Nat) (n : Node) :
    (namesAt w depth p t n).2.2 =
      .names (visit w true (wanted depth) depth.natAbs p t n).2.2.length
        (visit w true (wanted depth) depth.natAbs p t n).2.2 := by
  unfold namesAt
  dsimp only
  rw [second_pass]

/-! ## The way to an element -/

theorem onFirst_find (tok : Token) (g : Node → Node × Nat × Answer) (t : Nat) : ∀ ns : List Node,
    (ns.find? (fun n => n.tok == tok) = none → onFirst tok g t ns = (ns, t, .absent)) ∧
    (∀ n, ns.find? (fun n => n.tok == tok) = some n → (onFirst tok g t ns).2 = (g n).2) := by
  intro ns
  induction ns with
  | nil => exact ⟨fun _ => rfl, by simp⟩
  | cons a ns ih =>
    by_cases ha : a.tok = tok
    · rw [List.find?_cons_of_pos (p := fun n : Node => n.tok == tok) (by simpa using ha)]
      refine ⟨by simp, ?_⟩
      intro n hn
      obtain rfl := Option.some.inj hn
      simp only [onFirst, ha, if_true]
    · rw [List.find?_cons_of_neg (p := fun n : Node => n.tok == tok) (by simpa using ha)]
      refine ⟨?_, ?_⟩
      · intro h
        simp only [onFirst, ha, if_false, ih.1 h]
      · intro n hn
        simp only [onFirst, ha, if_false, ih.2 n hn]

theorem find_fits {cs ds : List Node} (h : Fits cs ds) (tok : Token) :
    (cs.find? (fun n => n.tok == tok) = none ∧ ds.find? (fun n => n.tok == tok) = none) ∨
    ∃ c i, cs.find? (fun n => n.tok == tok) = some c ∧ ds.find? (fun n => n.tok == tok) = some i ∧
      Fits [c] [i] ∧ c.tok = tok := by
  refine fits_ind (P := fun cs ds => (cs.find? (fun n => n.tok == tok) = none ∧
    ds.find? (fun n => n.tok == tok) = none) ∨
    ∃ c i, cs.find? (fun n => n.tok == tok) = some c ∧ ds.find? (fun n => n.tok == tok) = some i ∧
      Fits [c] [i] ∧ c.tok = tok) (Or.inl ⟨rfl, rfl⟩) ?_ h
  intro c i cs ds hci _ ih
  by_cases hc : c.tok = tok
  · have hi : i.tok = tok := (fits_tok hci).symm.trans hc
    right
    exact ⟨c, i, List.find?_cons_of_pos (p := fun n : Node => n.tok == tok) (by simpa using hc),
      List.find?_cons_of_pos (p := fun n : Node => n.tok == tok) (by simpa using hi), hci, hc⟩
  · have hi : ¬ i.tok = tok := fun e => hc ((fits_tok hci).trans e)
    rw [List.find?_cons_of_neg (p := fun n : Node => n.tok == tok) (by simpa using hc),
      List.find?_cons_of_neg (p := fun n : Node => n.tok == tok) (by simpa using hi)]
    exact ih

theorem descend_spec (d : Path → List Nat) (f : Path → Nat → Node → Node × Nat × Answer) :
    ∀ (rest : Path) (tok : Token) (pre : Path) (t : Nat) (cs ds : List Node), Fits cs ds →
      (lookup d pre cs (tok :: rest) = none → (descend (fun _ => d) f (tok :: rest) pre t ds).2.2 = .absent) ∧
      (∀ kind, lookup d pre cs (tok :: rest) = some kind → ∃ c i u, Fits [c] [i] ∧ c.kind = kind ∧
        (∀ s, lookNode d (pre ++ tok :: rest) c s = lookup d pre cs (tok :: rest ++ s)) ∧
        (descend (fun _ => d) f (tok :: rest) pre t ds).2.2 = (f (pre ++ tok :: rest) u i).2.2) := by
  intro rest
  induction rest with
  | nil =>
    intro tok pre t cs ds h
    unfold descend
    have hf := onFirst_find tok (fun node => f (pre ++ [tok]) t node) t ds
    rcases find_fits h tok with ⟨h1, h2⟩ | ⟨c, i, h1, h2, hci, hc⟩
    · rw [lookup_cons, h1]
      refine ⟨fun _ => ?_, by simp⟩
      exact congrArg (·.2.2) (hf.1 h2)
    · rw [lookup_cons, h1]
      dsimp only
      rw [lookNode_nil]
      refine ⟨by simp, ?_⟩
      intro kind hk
      refine ⟨c, i, t, hci, Option.some.inj hk, ?_, ?_⟩
      · intro s
        rw [List.cons_append, lookup_cons, h1]
        rfl
      · exact congrArg (·.2) (hf.2 i h2)
  | cons a b ih =>
    intro tok pre t cs ds h
    unfold descend
    rw [lookup_cons]
    dsimp only
    rcases find_fits h tok with ⟨h1, h2⟩ | ⟨c, i, h1, h2, hci, hc⟩
    · rw [h1]
      refine ⟨fun _ => ?_, by simp⟩
      exact congrArg (·.2.2) ((onFirst_find tok _ t ds).1 h2)
    · rw [h1, (onFirst_find tok _ t ds).2 i h2]
      dsimp only
      have hl : ∀ s, lookup d pre cs (tok :: a :: b ++ s) = lookNode d (pre ++ [tok]) c (a :: b ++ s) := by
        intro s
        rw [List.cons_append, lookup_cons, h1]
      simp only [hl]
      cases hci with
      | leaf t' _ _ _ => exact ⟨fun _ => rfl, by simp [lookNode]⟩
      | object t' xs ys _ _ nd hx _ =>
        have := ih a (pre ++ [tok]) t xs ys hx
        rw [List.append_assoc] at this
        exact this
      | table t' tm rs rows _ _ nd self nr num hr _ =>
        obtain ⟨g1, g2⟩ := synced (d := d) (p := pre ++ [tok]) self nd ⟨nr, num, hr⟩
        have := ih a (pre ++ [tok]) (t + 1) _ _ g1.2.2
        rw [List.append_assoc] at this
        simp only [List.cons_append, List.nil_append, lookNode_table g1 g2, callHandler, if_true] at this ⊢
        exact this

/-! ## Depth -/

theorem fits_height {cs ds : List Node} (h : Fits cs ds) : Node.height.heights cs = Node.height.heights ds := by
  induction h with
  | nil => rfl
  | leaf t cs ds _ ih => simp [Node.height.heights, Node.height, ih]
  | object t xs ys cs ds _ _ _ ih1 ih => simp [Node.height.heights, Node.height, ih, ih1]
  | table t tm rs rows cs ds _ _ _ _ _ _ _ _ ih => simp [Node.height.heights, Node.height, ih]

theorem height_le {cs : List Node} {c : Node} (h : c ∈ cs) : c.height ≤ Node.height.heights cs := by
  induction cs with
  | nil => simp at h
  | cons a cs ih =>
    simp only [Node.height.heights]
    rcases List.mem_cons.mp h with rfl | h
    · omega
    · have := ih h; omega

theorem lookup_height (d : Path → List Nat) : ∀ (n : Nat) (s : Path), s.length ≤ n →
    ∀ (pre : Path) (reg : List Node) (k : Kind), lookup d pre reg s = some k →
      s.length ≤ 1 + Node.height.heights reg := by
  intro n
  induction n with
  | zero => intro s hs; omega
  | succ n ih =>
    intro s hs pre reg k h
    cases s with
    | nil => simp
    | cons tok rest =>
      rw [List.length_cons] at hs ⊢
      rw [lookup_cons] at h
      cases hf : reg.find? (fun n => n.tok == tok) with
      | none => rw [hf] at h; exact absurd h (by simp)
      | some c =>
        rw [hf] at h
        have hh := height_le (List.mem_of_find?_eq_some hf)
        cases c with
        | leaf t =>
          simp only [lookNode] at h
          split at h
          · rename_i e
            rw [List.isEmpty_iff.mp e]
            simp
          · simp at h
        | object t cs =>
          simp only [Node.height] at hh
          have := ih rest (by omega) _ _ _ h
          omega
        | table t hd tm rs =>
          simp only [Node.height] at hh
          cases rest with
          | nil => simp
          | cons a b =>
            rw [List.length_cons] at hs ⊢
            cases a with
            | word w => simp [lookNode] at h
            | row r =>
              simp only [lookNode] at h
              split at h
              · have := ih b (by omega) _ _ _ h
                omega
              · simp at h

theorem lookNode_height (d : Path → List Nat) (p : Path) (c : Node) (s : Path) (k : Kind)
    (h : lookNode d p c s = some k) : s.length ≤ c.height := by
  cases c with
  | leaf t =>
    simp only [lookNode] at h
    split at h
    · rename_i e
      rw [List.isEmpty_iff.mp e]
      simp
    · simp at h
  | object t cs => exact lookup_height d _ s (Nat.le_refl _) _ _ _ h
  | table t hd tm rs =>
    cases s with
    | nil => simp
    | cons a b =>
      cases a with
      | word w => simp [lookNode] at h
      | row r =>
        simp only [lookNode] at h
        split at h
        · have := lookup_height d _ b (Nat.le_refl _) _ _ _ h
          simp only [Node.height, List.length_cons]
          omega
        · simp at h

/-! ## Wildcards -/

theorem onFirst_get {tok : Token} {g : Node → Node × Nat × Answer} {t : Nat} (hg : ∀ n, (g n).1.tok = n.tok) :
    ∀ (ns : List Node) (u : Token), (onFirst tok g t ns).1.find? (fun n => n.tok == u) =
      match ns.find? (fun n => n.tok == u) with
      | none => none
      | some n => if u = tok then some (g n).1 else some n := by
  intro ns u
  induction ns with
  | nil => rfl
  | cons a ns ih =>
    by_cases ha : a.tok = tok
    · simp only [onFirst, ha, if_true]
      by_cases hu : tok = u
      · have h1 : (g a).1.tok = u := (hg a).trans (ha.trans hu)
        rw [List.find?_cons_of_pos (p := fun n : Node => n.tok == u) (by simpa using h1),
          List.find?_cons_of_pos (p := fun n : Node => n.tok == u) (by simpa using ha.trans hu)]
        simp [hu]
      · have h1 : ¬ (g a).1.tok = u := fun e => hu (ha.symm.trans ((hg a).symm.trans e))
        rw [List.find?_cons_of_neg (p := fun n : Node => n.tok == u) (by simpa using h1),
          List.find?_cons_of_neg (p := fun n : Node => n.tok == u) (by simpa using fun e => hu (ha.symm.trans e))]
        cases hf : ns.find? (fun n => n.tok == u) with
        | none => rfl
        | some n => simp [Ne.symm hu]
    · simp only [onFirst, ha, if_false]
      by_cases hu : a.tok = u
      · rw [List.find?_cons_of_pos (p := fun n : Node => n.tok == u) (by simpa using hu),
          List.find?_cons_of_pos (p := fun n : Node => n.tok == u) (by simpa using hu)]
        have : ¬ u = tok := fun e => ha (hu.trans e)
        simp [this]
      · rw [List.find?_cons_of_neg (p := fun n : Node => n.tok == u) (by simpa using hu),
          List.find?_cons_of_neg (p := fun n : Node => n.tok == u) (by simpa using hu)]
        exact ih

/-- What is below a node now. -/
def holdsNode : Path → Node → Bool
  | s, .leaf _ => s.isEmpty
  | s, .object _ cs => holds s cs
  | s, .table _ _ _ rs => holds s rs

theorem holds_cons (tok : Token) (rest : Path) (ns : List Node) :
    holds (tok :: rest) ns =
      match ns.find? (fun n => n.tok == tok) with
      | none => false
      | some n => holdsNode rest n := by
  rw [holds]
  cases ns.find? (fun n => n.tok == tok) with
  | none => rfl
  | some n => cases n <;> rfl

theorem holds_prefix : ∀ (a b : Path) (ns : List Node), holds (a ++ b) ns = true → holds a ns = true := by
  intro a
  induction a with
  | nil => intro b ns _; rfl
  | cons tok a ih =>
    intro b ns h
    rw [List.cons_append, holds_cons] at h
    rw [holds_cons]
    cases hf : ns.find? (fun n => n.tok == tok) with
    | none => rw [hf] at h; exact h
    | some n =>
      rw [hf] at h
      cases n with
      | leaf t =>
        simp only [holdsNode, List.isEmpty_iff, List.append_eq_nil_iff] at h ⊢
        exact h.1
      | object t cs => exact ih b cs h
      | table t hd tm rs => exact ih b rs h

/-- The step of the way at one node. -/
def stepNode (w : World) (f : Path → Nat → Node → Node × Nat × Answer) (rest p : Path) (t : Nat) (node : Node) :
    Node × Nat × Answer :=
  match rest with
  | [] => f p t node
  | _ :: _ =>
    match node with
    | .leaf tk => (.leaf tk, t, .absent)
    | .object tk cs =>
      let r := descend w f rest p t cs
      (.object tk r.1, r.2)
    | .table tk h tm rs =>
      let s := callHandler w p t h tm rs
      let r := descend w f rest p s.2 s.1
      (.table tk h tm r.1, r.2)

theorem descend_cons (w : World) (f : Path → Nat → Node → Node × Nat × Answer) (tok : Token) (rest pre : Path) (t : Nat)
    (ns : List Node) : descend w f (tok :: rest) pre t ns = onFirst tok (stepNode w f rest (pre ++ [tok]) t) t ns := by
  rw [descend]
  rfl

theorem stepNode_tok {w : World} {f : Path → Nat → Node → Node × Nat × Answer} (hf : ∀ p t n, (f p t n).1.tok = n.tok)
    (rest p : Path) (t : Nat) (n : Node) : (stepNode w f rest p t n).1.tok = n.tok := by
  cases rest with
  | nil => exact hf p t n
  | cons a b => cases n <;> rfl

theorem valueAt_tok (p : Path) (t : Nat) (n : Node) : (valueAt p t n).1.tok = n.tok := rfl

/-- An element whose value is given is there afterwards. -/
theorem descend_holds (w : World) : ∀ (path pre : Path) (t : Nat) (ns : List Node) (l : List Path),
    (descend w valueAt path pre t ns).2.2 = .values l → holds path (descend w valueAt path pre t ns).1 = true := by
  intro path
  induction path with
  | nil => intro pre t ns l h; rfl
  | cons tok rest ih =>
    intro pre t ns l h
    rw [descend_cons] at h ⊢
    rw [holds_cons, onFirst_get (fun n => stepNode_tok valueAt_tok _ _ _ n)]
    cases hf : ns.find? (fun n => n.tok == tok) with
    | none =>
      rw [(onFirst_find tok _ t ns).1 hf] at h
      exact absurd h (by simp)
    | some n =>
      rw [(onFirst_find tok _ t ns).2 n hf] at h
      simp only [if_true]
      cases rest with
      | nil => cases n <;> rfl
      | cons a b =>
        cases n with
        | leaf tk => exact absurd h (by simp [stepNode])
        | object tk cs => exact ih _ _ _ l h
        | table tk hd tm rs => exact ih _ _ _ l h

theorem wildcard_alive (w : World) (table rest : Path) :
    ∀ (l : List Nat) (t : Nat) (ns : List Node) (acc : List Path), ∃ r, wildcardLoop w table rest l t ns acc = .ok r := by
  intro l
  induction l with
  | nil => intro t ns acc; exact ⟨_, rfl⟩
  | cons n l ih =>
    intro t ns acc
    unfold wildcardLoop
    dsimp only
    split
    · split
      · rename_i l' hv
        have := descend_holds w _ _ _ _ _ hv
        rw [show table ++ Token.row n :: rest = (table ++ [.row n]) ++ rest by simp] at this
        rw [if_pos (by rw [show table ++ Token.row n :: rest = (table ++ [.row n]) ++ rest by simp]; exact holds_prefix _ _ _ this)]
        exact ih _ _ _
      · exact ⟨_, rfl⟩
    · exact ih _ _ _

theorem serve_alive (w : World) (ns : List Node) (q : Request) : ∃ r, serve w ns q = .ok r := by
  cases q with
  | wildcard table rest =>
    unfold serve
    dsimp only
    split
    · exact wildcard_alive w _ _ _ _ _ _
    · exact ⟨_, rfl⟩
  | _ => exact ⟨_, rfl⟩

theorem after_alive : ∀ (h : List (World × Request)) (ns : List Node), ∃ ns', after ns h = .ok ns' := by
  intro h
  induction h with
  | nil => intro ns; exact ⟨ns, rfl⟩
  | cons e h ih =>
    intro ns
    obtain ⟨r, hr⟩ := serve_alive e.1 ns e.2
    obtain ⟨ns', hn⟩ := ih r.1
    exact ⟨ns', by simp only [after, hr, Res.ok_bind, hn]⟩

/-- Every row in the name is one of the data. -/
def Current (d : Path → List Nat) : Path → Path → Prop
  | _, [] => True
  | pre, .word b :: s => Current d (pre ++ [.word b]) s
  | pre, .row r :: s => r ∈ d pre ∧ Current d (pre ++ [.row r]) s

theorem find_drop {data : List Nat} {rows : List Node} {u : Token} (hu : ∀ r, u = .row r → r ∈ data) :
    (dropRows data rows).find? (fun n => n.tok == u) = rows.find? (fun n => n.tok == u) := by
  unfold dropRows
  rw [List.find?_filter]
  congr 1
  funext a
  by_cases h : a.tok = u
  · subst h
    cases hk : a.tok with
    | word b => simp
    | row r => simp [hu r hk]
  · simp [h]

theorem find_register {tm rows : List Node} {n : Nat} {u : Token} {m : Node}
    (h : rows.find? (fun n => n.tok == u) = some m) :
    (registerRow true tm rows n).find? (fun n => n.tok == u) = some m := by
  unfold registerRow
  split
  · exact h
  · rw [List.find?_append, h]; rfl

theorem find_sync {data : List Nat} {tm rows : List Node} {u : Token} {m : Node} (hu : ∀ r, u = .row r → r ∈ data)
    (h : rows.find? (fun n => n.tok == u) = some m) :
    (syncRows data tm rows).find? (fun n => n.tok == u) = some m := by
  unfold syncRows
  suffices H : ∀ (l : List Nat) (rs : List Node), rs.find? (fun n => n.tok == u) = some m →
      (l.foldl (registerRow true tm) rs).find? (fun n => n.tok == u) = some m from
    H data _ (by rw [find_drop hu]; exact h)
  intro l
  induction l with
  | nil => intro rs h; exact h
  | cons n l ih => intro rs h; exact ih _ (find_register h)

theorem holds_call {d : Path → List Nat} {p : Path} {t : Nat} {b : Bool} {tm rs : List Node} {q : Path}
    (hc : Current d p q) (h : holds q rs = true) : holds q (callHandler (fun _ => d) p t b tm rs).1 = true := by
  unfold callHandler
  split
  · cases q with
    | nil => rfl
    | cons u s =>
      rw [holds_cons] at h ⊢
      cases hf : rs.find? (fun n => n.tok == u) with
      | none => rw [hf] at h; exact absurd h (by simp)
      | some m =>
        rw [hf] at h
        rw [find_sync (m := m) (by rintro r rfl; exact hc.1) hf]
        exact h
  · exact h

theorem current_tail {d : Path → List Nat} {pre : Path} {u : Token} {s : Path} (h : Current d pre (u :: s)) :
    Current d (pre ++ [u]) s := by
  cases u with
  | word b => exact h
  | row r => exact h.2

/-- Reading changes nothing about the rows of the data. -/
theorem descend_keeps (d : Path → List Nat) : ∀ (path pre : Path) (t : Nat) (ns : List Node) (q : Path),
    Current d pre q → holds q ns = true → holds q (descend (fun _ => d) valueAt path pre t ns).1 = true := by
  intro path
  induction path with
  | nil => intro pre t ns q _ h; exact h
  | cons tok rest ih =>
    intro pre t ns q hc h
    cases q with
    | nil => rfl
    | cons u s =>
      rw [descend_cons]
      rw [holds_cons] at h ⊢
      rw [onFirst_get (fun n => stepNode_tok valueAt_tok _ _ _ n)]
      cases hf : ns.find? (fun n => n.tok == u) with
      | none => rw [hf] at h; exact h
      | some n =>
        rw [hf] at h
        dsimp only at h ⊢
        by_cases hu : u = tok
        · subst hu
          simp only [if_true]
          have hc' := current_tail hc
          cases rest with
          | nil => exact h
          | cons a b =>
            cases n with
            | leaf tk => exact h
            | object tk cs => exact ih _ _ _ _ hc' h
            | table tk hd tm rs => exact ih _ _ _ _ hc' (holds_call hc' h)
        · simp only [hu, if_false]
          exact h

theorem lookup_current (d : Path → List Nat) : ∀ (n : Nat) (s : Path), s.length ≤ n →
    ∀ (pre : Path) (reg : List Node) (k : Kind), Registered reg → lookup d pre reg s = some k → Current d pre s := by
  intro n
  induction n with
  | zero =>
    intro s hs pre reg k _ _
    rw [List.length_eq_zero_iff.mp (Nat.le_zero.mp hs)]
    trivial
  | succ n ih =>
    intro s hs pre reg k hreg h
    cases s with
    | nil => trivial
    | cons tok rest =>
      rw [List.length_cons] at hs
      rw [lookup_cons] at h
      obtain ⟨_, _, wo, ob, ha, te⟩ := hreg
      cases hf : reg.find? (fun n => n.tok == tok) with
      | none => rw [hf] at h; exact absurd h (by simp)
      | some c =>
        rw [hf] at h
        dsimp only at h
        have hm := List.mem_of_find?_eq_some hf
        obtain ⟨b, hb⟩ := wo c hm
        have hct := List.find?_some (p := fun n : Node => n.tok == tok) hf
        have htok : tok = .word b := by rw [← hb]; exact (beq_iff_eq.mp hct).symm
        subst htok
        show Current d (pre ++ [.word b]) rest
        cases c with
        | leaf t =>
          simp only [lookNode] at h
          split at h
          · rename_i e
            rw [List.isEmpty_iff.mp e]
            trivial
          · simp at h
        | object t cs => exact ih rest (by omega) _ _ _ (ob _ _ hm) h
        | table t hd tm rs =>
          cases rest with
          | nil => trivial
          | cons a b' =>
            rw [List.length_cons] at hs
            cases a with
            | word w => simp [lookNode] at h
            | row r =>
              simp only [lookNode] at h
              split at h
              · rename_i hr
                exact ⟨hr, ih b' (by omega) _ _ _ (te _ _ _ _ hm) h⟩
              · simp at h

theorem rowsAt_tok (w : World) (p : Path) (t : Nat) (n : Node) : (rowsAt w p t n).1.tok = n.tok := by
  cases n <;> rfl

theorem mem_rowNumbers {rows : List Node} {n : Nat} : n ∈ rowNumbers rows ↔ .row n ∈ rows.map Node.tok := by
  unfold rowNumbers
  rw [List.mem_filterMap, List.mem_map]
  constructor
  · rintro ⟨r, hr, h⟩
    refine ⟨r, hr, ?_⟩
    cases ht : r.tok with
    | word b => rw [ht] at h; simp at h
    | row m => rw [ht] at h; simp only [Option.some.injEq] at h; rw [h]
  · rintro ⟨r, hr, h⟩
    exact ⟨r, hr, by rw [h]⟩

theorem rowNumbers_nodup {rows : List Node} (h : (rows.map Node.tok).Nodup) : (rowNumbers rows).Nodup := by
  induction rows with
  | nil => simp [rowNumbers]
  | cons r rows ih =>
    rw [List.map_cons, List.nodup_cons] at h
    have e : rowNumbers (r :: rows) = (match r.tok with
      | .row n => [n]
      | .word _ => []) ++ rowNumbers rows := by
      unfold rowNumbers
      rw [List.filterMap_cons]
      cases r.tok <;> rfl
    rw [e]
    cases ht : r.tok with
    | word b => exact ih h.2
    | row n =>
      simp only [List.cons_append, List.nil_append, List.nodup_cons]
      refine ⟨fun hm => ?_, ih h.2⟩
      exact h.1 (by rw [ht]; exact mem_rowNumbers.mp hm)

theorem holdsNode_nil (n : Node) : holdsNode [] n = true := by
  cases n <;> simp [holdsNode, holds]

/-- Rows that are given are there afterwards. -/
theorem descend_rows_holds (w : World) : ∀ (path pre : Path) (t : Nat) (ns : List Node) (l : List Nat),
    (descend w (rowsAt w) path pre t ns).2.2 = .rows l → ∀ r ∈ l,
      holds (path ++ [.row r]) (descend w (rowsAt w) path pre t ns).1 = true := by
  intro path
  induction path with
  | nil => intro pre t ns l h; simp [descend] at h
  | cons tok rest ih =>
    intro pre t ns l h r hr
    rw [descend_cons] at h ⊢
    rw [List.cons_append, holds_cons, onFirst_get (fun n => stepNode_tok (rowsAt_tok w) _ _ _ n)]
    cases hf : ns.find? (fun n => n.tok == tok) with
    | none =>
      rw [(onFirst_find tok _ t ns).1 hf] at h
      exact absurd h (by simp)
    | some n =>
      rw [(onFirst_find tok _ t ns).2 n hf] at h
      simp only [if_true]
      cases rest with
      | nil =>
        cases n with
        | leaf tk => simp [stepNode, rowsAt] at h
        | object tk cs => simp [stepNode, rowsAt] at h
        | table tk hd tm rs =>
          simp only [stepNode, rowsAt, Answer.rows.injEq] at h ⊢
          rw [← h] at hr
          obtain ⟨m, hm, e⟩ := List.mem_map.mp (mem_rowNumbers.mp hr)
          show holds ([] ++ [.row r]) _ = true
          rw [List.nil_append, holds_cons]
          cases hg : (callHandler w (pre ++ [tok]) t hd tm rs).1.find? (fun n => n.tok == .row r) with
          | none =>
            rw [List.find?_eq_none] at hg
            exact absurd (by simpa using e) (hg m hm)
          | some x => exact holdsNode_nil x
      | cons a b =>
        cases n with
        | leaf tk => exact absurd h (by simp [stepNode])
        | object tk cs => exact ih _ _ _ l h r hr
        | table tk hd tm rs => exact ih _ _ _ l h r hr

/-- What `descend_spec` says, for any name but the empty one. -/
theorem descend_at (d : Path → List Nat) (f : Path → Nat → Node → Node × Nat × Answer) {path : Path} (hp : path ≠ [])
    (t : Nat) {cs ds : List Node} (h : Fits cs ds) :
    (lookup d [] cs path = none → (descend (fun _ => d) f path [] t ds).2.2 = .absent) ∧
    (∀ kind, lookup d [] cs path = some kind → ∃ c i u, Fits [c] [i] ∧ c.kind = kind ∧
      (∀ s, lookNode d path c s = lookup d [] cs (path ++ s)) ∧
      (descend (fun _ => d) f path [] t ds).2.2 = (f path u i).2.2) := by
  cases path with
  | nil => exact absurd rfl hp
  | cons tok rest =>
    have := descend_spec d f rest tok [] t cs ds h
    simpa only [List.nil_append] using this

theorem rows_answer (d : Path → List Nat) {path : Path} (hp : path ≠ []) (t : Nat) {cs ds : List Node}
    (h : Fits cs ds) (hk : lookup d [] cs path = some .table) :
    ∃ l, (descend (fun _ => d) (rowsAt (fun _ => d)) path [] t ds).2.2 = .rows l ∧ l.Nodup ∧ ∀ n, n ∈ l ↔ n ∈ d path := by
  obtain ⟨c, i, u, hf, hkind, _, ha⟩ := (descend_at d (rowsAt (fun _ => d)) hp t h).2 _ hk
  cases hf with
  | leaf tk _ _ _ => simp [Node.kind] at hkind
  | object tk xs ys _ _ nd hx _ => simp [Node.kind] at hkind
  | table tk tm rs rows _ _ nd self nr num hr _ =>
    obtain ⟨g1, g2⟩ := synced (d := d) (p := path) self nd ⟨nr, num, hr⟩
    refine ⟨rowNumbers (syncRows (d path) tm rows), ?_, rowNumbers_nodup g1.1, ?_⟩
    · rw [ha]; rfl
    · intro n
      rw [mem_rowNumbers]
      exact g2 n

theorem value_answer (d : Path → List Nat) {path : Path} (hp : path ≠ []) (t : Nat) {cs ds : List Node}
    (h : Fits cs ds) {kind : Kind} (hk : lookup d [] cs path = some kind) :
    (descend (fun _ => d) valueAt path [] t ds).2.2 = .values (if kind = .leaf then [path] else []) := by
  obtain ⟨c, i, u, hf, hkind, _, ha⟩ := (descend_at d valueAt hp t h).2 _ hk
  rw [ha]
  simp only [valueAt]
  rw [← fits_kind hf, hkind]

theorem wildcard_answer (d : Path → List Nat) (table rest : Path) (cs : List Node) (hreg : Registered cs) :
    ∀ (l : List Nat) (t : Nat) (ns : List Node) (acc : List Path), Fits cs ns →
      (∀ r ∈ l, holds (table ++ [.row r]) ns = true) →
      (∀ r ∈ l, lookup d [] cs (table ++ .row r :: rest) = some .leaf) →
      ∃ ns' t', wildcardLoop (fun _ => d) table rest l t ns acc =
        .ok (ns', t', .values (acc ++ l.map (fun r => table ++ .row r :: rest))) := by
  intro l
  induction l with
  | nil => intro t ns acc _ _ _; exact ⟨ns, t, by simp [wildcardLoop]⟩
  | cons n l ih =>
    intro t ns acc hf hh hl
    have hn := hl n (by simp)
    have hv := value_answer d (path := table ++ .row n :: rest) (by simp) t hf hn
    simp only [if_true] at hv
    have hcur : ∀ r ∈ n :: l, Current d [] (table ++ [.row r]) := by
      intro r hr
      have h1 := lookup_current d _ _ (Nat.le_refl _) _ _ _ hreg (hl r hr)
      rw [show table ++ Token.row r :: rest = (table ++ [.row r]) ++ rest by simp] at h1
      clear hn hv hh hl hf
      revert h1
      generalize table ++ [Token.row r] = a
      generalize ([] : Path) = pre
      induction a generalizing pre with
      | nil => intro _; trivial
      | cons x a iha =>
        intro h
        cases x with
        | word b => exact iha _ h
        | row m => exact ⟨h.1, iha _ h.2⟩
    have hkeep : ∀ r ∈ n :: l, holds (table ++ [.row r])
        (descend (fun _ => d) valueAt (table ++ .row n :: rest) [] t ns).1 = true := by
      intro r hr
      exact descend_keeps d _ _ _ _ _ (hcur r hr) (hh r hr)
    obtain ⟨ns', t', e⟩ := ih (descend (fun _ => d) valueAt (table ++ .row n :: rest) [] t ns).2.1
      (descend (fun _ => d) valueAt (table ++ .row n :: rest) [] t ns).1 (acc ++ [table ++ .row n :: rest])
      (descend_fits _ (fun _ _ _ _ h => h) _ _ _ _ _ hf) (fun r hr => hkeep r (by simp [hr]))
      (fun r hr => hl r (by simp [hr]))
    refine ⟨ns', t', ?_⟩
    unfold wildcardLoop
    simp only [hh n (by simp), if_true, hv, hkeep n (by simp), e]
    simp

end Verif.DynamicTable
