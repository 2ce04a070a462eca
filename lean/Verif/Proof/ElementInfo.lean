import Verif.Spec.ElementInfo
import Verif.Proof.GatherWild
import Verif.Proof.Wire

/-!
# Proofs about listing elements
-/

namespace Verif.ElementInfoProof

open Verif Verif.Element Verif.Subs Verif.ElementInfo Verif.Spec.Provider Verif.Spec.Rows Verif.Spec.Gather Verif.RowsProof
open Verif.GatherProof Verif.Message Verif.Wire
open Verif.Spec.ElementInfo (reach wanted isRow rights describe)
open Verif.Params (Fate CoreErr Comp coreToRbus ccspToRbus)

/-- Whether a name stands below a table. -/
def tbl (T : Tree) (q : Path) : Bool :=
  match nodeOf q.dropLast T.root with
  | some n => decide (n.info.type = tTable)
  | none => false

/-- What is done for a name. -/
def see {α : Type} (T : Tree) (visit : Info → Bool → α → α) (s : α) (q : Path) : α :=
  match nodeOf q T.root with
  | some n => visit n.info (tbl T q) s
  | none => s

theorem recurse_eq {α : Type} {T : Tree} (hg : Good T) (hs : Shape [] T.root) (visit : Info → Bool → α → α) (depth : Int)
    {p : Path} {m : Node} (hsm : Shape p m) : p ≠ [] → nodeOf p T.root = some m → ∀ (cur : Nat) (s : α), cur ≤ depth.natAbs →
    recurse visit depth cur (tbl T p) m s =
      (reach (seen T) (decide (0 ≤ depth)) (depth.natAbs - cur) p).foldl (see T visit) s := by
  induction hsm with
  | @node p m hok hsub ih =>
    intro hp hm cur s hcur
    have hneat := hg.neat.nodeOf hm
    have hsp := seen_node hg hs hp hm
    have hsee : ∀ s, see T visit s p = visit m.info (tbl T p) s := by intro s; simp only [see, hm]
    have key : ∀ cs : List Node, (∀ c ∈ cs, c ∈ m.children) → ∀ cur s, cur ≤ depth.natAbs →
        recurseList visit depth cur (decide (m.info.type = tTable)) cs s =
          ((((cs.map (·.info.name)).filter (· ≠ template)).map (fun t => p ++ [t])).flatMap
            (reach (seen T) (decide (0 ≤ depth)) (depth.natAbs - cur))).foldl (see T visit) s := by
      intro cs
      induction cs with
      | nil => intro _ cur s _; simp [recurseList]
      | cons c cs ihc =>
        intro hcs cur s hcur
        have hc := hcs c (by simp)
        have hcm := nodeOf_snoc hm hneat hc
        have hic := ih c hc (by simp) hcm cur
        have htb : tbl T (p ++ [c.info.name]) = decide (m.info.type = tTable) := by
          simp only [tbl, List.dropLast_concat, hm]
        rw [htb] at hic
        have hcg : ¬ (c.info.type = tTable ∧ c.info.cb.get.isSome = true) := by
          rintro ⟨h1, h2⟩
          rw [((hneat.nodeOf (p := [c.info.name]) (m := c) (by simp only [nodeOf, child_self hneat.ok.nodup hc])).ok.table h1).1] at h2
          cases h2
        have ihc := ihc (fun d hd => hcs d (by simp [hd])) cur
        obtain ⟨a, i, gs⟩ := c
        simp only at hcg hic ihc
        by_cases hne : i.name = template
        · have hmt : m.info.type = tTable := by
            apply Decidable.byContradiction
            intro h0
            exact hok.tmpl h0 _ hc hne
          rw [recurseList, if_pos (.inr ⟨by simp [hmt], hne⟩), ihc s hcur]
          simp [hne]
        · rw [recurseList, if_neg (fun h => h.elim hcg (fun h => hne h.2))]
          have hl : (((⟨a, i, gs⟩ : Node) :: cs).map (·.info.name)).filter (· ≠ template) =
              i.name :: (cs.map (·.info.name)).filter (· ≠ template) := by simp [hne]
          rw [hl, List.map_cons, List.flatMap_cons, List.foldl_append, hic s hcur, ihc _ hcur]
    have hkey := key m.children (fun c hc => hc) (cur + 1)
    obtain ⟨a, i, cs⟩ := m
    simp only at hkey hsee
    simp only [recurse]
    by_cases hlt : cur < depth.natAbs
    · obtain ⟨k, hk⟩ : ∃ k, depth.natAbs - cur = k + 1 := ⟨depth.natAbs - cur - 1, by omega⟩
      have hk' : depth.natAbs - (cur + 1) = k := by omega
      rw [if_pos hlt, hkey _ (by omega), hk, reach, List.foldl_append, hk']
      have hb : Spec.ElementInfo.below (seen T) p = ((cs.map (·.info.name)).filter (· ≠ template)).map (fun t => p ++ [t]) := by
        simp only [Spec.ElementInfo.below, hsp, entry]
      rw [hb]
      congr 1
      by_cases hd : 0 ≤ depth
      · simp [hd, hsee]
      · rw [if_neg (by omega)]
        simp [hd]
    · have : depth.natAbs - cur = 0 := by omega
      rw [if_neg hlt, this, reach, if_pos (by omega)]
      simp [hsee]

/-! ### Names of the elements listed -/

theorem reach_node {T : Tree} (hg : Good T) (hs : Shape [] T.root) (all : Bool) : ∀ (n : Nat) (p : Path), p ≠ [] →
    (nodeOf p T.root).isSome → ∀ q ∈ reach (seen T) all n p, q ≠ [] ∧ (nodeOf q T.root).isSome := by
  intro n
  induction n with
  | zero =>
    intro p hp hm q hq
    simp only [reach, List.mem_singleton] at hq
    subst hq
    exact ⟨hp, hm⟩
  | succ n ih =>
    intro p hp hm q hq
    simp only [reach, List.mem_append] at hq
    rcases hq with hq | hq
    · split at hq
      · simp only [List.mem_singleton] at hq; subst hq; exact ⟨hp, hm⟩
      · cases hq
    · rw [List.mem_flatMap] at hq
      obtain ⟨r, hr, hq⟩ := hq
      obtain ⟨m, hm⟩ := Option.isSome_iff_exists.mp hm
      have hneat := hg.neat.nodeOf hm
      simp only [Spec.ElementInfo.below, seen_node hg hs hp hm, entry] at hr
      obtain ⟨t, ht, rfl⟩ := List.mem_map.mp hr
      obtain ⟨c, hc, rfl⟩ := List.mem_map.mp (List.mem_filter.mp ht).1
      exact ih (p ++ [c.info.name]) (by simp) (by rw [nodeOf_snoc hm hneat hc]; rfl) q hq

theorem shape_fine : ∀ {q p : Path} {n m : Node}, Shape p n → nodeOf q n = some m → Fine q := by
  intro q
  induction q with
  | nil => intro p n m _ _; exact ⟨by simp [Exact], by simp⟩
  | cons t q ih =>
    intro p n m h hm
    simp only [nodeOf] at hm
    cases hc : child n t with
    | none => simp only [hc] at hm; cases hm
    | some c =>
      simp only [hc] at hm
      obtain ⟨h1, h2⟩ := child_mem hc
      have he := h.ok.names c h1
      rw [h2] at he
      have hr := ih (h.sub c h1) hm
      refine ⟨?_, ?_⟩ <;> intro u hu <;> rcases List.mem_cons.mp hu with rfl | hu
      · exact he.1 _ (by simp)
      · exact hr.1 u hu
      · exact he.2 _ (by simp)
      · exact hr.2 u hu

theorem join_no0 {q : Path} (h : ∀ t ∈ q, (0 : UInt8) ∉ t) : (0 : UInt8) ∉ join q := by
  unfold join
  intro h0
  simp only [List.mem_flatten, List.mem_map] at h0
  obtain ⟨l, ⟨t, ht, rfl⟩, hm⟩ := h0
  have := h t ht
  simp_all

/-! ### Reading -/

theorem access_eq (cb : Cb) (row : Bool) : access cb row = BitVec.ofNat 32 (rights cb row) := by
  unfold access rights bit
  cases cb.get.isSome <;> cases cb.set.isSome <;> cases cb.addRow.isSome <;> cases cb.removeRow.isSome <;>
    cases cb.sub.isSome <;> cases cb.method.isSome <;> cases row <;> rfl

/-- The bytes for a name. -/
def bytesAt (T : Tree) (q : Path) : Bytes := see T (fun i t bs => bs ++ ElementInfo.record i t) [] q

theorem fold_bytes (T : Tree) (l : List Path) (bs : Bytes) :
    l.foldl (see T (fun i t bs => bs ++ ElementInfo.record i t)) bs = bs ++ l.flatMap (bytesAt T) := by
  induction l generalizing bs with
  | nil => simp
  | cons q l ih =>
    rw [List.foldl_cons, ih, List.flatMap_cons, ← List.append_assoc]
    congr 1
    simp only [bytesAt, see]
    cases nodeOf q T.root <;> simp

theorem fold_count {T : Tree} (l : List Path) (h : ∀ q ∈ l, (nodeOf q T.root).isSome) (k : Nat) :
    l.foldl (see T (fun _ _ k => k + 1)) k = k + l.length := by
  induction l generalizing k with
  | nil => rfl
  | cons q l ih =>
    obtain ⟨m, hm⟩ := Option.isSome_iff_exists.mp (h q (by simp))
    rw [List.foldl_cons, ih (fun r hr => h r (by simp [hr]))]
    simp only [see, hm, List.length_cons]
    omega

theorem tbl_row {T : Tree} (hg : Good T) (hs : Shape [] T.root) {q : Path} (hq : q ≠ []) {m : Node} (hm : nodeOf q T.root = some m) :
    (decide (m.info.type = tObject) && tbl T q) = isRow (seen T) q := by
  simp only [isRow, seen_node hg hs hq hm, tbl]
  by_cases hd : q.dropLast = []
  · rw [hd, seen_nil]
    simp only [nodeOf]
    have : ¬ T.root.info.type = tTable := by rw [hg.rootObj]; decide
    simp [this]
  · obtain ⟨t, ht⟩ : ∃ t, q = q.dropLast ++ [t] := ⟨q.getLast hq, (List.dropLast_concat_getLast hq).symm⟩
    rw [ht, nodeOf_append] at hm
    cases hn : nodeOf q.dropLast T.root with
    | none => rw [hn] at hm; cases hm
    | some n => simp only [seen_node hg hs hd hn, entry]

theorem getInt32U_set (v : BitVec 32) (r : Bytes) : getInt32U (setInt32 v ++ r) = .ok (v, r) := by
  simp only [getInt32U, get_setInt32]

/-- Names that fit. -/
def Fit (q : Path) : Prop := (join q).length ≤ 255

theorem read_one {T : Tree} (hg : Good T) (hs : Shape [] T.root) {q : Path} (hq : q ≠ []) (hm : (nodeOf q T.root).isSome)
    (hf : Fit q) (c : Comp) : ∃ x, describe (seen T) c q = [x] ∧ ∀ n r, readRecords c (n + 1) (bytesAt T q ++ r) =
      (do let l ← readRecords c n r; pure (x :: l)) := by
  obtain ⟨m, hm⟩ := Option.isSome_iff_exists.mp hm
  have hsq := hs.nodeOf hm
  rw [List.nil_append] at hsq
  have hfull : m.info.full = q := hsq.ok.full
  have hfine := shape_fine hs hm
  have hlen : (fullText q).length + 1 = (join q).length := by rw [← join_full hq]; simp
  have hshow : shown m.info = if m.info.type = tObject ∨ m.info.type = tTable then join q else fullText q := by
    simp only [shown, hfull]
    split
    · rw [show dot = (46 : UInt8) from rfl, join_full hq]
      exact List.take_of_length_le hf
    · rfl
  have hname : Name (shown m.info) := by
    rw [hshow]
    have h0 := join_no0 hfine.2
    have hf' : (join q).length ≤ 255 := hf
    split
    · exact ⟨h0, by omega⟩
    · refine ⟨fun h => h0 (full_sub h), by omega⟩
  refine ⟨⟨if m.info.type = tObject ∨ m.info.type = tTable then join q else fullText q, BitVec.ofNat 32 m.info.type,
    BitVec.ofNat 32 (rights m.info.cb (isRow (seen T) q)), c⟩, by simp only [describe, seen_node hg hs hq hm, entry], ?_⟩
  intro n r
  rw [hshow] at hname
  simp only [bytesAt, see, hm, List.nil_append, ElementInfo.record, List.append_assoc, readRecords, getStringU_set _ hname, Res.ok_bind,
    getInt32U_set, access_eq, tbl_row hg hs hq hm, hshow]

theorem read_all {T : Tree} (hg : Good T) (hs : Shape [] T.root) (c : Comp) : ∀ (l : List Path),
    (∀ q ∈ l, q ≠ [] ∧ (nodeOf q T.root).isSome ∧ Fit q) → ∀ r,
    readRecords c l.length (l.flatMap (bytesAt T) ++ r) = .ok (l.flatMap (describe (seen T) c)) := by
  intro l
  induction l with
  | nil => intro _ r; rfl
  | cons q l ih =>
    intro h r
    obtain ⟨h1, h2, h3⟩ := h q (by simp)
    obtain ⟨x, hx, hr⟩ := read_one hg hs h1 h2 h3 c
    rw [List.length_cons, List.flatMap_cons, List.append_assoc, hr, ih (fun q hq => h q (by simp [hq])) r, List.flatMap_cons, hx]
    rfl

/-! ### Requests and responses -/

theorem handler_none {T : Tree} {s : Bytes} (hn : Name s) (depth : BitVec 32) (r : Bytes) (h : retrieveInstance T s = none) :
    namesHandler T (ElementInfo.request s depth 0 ++ r) = .ok (setInt32 17) := by
  simp only [namesHandler, ElementInfo.request, List.append_assoc, getStringU_set _ hn, Res.ok_bind, getInt32Z_set, h]

theorem read_error (c : Comp) (r : Bytes) : readAnswer c (setInt32 17 ++ r) = .ok (17, []) := by
  simp only [readAnswer, getInt32Z_set]
  rfl

theorem handler_some {T : Tree} (hg : Good T) (hs : Shape [] T.root) {p : Path} (hp : p ≠ []) {m : Node}
    (hm : nodeOf p T.root = some m) {s : Bytes} (hn : Name s) (hsp : pieces s = p) {depth : BitVec 32} (hd : depth ≠ BitVec.intMin 32)
    (r : Bytes) :
    namesHandler T (ElementInfo.request s depth 0 ++ r) = .ok (setInt32 0 ++ setInt32 (BitVec.ofNat 32 (wanted (seen T) depth.toInt p).length) ++
      (wanted (seen T) depth.toInt p).flatMap (bytesAt T)) := by
  have hex := hs.exact hm
  have hret := retrieve_path hg hp hex hsp
  rw [hm] at hret
  have htab : ¬ (m.info.type = tTable ∧ m.info.cb.get.isSome = true) := by
    rintro ⟨h1, h2⟩
    rw [((hg.neat.nodeOf hm).ok.table h1).1] at h2
    cases h2
  have hpar : parentTable T s = tbl T p := by
    have hexd : Exact p.dropLast := fun t ht => hex t (List.dropLast_subset _ ht)
    simp only [parentTable, tokens_pieces, hsp, instance_nodeOf hg.neat hexd, tbl]
    cases nodeOf p.dropLast T.root <;> rfl
  have hsm := hs.nodeOf hm
  rw [List.nil_append] at hsm
  have h1 := recurse_eq hg hs (fun _ _ (k : Nat) => k + 1) depth.toInt hsm hp hm 0 0 (by omega)
  have h2 := fun bs : Bytes => recurse_eq hg hs (fun i t bs => bs ++ ElementInfo.record i t) depth.toInt hsm hp hm 0 bs (by omega)
  have hall := reach_node hg hs (decide (0 ≤ depth.toInt)) depth.toInt.natAbs p hp (by rw [hm]; rfl)
  rw [Nat.sub_zero] at h1
  simp only [Nat.sub_zero] at h2
  rw [fold_count _ (fun q hq => (hall q hq).2)] at h1
  have hr0 : (0 : BitVec 32) ≠ 0 ↔ False := by simp
  simp only [namesHandler, ElementInfo.request, List.append_assoc, getStringU_set _ hn, Res.ok_bind, getInt32Z_set, hret, hr0, if_false,
    if_neg htab, if_neg hd, hpar, h1, h2, fold_bytes, Nat.zero_add, wanted]

theorem read_some {T : Tree} (hg : Good T) (hs : Shape [] T.root) (c : Comp) (l : List Path)
    (h : ∀ q ∈ l, q ≠ [] ∧ (nodeOf q T.root).isSome ∧ Fit q) (hl : l.length < 2 ^ 31) (r : Bytes) :
    readAnswer c (setInt32 0 ++ setInt32 (BitVec.ofNat 32 l.length) ++ l.flatMap (bytesAt T) ++ r) =
      .ok (0, l.flatMap (describe (seen T) c)) := by
  simp only [readAnswer, List.append_assoc, getInt32Z_set, toInt_small hl, read_all hg hs c l h r]
  rfl

/-! ### Which elements are listed -/

theorem reach_mem {T : Tree} (hg : Good T) (hs : Shape [] T.root) (all : Bool) : ∀ (n : Nat) (p : Path) (m : Node), p ≠ [] →
    nodeOf p T.root = some m → ∀ q, q ∈ reach (seen T) all n p ↔ ∃ r, q = p ++ r ∧ template ∉ r ∧ (nodeOf r m).isSome ∧
      (if all then r.length ≤ n else r.length = n) := by
  intro n
  induction n with
  | zero =>
    intro p m hp hm q
    simp only [reach, List.mem_singleton]
    constructor
    · rintro rfl; exact ⟨[], by simp, by simp, rfl, by simp⟩
    · rintro ⟨r, rfl, _, _, h⟩
      have : r = [] := by
        rw [← List.length_eq_zero_iff]
        split at h <;> omega
      simp [this]
  | succ n ih =>
    intro p m hp hm q
    have hneat := hg.neat.nodeOf hm
    simp only [reach, List.mem_append, List.mem_flatMap, Spec.ElementInfo.below, seen_node hg hs hp hm, entry]
    constructor
    · rintro (h | ⟨x, hx, hq⟩)
      · split at h
        next ha =>
          simp only [List.mem_singleton] at h
          subst h
          exact ⟨[], by simp, by simp, rfl, by simp [ha]⟩
        · cases h
      · obtain ⟨t, ht, rfl⟩ := List.mem_map.mp hx
        obtain ⟨ht, hnt⟩ := List.mem_filter.mp ht
        obtain ⟨c, hc, rfl⟩ := List.mem_map.mp ht
        obtain ⟨r, rfl, h1, h2, h3⟩ := (ih _ c (by simp) (nodeOf_snoc hm hneat hc) q).mp hq
        refine ⟨c.info.name :: r, by simp, ?_, ?_, ?_⟩
        · simp only [List.mem_cons, not_or]
          exact ⟨fun h => by simp [h] at hnt, h1⟩
        · simp only [nodeOf, child_self hneat.ok.nodup hc, h2]
        · split at h3
          next ha => rw [if_pos ha]; simp only [List.length_cons]; omega
          next ha => rw [if_neg ha]; simp only [List.length_cons]; omega
    · rintro ⟨r, rfl, h1, h2, h3⟩
      cases r with
      | nil =>
        left
        by_cases ha : all = true
        · simp [ha]
        · rw [if_neg ha] at h3; simp at h3
      | cons t r =>
        right
        simp only [List.mem_cons, not_or] at h1
        simp only [nodeOf] at h2
        cases hc : child m t with
        | none => simp only [hc] at h2; cases h2
        | some c =>
          simp only [hc] at h2
          obtain ⟨hcm, hcn⟩ := child_mem hc
          refine ⟨p ++ [t], List.mem_map.mpr ⟨t, List.mem_filter.mpr ⟨child_below hc, by simpa using Ne.symm h1.1⟩, rfl⟩, ?_⟩
          have hnode := nodeOf_snoc hm hneat hcm
          rw [hcn] at hnode
          refine (ih (p ++ [t]) c (by simp) hnode _).mpr ⟨r, by simp, h1.2, h2, ?_⟩
          split at h3
          next ha => rw [if_pos ha]; simp only [List.length_cons] at h3; omega
          next ha => rw [if_neg ha]; simp only [List.length_cons] at h3; omega

theorem reach_nodup {T : Tree} (hg : Good T) (hs : Shape [] T.root) (all : Bool) : ∀ (n : Nat) (p : Path) (m : Node), p ≠ [] →
    nodeOf p T.root = some m → (reach (seen T) all n p).Nodup := by
  intro n
  induction n with
  | zero => intro p m _ _; simp [reach]
  | succ n ih =>
    intro p m hp hm
    have hneat := hg.neat.nodeOf hm
    have hb : Spec.ElementInfo.below (seen T) p = ((entry m).below.filter (· ≠ template)).map (fun t => p ++ [t]) := by
      simp only [Spec.ElementInfo.below, seen_node hg hs hp hm]
    have hnd : ((entry m).below.filter (· ≠ template)).Nodup := hneat.ok.nodup.filter _
    have hall : ∀ t ∈ (entry m).below.filter (· ≠ template), (reach (seen T) all n (p ++ [t])).Nodup ∧
        ∀ q ∈ reach (seen T) all n (p ++ [t]), ∃ r, q = p ++ t :: r := by
      intro t ht
      obtain ⟨c, hc, rfl⟩ := List.mem_map.mp (List.mem_filter.mp ht).1
      have hnode := nodeOf_snoc hm hneat hc
      refine ⟨ih _ c (by simp) hnode, fun q hq => ?_⟩
      obtain ⟨r, rfl, _⟩ := (reach_mem hg hs all n _ c (by simp) hnode q).mp hq
      exact ⟨r, by simp⟩
    rw [reach, hb, List.nodup_append]
    refine ⟨by split <;> simp, ?_, ?_⟩
    · generalize (entry m).below.filter (· ≠ template) = l at hnd hall
      induction l with
      | nil => simp
      | cons t l ihl =>
        rw [List.nodup_cons] at hnd
        rw [List.map_cons, List.flatMap_cons, List.nodup_append]
        refine ⟨(hall t (by simp)).1, ihl hnd.2 (fun u hu => hall u (by simp [hu])), ?_⟩
        intro a ha b hb hab
        obtain ⟨r, hr⟩ := (hall t (by simp)).2 a ha
        obtain ⟨x, hx, hxb⟩ := List.mem_flatMap.mp hb
        obtain ⟨u, hu, rfl⟩ := List.mem_map.mp hx
        obtain ⟨r', hr'⟩ := (hall u (by simp [hu])).2 b hxb
        rw [hab, hr'] at hr
        have := List.append_cancel_left hr
        simp only [List.cons.injEq] at this
        exact hnd.1 (this.1 ▸ hu)
    · intro a ha b hb hab
      have ha' : a = p := by
        split at ha
        · simpa using ha
        · cases ha
      obtain ⟨x, hx, hxb⟩ := List.mem_flatMap.mp hb
      obtain ⟨u, hu, rfl⟩ := List.mem_map.mp hx
      obtain ⟨r, hr⟩ := (hall u hu).2 b hxb
      rw [← hab, ha'] at hr
      have := congrArg List.length hr
      simp at this

/-! ### Rows -/

theorem read_rows : ∀ (l : List Node) (r : Bytes), (∀ c ∈ l, Name (c.info.alias.getD [])) →
    readRows l.length (rowRecords l ++ r) = .ok (l.map (fun c => (Rows.atoi c.info.name, c.info.alias.getD []))) := by
  intro l
  induction l with
  | nil => intro r _; rfl
  | cons c l ih =>
    intro r h
    have hi : (BitVec.ofInt 32 (Rows.atoi c.info.name)).toInt = Rows.atoi c.info.name := by
      unfold Rows.atoi
      rw [BitVec.ofInt_toInt]
    simp only [rowRecords, List.flatMap_cons, List.length_cons, readRows, List.append_assoc, getInt32U_set, Res.ok_bind,
      getStringN_set _ (h c (by simp)), hi]
    have := ih r (fun d hd => h d (by simp [hd]))
    simp only [rowRecords] at this
    rw [this]
    rfl

end Verif.ElementInfoProof
