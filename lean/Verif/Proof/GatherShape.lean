import Verif.Proof.RowsHistory
import Verif.Spec.Gather

/-!
# Proofs about partial paths: full names, and which nodes have children
-/

namespace Verif.GatherProof

open Verif Verif.Element Verif.Subs Verif.Rows Verif.Spec.Provider Verif.Spec.Rows Verif.RowsProof
open Verif.Spec.Gather (Proper)

/-- Components of names: C strings that are looked for as they are. -/
def Fine (p : Path) : Prop := Exact p ∧ ∀ t ∈ p, (0 : UInt8) ∉ t

theorem fine_decimal (i : Nat) : Fine [decimal i] := by
  refine ⟨exact_decimal i, ?_⟩
  intro t ht h
  rw [List.mem_singleton] at ht
  subst ht
  have := decimal_digits i _ h
  simp at this

theorem fine_template : Fine [template] := ⟨exact_template, by decide⟩

theorem Fine.sub {p q : Path} (h : Fine p) (hq : ∀ t ∈ q, t ∈ p) : Fine q :=
  ⟨fun t ht => h.1 t (hq t ht), fun t ht => h.2 t (hq t ht)⟩

/-- What holds at a node with a path. -/
structure ShapeNode (p : Path) (n : Node) : Prop where
  full : n.info.full = p
  obj : n.info.type = tObject → n.info.cb.get = none
  leaf : n.info.type ≠ tTable → n.info.cb.get ≠ none → n.children = []
  names : ∀ c ∈ n.children, Fine [c.info.name]
  tmpl : n.info.type ≠ tTable → ∀ c ∈ n.children, c.info.name ≠ template
  tobj : ∀ c ∈ n.children, c.info.name = template → c.info.type = tObject

/-- All nodes. -/
inductive Shape : Path → Node → Prop where
  | node {p : Path} {n : Node} : ShapeNode p n → (∀ c ∈ n.children, Shape (p ++ [c.info.name]) c) → Shape p n

theorem Shape.ok {p : Path} {n : Node} (h : Shape p n) : ShapeNode p n := by cases h with | node h _ => exact h

theorem Shape.sub {p : Path} {n : Node} (h : Shape p n) : ∀ c ∈ n.children, Shape (p ++ [c.info.name]) c := by
  cases h with | node _ h => exact h

theorem Shape.nodeOf : ∀ {q p : Path} {n m : Node}, Shape p n → nodeOf q n = some m → Shape (p ++ q) m := by
  intro q
  induction q with
  | nil => intro p n m h hm; simp only [Subs.nodeOf, Option.some.injEq] at hm; simpa [hm] using h
  | cons t q ih =>
    intro p n m h hm
    simp only [Subs.nodeOf] at hm
    cases hc : child n t with
    | none => simp only [hc] at hm; cases hm
    | some c =>
      simp only [hc] at hm
      obtain ⟨h1, h2⟩ := child_mem hc
      have := ih (h.sub c h1) hm
      simpa [h2] using this

theorem Shape.exact : ∀ {q p : Path} {n m : Node}, Shape p n → Subs.nodeOf q n = some m → Exact q := by
  intro q
  induction q with
  | nil => intro p n m _ _ t ht; cases ht
  | cons t q ih =>
    intro p n m h hm
    simp only [Subs.nodeOf] at hm
    cases hc : child n t with
    | none => simp only [hc] at hm; cases hm
    | some c =>
      simp only [hc] at hm
      obtain ⟨h1, h2⟩ := child_mem hc
      have he := (h.ok.names c h1).1
      rw [h2] at he
      exact exact_append (p := [t]) |>.mpr ⟨he, ih (h.sub c h1) hm⟩

/-! ### Removing -/

theorem unlinkList_mem {id : Nat} {x : Node} : ∀ {cs : List Node}, x ∈ unlinkList id cs →
    ∃ c ∈ cs, x.info = c.info ∧ (x = c ∨ x = unlink id c) := by
  intro cs
  induction cs with
  | nil => intro h; simp [unlinkList] at h
  | cons n ns ih =>
    intro h
    rw [unlinkList] at h
    split at h
    · exact ⟨x, by simp [h], rfl, .inl rfl⟩
    · rcases List.mem_cons.mp h with h | h
      · refine ⟨n, by simp, ?_, .inr h⟩
        rw [h]
        cases n
        rfl
      · obtain ⟨c, hc, h1⟩ := ih h
        exact ⟨c, by simp [hc], h1⟩

theorem unlinkList_nil (id : Nat) : unlinkList id [] = [] := by rw [unlinkList]

theorem shape_unlink {id : Nat} {p : Path} {n : Node} (h : Shape p n) : Shape p (unlink id n) := by
  induction h with
  | @node p n hok hsub ih =>
    have hinfo : (unlink id n).info = n.info := by cases n; rfl
    have hch : (unlink id n).children = unlinkList id n.children := by cases n; rfl
    refine .node ⟨by rw [hinfo]; exact hok.full, by rw [hinfo]; exact hok.obj, ?_, ?_, ?_, ?_⟩ ?_
    · rw [hinfo, hch]
      intro h1 h2
      rw [hok.leaf h1 h2, unlinkList_nil]
    · rw [hch]
      intro c hc
      obtain ⟨d, hd, he, _⟩ := unlinkList_mem hc
      rw [he]
      exact hok.names d hd
    · rw [hinfo, hch]
      intro ht c hc
      obtain ⟨d, hd, he, _⟩ := unlinkList_mem hc
      rw [he]
      exact hok.tmpl ht d hd
    · rw [hch]
      intro c hc
      obtain ⟨d, hd, he, _⟩ := unlinkList_mem hc
      rw [he]
      exact hok.tobj d hd
    · rw [hch]
      intro c hc
      obtain ⟨d, hd, he, h1⟩ := unlinkList_mem hc
      rw [he]
      rcases h1 with h1 | h1
      · rw [h1]; exact hsub d hd
      · rw [h1]; exact ih d hd

/-! ### Adding -/

theorem decimal_ne_template (i : Nat) : decimal i ≠ template := by
  intro h
  have h1 := decimal_digits i 123 (by rw [h]; decide)
  have h2 : (123 : UInt8).toNat = 123 := rfl
  omega


theorem shape_modAt {f : Node → Node} (hf : ∀ x, (f x).info = x.info) : ∀ (P p : Path) (n : Node), Shape p n →
    (∀ m, Subs.nodeOf P n = some m → Shape (p ++ P) (f m)) → Shape p (modAt P f n) := by
  intro P
  induction P with
  | nil => intro p n _ h; simpa [modAt] using h n rfl
  | cons t P ih =>
    intro p n hn h
    have hmem : ∀ x ∈ modFirst t (modAt P f) n.children, ∃ c ∈ n.children, x.info = c.info ∧
        Shape (p ++ [c.info.name]) x := by
      intro x hx
      rcases modFirst_mem hx with hx | ⟨c, hc, rfl⟩
      · exact ⟨x, hx, rfl, hn.sub x hx⟩
      · have hm := List.mem_of_find?_eq_some hc
        have hname : c.info.name = t := by simpa using List.find?_some hc
        refine ⟨c, hm, modAt_info hf P c, ih _ c (hn.sub c hm) ?_⟩
        intro m hm'
        have := h m (by simp only [Subs.nodeOf, show child n t = some c from hc, hm'])
        simpa [hname] using this
    refine .node ⟨hn.ok.full, hn.ok.obj, ?_, ?_, ?_, ?_⟩ ?_
    · intro h1 h2
      simp only [modAt, hn.ok.leaf h1 h2, modFirst]
    · intro x hx
      obtain ⟨c, hc, he, _⟩ := hmem x hx
      rw [he]
      exact hn.ok.names c hc
    · intro h1 x hx
      obtain ⟨c, hc, he, _⟩ := hmem x hx
      rw [he]
      exact hn.ok.tmpl h1 c hc
    · intro x hx
      obtain ⟨c, hc, he, _⟩ := hmem x hx
      rw [he]
      exact hn.ok.tobj c hc
    · intro x hx
      obtain ⟨c, hc, he, hs⟩ := hmem x hx
      rw [he]
      exact hs

theorem shape_dup {p : Path} {n : Node} (h : Shape p n) : ∀ (full : Path) (name : Element.Token) (k : Nat),
    Shape full (dup full name n k).1 := by
  induction h with
  | @node p n hok hsub ih =>
    intro full name k
    obtain ⟨hi, _, hch, _⟩ := dup_info full name n k
    refine .node ⟨by rw [hi], by rw [hi]; exact hok.obj, ?_, ?_, ?_, ?_⟩ ?_
    · rw [hi, hch]
      intro h1 h2
      rw [hok.leaf h1 h2]
      rfl
    · rw [hch]
      intro x hx
      obtain ⟨c, hc, k', rfl⟩ := dupList_mem full hx
      rw [(dup_info _ _ c k').1]
      exact hok.names c hc
    · rw [hi, hch]
      intro h1 x hx
      obtain ⟨c, hc, k', rfl⟩ := dupList_mem full hx
      rw [(dup_info _ _ c k').1]
      exact hok.tmpl h1 c hc
    · rw [hch]
      intro x hx
      obtain ⟨c, hc, k', rfl⟩ := dupList_mem full hx
      rw [(dup_info _ _ c k').1]
      exact hok.tobj c hc
    · rw [hch]
      intro x hx
      obtain ⟨c, hc, k', rfl⟩ := dupList_mem full hx
      rw [(dup_info _ _ c k').1]
      exact ih c hc _ _ k'

theorem shape_named {p : Path} {n : Node} (a : Option Bytes) (h : Shape p n) : Shape p (named a n) :=
  .node ⟨h.ok.full, h.ok.obj, h.ok.leaf, h.ok.names, h.ok.tmpl, h.ok.tobj⟩ h.sub

theorem shape_add {T T' : Tree} (hg : Good T) (hs : Shape [] T.root) {P : Path} {m row : Node} {i : Nat} {a : Option Bytes}
    (hm : Subs.nodeOf P T.root = some m) (ht : m.info.type = tTable) (h : instantiate T m i a = some (T', row)) :
    Shape [] T'.root := by
  have hmn := hs.nodeOf hm
  unfold instantiate at h
  cases hct : child m template with
  | none => rw [hct] at h; cases h
  | some tm =>
    rw [hct] at h
    simp only [Option.some.injEq, Prod.mk.injEq] at h
    have htm := hmn.sub tm (child_mem hct).1
    have hd := shape_dup htm (m.info.full ++ [decimal i]) (decimal i) T.next
    have hdi := (dup_info (m.info.full ++ [decimal i]) (decimal i) tm T.next).1
    generalize dup (m.info.full ++ [decimal i]) (decimal i) tm T.next = d at h hd hdi
    rw [← h.1]
    have hroot := modify_eq (f := addChild (named a d.1)) hg.nodup hm
    change Shape [] (Element.modify m.id (addChild (named a d.1)) T.root)
    rw [hroot]
    refine shape_modAt (f := addChild (named a d.1)) (fun _ => rfl) P [] T.root hs ?_
    intro m' hm'
    rw [hm] at hm'
    cases hm'
    have hname : (named a d.1).info.name = decimal i := by simp only [named, hdi]
    refine .node ⟨hmn.ok.full, hmn.ok.obj, fun h => absurd ht h, ?_, fun h => absurd ht h, ?_⟩ ?_
    · intro c hc
      rcases List.mem_append.mp hc with hc | hc
      · exact hmn.ok.names c hc
      · rw [List.mem_singleton] at hc
        rw [hc, hname]
        exact fine_decimal i
    · intro c hc hct
      rcases List.mem_append.mp hc with hc | hc
      · exact hmn.ok.tobj c hc hct
      · rw [List.mem_singleton] at hc
        rw [hc, hname] at hct
        exact absurd hct (decimal_ne_template i)
    · intro c hc
      rcases List.mem_append.mp hc with hc | hc
      · exact hmn.sub c hc
      · rw [List.mem_singleton] at hc
        rw [hc, hname]
        have := shape_named a hd
        rw [hmn.ok.full] at this
        exact this

/-! ### Declaring -/

theorem shape_empty (k : Nat) (p : Path) (t : Element.Token) : Shape p (empty k p t) :=
  .node ⟨rfl, fun _ => rfl, fun _ _ => rfl, by simp [empty], by simp [empty], by simp [empty]⟩ (by simp [empty])

theorem shape_chain {type : Nat} {cb : Cb} (hty : type ≠ tObject) : ∀ (ts p : Path) (n : Node) (k : Nat),
    Shape p n → n.children = [] → n.info.type = tObject → Fine ts → template ∉ ts →
    Shape p (insertAt (setElement type cb) ts n k).1 := by
  intro ts
  induction ts with
  | nil =>
    intro p n k hs hc ho _ _
    simp only [insertAt, setElement]
    split
    next ht =>
      refine .node ⟨hs.ok.full, fun h => absurd h hty, fun h => absurd ht h, ?_, fun h => absurd ht h, ?_⟩ ?_
      · intro c hc
        rw [List.mem_singleton] at hc
        rw [hc]
        exact fine_template
      · intro c hc _
        rw [List.mem_singleton] at hc
        rw [hc]
        rfl
      · intro c hc
        rw [List.mem_singleton] at hc
        rw [hc]
        have := shape_empty k (p ++ [template]) template
        rw [← hs.ok.full] at this ⊢
        exact this
    next ht =>
      refine .node ⟨hs.ok.full, fun h => absurd h hty, fun _ _ => hc, ?_, ?_, ?_⟩ ?_ <;> simp [hc]
  | cons t ts ih =>
    intro p n k hs hc ho he ht
    simp only [List.mem_cons, not_or] at ht
    simp only [insertAt, hc, upsert]
    have hname := (insertAt_name type cb ts (empty k (n.info.full ++ [t]) t) (k + 1)).1
    refine .node ⟨hs.ok.full, hs.ok.obj, ?_, ?_, ?_, ?_⟩ ?_
    · intro _ h2
      exact absurd (hs.ok.obj ho) h2
    · intro c hc
      rw [List.mem_singleton] at hc
      rw [hc, hname]
      exact he.sub (by intro u hu; rw [List.mem_singleton] at hu; simp [hu, empty])
    · intro _ c hc
      rw [List.mem_singleton] at hc
      rw [hc, hname]
      exact Ne.symm ht.1
    · intro c hc h3
      rw [List.mem_singleton] at hc
      rw [hc, hname] at h3
      exact absurd h3.symm ht.1
    · intro c hc
      rw [List.mem_singleton] at hc
      rw [hc, hname]
      refine ih _ _ _ ?_ rfl rfl (he.sub (by intro u hu; simp [hu])) ht.2
      have := shape_empty k (n.info.full ++ [t]) t
      rw [hs.ok.full] at this ⊢
      exact this

theorem shape_insert {type : Nat} {cb : Cb} (hty : type ≠ tObject) : ∀ (ts p : Path) (n : Node) (k : Nat),
    Shape p n → Subs.nodeOf ts n = none → junction ts n → Fine ts →
    (∀ a r, ts = a ++ template :: r → ∃ m, Subs.nodeOf a n = some m ∧ m.info.type = tTable) →
    Shape p (insertAt (setElement type cb) ts n k).1 := by
  intro ts
  induction ts with
  | nil => intro p n k _ h; simp [Subs.nodeOf] at h
  | cons t ts ih =>
    intro p n k hn h hj he hr
    simp only [Subs.nodeOf] at h
    simp only [junction] at hj
    simp only [insertAt]
    have hex : Fine [t] := he.sub (by intro u hu; rw [List.mem_singleton] at hu; simp [hu])
    have hexs : Fine ts := he.sub (by intro u hu; simp [hu])
    have ht : n.info.type ≠ tTable → t ≠ template := by
      intro h1 h2
      obtain ⟨m, h3, h4⟩ := hr [] ts (by rw [h2]; rfl)
      simp only [Subs.nodeOf, Option.some.injEq] at h3
      rw [← h3] at h4
      exact h1 h4
    cases hc : child n t with
    | none =>
      simp only [hc] at hj
      have hno : n.info.type ≠ tTable := by rw [hj]; decide
      rw [upsert_absent _ _ hc]
      have hname := (insertAt_name type cb ts (empty k (n.info.full ++ [t]) t) (k + 1)).1
      have hts : template ∉ ts := by
        intro hm
        obtain ⟨a, b, rfl⟩ := List.append_of_mem hm
        obtain ⟨m, h3, _⟩ := hr (t :: a) b rfl
        simp only [Subs.nodeOf, hc] at h3
        cases h3
      have hnew : Shape (p ++ [t]) (insertAt (setElement type cb) ts (empty k (n.info.full ++ [t]) t) (k + 1)).1 := by
        refine shape_chain hty ts _ _ _ ?_ rfl rfl hexs hts
        have := shape_empty k (n.info.full ++ [t]) t
        rw [hn.ok.full] at this ⊢
        exact this
      refine .node ⟨hn.ok.full, hn.ok.obj, ?_, ?_, ?_, ?_⟩ ?_
      · intro _ h2
        exact absurd (hn.ok.obj hj) h2
      · intro c hc'
        rcases List.mem_append.mp hc' with hc' | hc'
        · exact hn.ok.names c hc'
        · rw [List.mem_singleton] at hc'
          rw [hc', hname]
          exact hex
      · intro h1 c hc'
        rcases List.mem_append.mp hc' with hc' | hc'
        · exact hn.ok.tmpl hno c hc'
        · rw [List.mem_singleton] at hc'
          rw [hc', hname]
          exact ht hno
      · intro c hc' h3
        rcases List.mem_append.mp hc' with hc' | hc'
        · exact hn.ok.tobj c hc' h3
        · rw [List.mem_singleton] at hc'
          rw [hc', hname] at h3
          exact absurd h3 (ht hno)
      · intro c hc'
        rcases List.mem_append.mp hc' with hc' | hc'
        · exact hn.sub c hc'
        · rw [List.mem_singleton] at hc'
          rw [hc', hname]
          exact hnew
    | some c =>
      simp only [hc] at hj h
      obtain ⟨a, b, h1, h2⟩ := upsert_present (f := insertAt (setElement type cb) ts)
        (mk := fun id => empty id (n.info.full ++ [t]) t) n.children k c hc
      rw [h2]
      have hname := (insertAt_name type cb ts c k).1
      obtain ⟨hcm, hcn⟩ := child_mem hc
      have hbl := ih (p ++ [c.info.name]) c k (hn.sub c hcm) h hj hexs (by
        intro a' r' h3
        obtain ⟨m, h4, h5⟩ := hr (t :: a') r' (by rw [h3]; rfl)
        simp only [Subs.nodeOf, hc] at h4
        exact ⟨m, h4, h5⟩)
      have hmem : ∀ x ∈ a ++ (insertAt (setElement type cb) ts c k).1 :: b, ∃ y ∈ n.children,
          x.info.name = y.info.name ∧ Shape (p ++ [y.info.name]) x := by
        intro x hx
        rcases List.mem_append.mp hx with hx | hx
        · exact ⟨x, by rw [h1]; simp [hx], rfl, hn.sub x (by rw [h1]; simp [hx])⟩
        · rcases List.mem_cons.mp hx with hx | hx
          · exact ⟨c, hcm, by rw [hx, hname], hx ▸ hbl⟩
          · exact ⟨x, by rw [h1]; simp [hx], rfl, hn.sub x (by rw [h1]; simp [hx])⟩
      refine .node ⟨hn.ok.full, hn.ok.obj, ?_, ?_, ?_, ?_⟩ ?_
      · intro h3 h4
        have := hn.ok.leaf h3 h4
        rw [this] at hcm
        cases hcm
      · intro x hx
        obtain ⟨y, hy, he', _⟩ := hmem x hx
        rw [he']
        exact hn.ok.names y hy
      · intro h3 x hx
        obtain ⟨y, hy, he', _⟩ := hmem x hx
        rw [he']
        exact hn.ok.tmpl h3 y hy
      · intro x hx h3
        rcases List.mem_append.mp hx with hx | hx
        · exact hn.ok.tobj x (by rw [h1]; simp [hx]) h3
        · rcases List.mem_cons.mp hx with hx | hx
          · have hts : ts ≠ [] := by
              intro h0
              rw [h0] at h
              simp [Subs.nodeOf] at h
            rw [hx] at h3 ⊢
            rw [hname] at h3
            rw [(insertAt_name type cb ts c k).2.2 hts]
            exact hn.ok.tobj c hcm h3
          · exact hn.ok.tobj x (by rw [h1]; simp [hx]) h3
      · intro x hx
        obtain ⟨y, hy, he', hs⟩ := hmem x hx
        rw [he']
        exact hs

theorem declare_shape {D : List Decl} (h : Orderly D) (hp : Proper D) : Shape [] (declare D).root := by
  have key : ∀ (D2 D1 : List Decl) (T : Tree), Tidy D1 T → Shape [] T.root →
      (∀ A d B, D1 ++ D2 = A ++ d :: B → Fits A d.path) → (∀ d ∈ D2, d.type ≠ tObject ∧ Exact d.path ∧ ∀ t ∈ d.path, (0 : UInt8) ∉ t) →
      Shape [] (D2.foldl (fun T d => Element.insert T d.name d.type d.cb) T).root := by
    intro D2
    induction D2 with
    | nil => intro D1 T _ hs _ _; exact hs
    | cons d D2 ih =>
      intro D1 T ht hs hf hpd
      have hfit := hf D1 d D2 rfl
      have hr := insert_root ht hfit
      obtain ⟨hnone, hjun⟩ := fits_free ht hfit
      refine ih (D1 ++ [d]) _ (ht.insert hfit) ?_ (by simpa using hf) (fun x hx => hpd x (by simp [hx]))
      rw [hr]
      refine shape_insert (hpd d (by simp)).1 d.path [] T.root T.next hs hnone hjun (hpd d (by simp)).2 ?_
      intro a r har
      obtain ⟨d', hd', h1, h2⟩ := hfit.rows a r har
      have hsome := (ht.present d'.path).mpr (.inr ⟨d', hd', .inl (List.prefix_refl _)⟩)
      obtain ⟨m, hm⟩ := Option.isSome_iff_exists.mp hsome
      exact ⟨m, by rw [← h1]; exact hm, ((ht.declared d' hd' m hm).1).trans h2⟩
  exact key D [] Tree.init tidy_init (.node ⟨rfl, fun _ => rfl, fun _ _ => rfl, by simp [Tree.init], by simp [Tree.init], by simp [Tree.init]⟩
    (by simp [Tree.init])) h hp

/-! ### Calls -/

theorem shape_step {T T' : Tree} {op : Rows.Op} {o : Rows.Out} (hg : Good T) (hs : Shape [] T.root)
    (hsane : Spec.Rows.Sane (seen T) op) (h : Rows.step T op = .ok (T', o)) : Shape [] T'.root := by
  cases op with
  | add t a c i =>
    obtain ⟨hne, ⟨hex, _⟩, _, htab⟩ := hsane
    simp only [Rows.step, Rows.addRow, if_neg hne] at h
    split at h
    · cases h; exact hs
    · cases hri : retrieveInstance T t with
      | none =>
        rw [hri] at h
        cases hr : retrieve T t <;> rw [hr] at h <;> cases h <;> exact hs
      | some m =>
        obtain ⟨hP, hm, r, hr, hlike⟩ := retrieve_some hg.neat hex hri
        have hseen : seen T (pieces t) = some (entry m) := by rw [seen_pieces hg.neat hex, hri]; rfl
        have hkind := hlike.kind
        simp only [kind, Prod.mk.injEq] at hkind
        rw [hri, hr] at h
        simp only at h
        split at h
        next hcb =>
          split at h
          next hc =>
            have hty := (htab hc (entry m) hseen (by
              rw [hkind.2] at hcb
              exact Option.isSome_iff_ne_none.mp hcb)).1
            simp only [registerTableRow] at h
            cases hi : instantiate T m i (wireAlias a) with
            | none => rw [hi] at h; cases h
            | some x =>
              obtain ⟨T1, row⟩ := x
              rw [hi] at h
              cases h
              exact shape_add hg hs hm hty hi
          next => cases h; exact hs
        next => cases h; exact hs
  | remove r c =>
    simp only [Rows.step, Rows.removeRow] at h
    split at h
    · split at h
      · split at h
        · split at h
          · cases h; exact shape_unlink hs
          · cases h; exact hs
        · cases h; exact hs
      · cases h; exact hs
    · cases h; exact hs
  | register t i a =>
    obtain ⟨⟨hex, _⟩, _, _, htab⟩ := hsane
    simp only [Rows.step, Rows.registerRow] at h
    split at h
    · cases h; exact hs
    · split at h
      · cases h; exact hs
      · cases hri : retrieveInstance T t with
        | none => rw [hri] at h; cases h; exact hs
        | some m =>
          obtain ⟨hP, hm, _⟩ := retrieve_some hg.neat hex hri
          have hseen : seen T (pieces t) = some (entry m) := by rw [seen_pieces hg.neat hex, hri]; rfl
          have hty := htab (entry m) hseen
          rw [hri] at h
          simp only [registerTableRow] at h
          cases hi : instantiate T m i a with
          | none => rw [hi] at h; cases h
          | some x =>
            obtain ⟨T1, row⟩ := x
            rw [hi] at h
            cases h
            exact shape_add hg hs hm hty hi
  | unregister r =>
    simp only [Rows.step, Rows.unregisterRow] at h
    split at h
    · cases h; exact hs
    · cases h; exact shape_unlink hs
  | list t =>
    simp only [Rows.step, Rows.listRows] at h
    split at h
    · cases h; exact hs
    · split at h <;> cases h <;> exact hs

theorem usage_shape {D : List Decl} {h : List (Rows.Op × Rows.Out)} {T : Tree} (hp : Proper D) (hu : Usage D h T) :
    Shape [] T.root := by
  induction hu with
  | start ho _ => exact declare_shape ho hp
  | step hu hs he ih => exact shape_step (usage_good hu) ih hs he

end Verif.GatherProof
