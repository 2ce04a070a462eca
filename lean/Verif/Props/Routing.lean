import Verif.Proof.RoutingFree
import Verif.Proof.RoutingParse
import Verif.Proof.RoutingCheck

/-!
# C17, C18, C20, C58: registering topics with the router, and looking them up
-/

namespace Verif.Props

open Verif Verif.Routing Verif.Spec.Routing

/-- Bytes of a text, for the examples. -/
def topicText (s : String) : Bytes := s.toUTF8.toList

/-- Checks a lookup after some calls. -/
theorem routing_case {ops : List Verif.Routing.Op} {text : Bytes} {res : Res (List Nat)}
    (h : (match Verif.Routing.run Verif.Routing.init ops with
      | .ok r => decide (lookup r.1 text = res)
      | _ => false) = true) :
    ∃ s rcs, Verif.Routing.run Verif.Routing.init ops = .ok (s, rcs) ∧ lookup s text = res := by
  cases e : Verif.Routing.run Verif.Routing.init ops with
  | fail => rw [e] at h; cases h
  | ub => rw [e] at h; cases h
  | ok r => rw [e] at h; exact ⟨r.1, r.2, rfl, by simpa using h⟩

/-! ## C17 -/

/-- **C17**, as far as it holds: after every history of registering, forgetting owners and removing
names, in which braces are used for tables only, a lookup gives the owners whose registrations are in
force, in the order of registration, for every name with rows in the places of tables.
Missing: names that mix up rows and elements, see `C17_brace_query_fails` and
`C17_stale_table_fails`. -/
theorem C17_lookup_is_live_partial (ops : List Spec.Routing.Op) (hP : Conventional (names ops))
    (hr : NoRepeats ops) :
    ∃ s rcs, Verif.Routing.run Verif.Routing.init (ops.map call) = .ok (s, rcs) ∧
      ∀ q, Askable (names ops) q →
        lookup s (dotted q) = .ok (owners (live [] (ops.zip (rcs.map accepted))) q) := by
  obtain ⟨s, rcs, G, h1, -, h2, h3⟩ := run_conv hP ops [] (cinv_init (names ops)) (by simp [regs])
    (fun n hn => hn) (by simpa using hr)
  refine ⟨s, rcs, h1, fun q hq => ?_⟩
  rw [lookup_conv hP h2 hq, h3]
  rfl

/-- A table `A.{i}.b` of owner 1, elements `A.{i}.c` and `D` of owner 2; then owner 1 goes away and owner 3
takes over, and `D` is removed. -/
def routingHistory : List Spec.Routing.Op :=
  [.register [[65], rows, [98]] 1 true, .register [[65], rows, [99]] 2 true, .register [[68]] 2 true,
    .register [[68]] 1 true, .forget 1, .register [[65], rows, [98]] 3 true, .remove [[68]]]

theorem routingHistory_conventional : Conventional (names routingHistory) :=
  conventional_of_check (by decide +kernel) (by decide +kernel)

/-- Row 7 of the table may be asked for. -/
theorem routingHistory_askable : Askable (names routingHistory) [[65], [55], [98]] :=
  askable_of_check (by decide +kernel) (by decide +kernel) (by decide +kernel)

/-- The history above: `A.7.b` reaches owner 3, `D` nobody. -/
example : ∃ s rcs, Verif.Routing.run Verif.Routing.init (routingHistory.map call) = .ok (s, rcs) ∧
    ∀ q, Askable (names routingHistory) q →
      lookup s (dotted q) = .ok (owners (live [] (routingHistory.zip (rcs.map accepted))) q) :=
  C17_lookup_is_live_partial routingHistory routingHistory_conventional
    (noRepeats_of_check (by decide +kernel))

example : ∃ s rcs, Verif.Routing.run Verif.Routing.init (routingHistory.map call) = .ok (s, rcs) ∧
    lookup s (topicText "A.7.b") = .ok [3] := routing_case (by decide +kernel)

example : ∃ s rcs, Verif.Routing.run Verif.Routing.init (routingHistory.map call) = .ok (s, rcs) ∧
    lookup s (topicText "D") = .ok [] := routing_case (by decide +kernel)

/-- **C17**, as far as it holds: asking for everything below a name (a final '.') gives each owner of
something below it once, in histories that forget owners but do not remove names.
Missing: histories with removals, see `C18_removed_below_fails`. -/
theorem C17_below_partial (ops : List Spec.Routing.Op) (hP : Conventional (names ops))
    (hr : NoRepeats ops) (hno : ∀ n, Spec.Routing.Op.remove n ∉ ops) :
    ∃ s rcs, Verif.Routing.run Verif.Routing.init (ops.map call) = .ok (s, rcs) ∧
      ∀ q, Askable (names ops) q → ∃ l, lookup s (dotted q ++ [46]) = .ok l ∧ l.Nodup ∧
        ∀ w, w ∈ l ↔ OwnsBelow (live [] (ops.zip (rcs.map accepted))) q w := by
  obtain ⟨s, rcs, G, h1, -, h2, hb, h3⟩ := run_below hP ops hno [] (cinv_init (names ops)) below_init
    (by simp [regs]) (fun n hn => hn) (by simpa using hr)
  refine ⟨s, rcs, h1, fun q hq => ?_⟩
  obtain ⟨l, e1, e2, e3⟩ := lookup_below hP h2 hb hq
  refine ⟨l, e1, e2, fun w => ?_⟩
  rw [e3, h3]
  rfl

/-- The history above without the removal; owners 3 and 2 have something below `A`. -/
example : ∃ s rcs, Verif.Routing.run Verif.Routing.init ((routingHistory.take 6).map call) = .ok (s, rcs) ∧
    ∀ q, Askable (names (routingHistory.take 6)) q → ∃ l, lookup s (dotted q ++ [46]) = .ok l ∧ l.Nodup ∧
      ∀ w, w ∈ l ↔ OwnsBelow (live [] ((routingHistory.take 6).zip (rcs.map accepted))) q w :=
  C17_below_partial (routingHistory.take 6)
    (conventional_of_check (by decide +kernel) (by decide +kernel))
    (noRepeats_of_check (by decide +kernel)) (by
      intro n h
      simp [routingHistory] at h)

example : ∃ s rcs, Verif.Routing.run Verif.Routing.init ((routingHistory.take 6).map call) = .ok (s, rcs) ∧
    lookup s (topicText "A.") = .ok [2, 3] := routing_case (by decide +kernel)

/-- **C17** fails: a component starting with a brace matches whatever child comes first, so that a name
nobody registered reaches the owner of another one. -/
theorem C17_brace_query_fails :
    ∃ s rcs, Verif.Routing.run Verif.Routing.init [.add (topicText "A.b") 1 true] = .ok (s, rcs) ∧
      lookup s (topicText "A.{x}") = .ok [1] := by
  exact routing_case (by decide +kernel)

/-- **C17** fails: after the rows of a table are removed, the name stays marked as a table; when
something else is registered below it, looking up the name itself reaches the owner of that. -/
theorem C17_stale_table_fails :
    ∃ s rcs, Verif.Routing.run Verif.Routing.init
        [.add (topicText "A.{i}") 1 true, .removeTopic (topicText "A.{i}"),
          .add (topicText "A.b") 2 true] = .ok (s, rcs) ∧
      lookup s (topicText "A") = .ok [2] := by
  exact routing_case (by decide +kernel)

/-- **C17**, as far as it holds: removing a name takes away only registrations whose component at the
place of the last component of this name is the same; in particular, removing a row (`A.1`) takes away
nothing that is registered for all rows (`A.{i}`). This holds whatever the names are. -/
theorem C17_remove_exact_partial (ops : List Verif.Routing.Op) (s s' : State) (rcs : List Rc)
    (hrun : Verif.Routing.run Verif.Routing.init ops = .ok (s, rcs)) (hd : Disciplined [] ops)
    (e : Bytes) (h1 : e.count 46 < 32) (h2 : e.length < 512) (hr : removeTopic s e = .ok s')
    (u : Nat) (p : Path) (hp : p ∈ routeTopics s u)
    (hne : p[(tokens e).length - 1]? ≠ (tokens e).getLast?) : p ∈ routeTopics s' u := by
  obtain ⟨G, hG, -, -⟩ := run_any ops [] ginv_init (by simp) hd hrun
  exact removeTopic_keeps hG (tokenize_ok h1 h2) hr hp hne

example : (match Verif.Routing.run Verif.Routing.init [.add (topicText "A.{i}") 1 true] with
    | .ok r => (match removeTopic r.1 (topicText "A.1") with
      | .ok s' => decide (routeTopics s' 1 = [[topicText "A", topicText "{i}"]])
      | _ => false)
    | _ => false) = true := by decide +kernel

/-! ## C18 -/

/-- **C18** for the routing tree, as far as it holds: once an owner is removed, no lookup of any text
that fits the buffers gives it, whatever happened before and happens afterwards short of registering it
again, and whatever the names are. Lookups of everything below a name are included if no names were
removed.
Missing: owners given the advisory topic twice (`C18_advisory_twice_fails`), and lookups of everything
below a name after names were removed (`C18_removed_below_fails`). -/
theorem C18_forgotten_not_routed_partial (ops₁ ops₂ : List Verif.Routing.Op) (d : Nat) (s : State)
    (rcs : List Rc)
    (hrun : Verif.Routing.run Verif.Routing.init (ops₁ ++ .removeRoute d :: ops₂) = .ok (s, rcs))
    (hd : Disciplined [] (ops₁ ++ .removeRoute d :: ops₂))
    (hno : ∀ e x, Verif.Routing.Op.add e d x ∉ ops₂) (text : Bytes) (h1 : text.count 46 < 32)
    (h2 : text.length < 512)
    (hdot : text.getLast? ≠ some 46 ∨
      ∀ e, Verif.Routing.Op.removeTopic e ∉ ops₁ ++ .removeRoute d :: ops₂) :
    ∃ l, lookup s text = .ok l ∧ l.Nodup ∧ d ∉ l := by
  rw [run_append] at hrun
  cases e1 : Verif.Routing.run Verif.Routing.init ops₁ with
  | fail => rw [e1] at hrun; cases hrun
  | ub => rw [e1] at hrun; cases hrun
  | ok r1 =>
    rw [e1, Res.ok_bind, Verif.Routing.run] at hrun
    simp only [Verif.Routing.step, Res.ok_bind] at hrun
    cases e2 : Verif.Routing.run (removeRoute r1.1 d) ops₂ with
    | fail => rw [e2] at hrun; cases hrun
    | ub => rw [e2] at hrun; cases hrun
    | ok r2 =>
      rw [e2] at hrun
      cases hrun
      obtain ⟨s1, rcs1⟩ := r1
      obtain ⟨s2, rcs2⟩ := r2
      obtain ⟨G1, g1, b1, o1⟩ := run_any ops₁ [] ginv_init (by simp) (by
        intro a e d' x b hab
        exact hd a e d' x (b ++ .removeRoute d :: ops₂) (by
          rw [List.nil_append] at hab ⊢
          rw [hab]; simp)) e1
      have g2 := removeRoute_spec g1 d
      obtain ⟨G3, g3, b3, o3⟩ := run_any ops₂ (ops₁ ++ [.removeRoute d]) g2 (by
        intro g hg
        rcases o1 g (List.mem_filter.mp hg).1 with ⟨g0, hg0, -⟩ | ⟨e, x, hm⟩
        · cases hg0
        · exact ⟨e, x, by simp [hm]⟩) (by
        intro a e d' x b hab
        exact hd a e d' x b (by rw [← hab]; simp)) e2
      have hb : text.getLast? ≠ some dot ∨ Below s2 G3 := by
        rcases hdot with h | h
        · exact Or.inl h
        · refine Or.inr (b3 (fun e he => h e (by simp [he])) ?_)
          exact below_removeRoute g1 (b1 (fun e he => h e (by simp [he])) below_init) d
      obtain ⟨l, l1, l2, l3⟩ := lookup_safe g3 (tokenize_ok h1 h2) hb
      refine ⟨l, l1, l2, fun hm => ?_⟩
      obtain ⟨g, hg, e⟩ := l3 d hm
      rcases o3 g hg with ⟨g0, hg0, e0⟩ | ⟨ex, x, hm⟩
      · have := (List.mem_filter.mp hg0).2
        simp only [decide_eq_true_eq] at this
        omega
      · rw [e] at hm
        exact hno ex x hm

/-- Owner 1 registers twice, goes away, and owner 2 registers one of the names: owner 1 is not reached. -/
example (s : State) (rcs : List Rc)
    (h : Verif.Routing.run Verif.Routing.init
      ([.add (topicText "A.b") 1 false, .add (topicText "A.c") 1 true] ++
        .removeRoute 1 :: [.add (topicText "A.b") 2 false]) = .ok (s, rcs)) :
    ∃ l, lookup s (topicText "A.b") = .ok l ∧ l.Nodup ∧ 1 ∉ l := by
  refine C18_forgotten_not_routed_partial _ _ 1 s rcs h ?_ (by simp) _ (by decide +kernel)
    (by decide +kernel) (Or.inl (by decide +kernel))
  intro a e d x b hab hx e' x' hm
  rw [List.nil_append] at hab
  match a with
  | [] => cases hm
  | [o] =>
    have h2 := congrArg (fun l => l[1]?) hab
    simp at h2
    obtain ⟨rfl, -, rfl⟩ := h2
    rcases hx with hx | hx
    · cases hx
    · revert hx; decide +kernel
  | [o, o'] =>
    have h2 := congrArg (fun l => l[2]?) hab
    simp at h2
  | o :: o' :: o'' :: a =>
    simp only [List.cons_append, List.nil_append, List.cons.injEq] at hab
    obtain ⟨rfl, rfl, rfl, hab⟩ := hab
    cases a with
    | nil =>
      simp at hab
      obtain ⟨⟨-, rfl, -⟩, -⟩ := hab
      simp at hm
    | cons o3 a =>
      simp at hab

/-- **C18** fails: an owner that is given the advisory topic twice stays there once it is removed, and
the next lookup reads freed memory. -/
theorem C18_advisory_twice_fails :
    ∃ s rcs, Verif.Routing.run Verif.Routing.init
        [.add (topicText "A.b") 1 false, .add advisory 1 true, .add advisory 1 true,
          .removeRoute 1] = .ok (s, rcs) ∧
      lookup s advisory = .ub := by
  exact routing_case (by decide +kernel)

/-- **C18** fails: removing a name leaves its owner in the lists kept for the names above it. If that
was the owner's last name, asking for everything below such a name reads freed memory. -/
theorem C18_removed_below_fails :
    ∃ s rcs, Verif.Routing.run Verif.Routing.init
        [.add (topicText "A.b.c") 1 true, .removeTopic (topicText "A.b.c")] = .ok (s, rcs) ∧
      lookup s (topicText "A.") = .ub := by
  exact routing_case (by decide +kernel)

/-! ## C20 -/

/-- **C20.** While a name is registered, an exclusive registration of it is refused as a duplicate, and
changes no lookup. -/
theorem C20_taken_name_refused (ops : List Spec.Routing.Op) (n : Name) (w : Nat)
    (hP : Conventional (names (ops ++ [.register n w true]))) (hr : NoRepeats ops)
    (hn : n ≠ advisoryName) (s : State) (rcs : List Rc)
    (hrun : Verif.Routing.run Verif.Routing.init (ops.map call) = .ok (s, rcs)) (w' : Nat)
    (htaken : (n, w') ∈ live [] (ops.zip (rcs.map accepted))) :
    ∃ s', Verif.Routing.step s (call (.register n w true)) = .ok (s', .duplicate) ∧
      ∀ q, Askable (names (ops ++ [.register n w true])) q →
        lookup s' (dotted q) = lookup s (dotted q) := by
  have hsub : ∀ m ∈ names ops, m ∈ names (ops ++ [.register n w true]) := by
    intro m hm
    rw [names_append]
    exact List.mem_append_left _ hm
  have hmem : n ∈ names (ops ++ [.register n w true]) := by
    rw [names_append]
    simp [names]
  obtain ⟨s1, rcs1, G, h1, -, h2, h3⟩ := run_conv hP ops []
    (cinv_init (names (ops ++ [.register n w true]))) (by simp [regs]) hsub (by simpa using hr)
  rw [hrun] at h1
  cases h1
  have h3' : regs G = live [] (ops.zip (rcs.map accepted)) := h3
  obtain ⟨s', rc, e, h'⟩ := step_register hP h2 hmem w true (by simp [hn])
  rw [← h3'] at htaken
  obtain ⟨g, hg, e'⟩ := List.mem_map.mp htaken
  rcases h' with ⟨rfl, h'⟩ | ⟨rfl, hex, -⟩
  · exact ⟨s', e, fun q hq => by rw [lookup_conv hP h' hq, lookup_conv hP h2 hq]⟩
  · exact absurd (congrArg Prod.fst e') (hex rfl hn g hg)

/-- `D` belongs to owner 2 when owner 1 asks for it. -/
example (s : State) (rcs : List Rc)
    (h : Verif.Routing.run Verif.Routing.init ((routingHistory.take 3).map call) = .ok (s, rcs))
    (h' : rcs = [.ok, .ok, .ok]) :
    ∃ s', Verif.Routing.step s (call (.register [[68]] 1 true)) = .ok (s', .duplicate) ∧
      ∀ q, Askable (names (routingHistory.take 3 ++ [.register [[68]] 1 true])) q →
        lookup s' (dotted q) = lookup s (dotted q) := by
  subst h'
  exact C20_taken_name_refused (routingHistory.take 3) [[68]] 1
    (conventional_of_check (by decide +kernel) (by decide +kernel))
    (noRepeats_of_check (by decide +kernel)) (by decide +kernel) s _ h 2 (by decide +kernel)

/-- **C20.** A name that nobody registered since it (or a name above it) was removed, or ever, can be
registered. -/
theorem C20_removed_name_free (pre mid : List Spec.Routing.Op) (n : Name) (w : Nat) (x : Bool)
    (hP : Conventional (names (pre ++ mid ++ [.register n w x]))) (hr : NoRepeats (pre ++ mid ++ [.register n w x]))
    (hpre : pre = [] ∨ ∃ pre' m, pre = pre' ++ [.remove m] ∧ m <+: n)
    (hmid : ∀ w' x', Spec.Routing.Op.register n w' x' ∉ mid) (s : State) (rcs : List Rc)
    (hrun : Verif.Routing.run Verif.Routing.init ((pre ++ mid).map call) = .ok (s, rcs)) :
    ∃ s', Verif.Routing.step s (call (.register n w x)) = .ok (s', .ok) := by
  have hmem : n ∈ names (pre ++ mid ++ [.register n w x]) := by
    rw [names_append]
    simp [names]
  have hsub1 : ∀ m ∈ names pre, m ∈ names (pre ++ mid ++ [.register n w x]) := by
    intro m hm
    rw [names_append, names_append]
    simp [hm]
  have hsub2 : ∀ m ∈ names mid, m ∈ names (pre ++ mid ++ [.register n w x]) := by
    intro m hm
    rw [names_append, names_append]
    simp [hm]
  obtain ⟨s1, rcs1, G1, h1, -, h2, h3⟩ := run_conv hP pre []
    (cinv_init (names (pre ++ mid ++ [.register n w x]))) (by simp [regs]) hsub1
    (by simpa using noRepeats_left (noRepeats_left hr))
  have hreg1 : ∀ y ∈ regs G1, ∃ z, Spec.Routing.Op.register y.1 y.2 z ∈ pre := by
    intro y hy
    rw [h3] at hy
    rcases live_subset hy with hy | hy
    · simp [regs] at hy
    · exact hy
  have hclear1 : Clear s1 n := by
    rcases hpre with rfl | ⟨pre', m, rfl, hmn⟩
    · cases h1
      exact clear_init n (hP.1 n hmem).1.1
    · obtain ⟨s0, rcs0, G0, f1, -, f2, -⟩ := run_conv hP pre' []
        (cinv_init (names (pre' ++ [.remove m] ++ mid ++ [.register n w x]))) (by simp [regs])
        (fun a ha => hsub1 a (by rw [names_append]; simp [ha]))
        (by simpa using noRepeats_left (noRepeats_left (noRepeats_left hr)))
      have hm : m ∈ names (pre' ++ [.remove m] ++ mid ++ [.register n w x]) :=
        hsub1 m (by rw [names_append]; simp [names])
      obtain ⟨s0', f3, -⟩ := step_remove hP f2 hm
      have := clear_removed hP f2 hm hmn f3
      rw [List.map_append, run_append, f1, Res.ok_bind] at h1
      simp only [List.map_cons, List.map_nil, Verif.Routing.run, call, Verif.Routing.step, f3,
        Res.ok_bind, Res.pure_eq, Res.ok.injEq, Prod.mk.injEq] at h1
      rw [← h1.1]
      exact this
  rw [List.map_append, run_append, h1, Res.ok_bind] at hrun
  obtain ⟨s2, rcs2, G2, f1, -, f2, f3⟩ := run_conv hP mid pre h2 hreg1 hsub2 (noRepeats_left hr)
  have hclear2 := run_clear hP mid hmid pre h2 hclear1 hreg1 hsub2 (noRepeats_left hr) f1
  rw [f1] at hrun
  simp only [Res.ok_bind, Res.pure_eq, Res.ok.injEq, Prod.mk.injEq] at hrun
  obtain ⟨rfl, -⟩ := hrun
  refine accept_last hP f2 hmem hclear2 hr ?_
  intro y hy
  rw [f3] at hy
  rcases live_subset hy with hy | ⟨z, hz⟩
  · obtain ⟨z, hz⟩ := hreg1 y hy
    exact ⟨z, List.mem_append_left _ hz⟩
  · exact ⟨z, List.mem_append_right _ hz⟩

/-- After `D` was removed, owner 1 can have it. -/
example (s : State) (rcs : List Rc)
    (h : Verif.Routing.run Verif.Routing.init ((routingHistory ++ []).map call) = .ok (s, rcs)) :
    ∃ s', Verif.Routing.step s (call (.register [[68]] 1 true)) = .ok (s', .ok) :=
  C20_removed_name_free routingHistory [] [[68]] 1 true
    (conventional_of_check (by decide +kernel) (by decide +kernel))
    (noRepeats_of_check (by decide +kernel))
    (Or.inr ⟨routingHistory.take 6, [[68]], by decide +kernel, List.prefix_refl _⟩) (by simp) s rcs h

/-- **C20**, as far as it holds for owners that go away: in histories that do not remove names, a name
that nobody has registered, nor anything below it, can be registered.
Missing: names below which something is registered, see `C20_emptied_name_fails`. -/
theorem C20_free_name_accepted_partial (ops : List Spec.Routing.Op) (n : Name) (w : Nat) (x : Bool)
    (hP : Conventional (names (ops ++ [.register n w x]))) (hr : NoRepeats (ops ++ [.register n w x]))
    (hno : ∀ m, Spec.Routing.Op.remove m ∉ ops) (s : State) (rcs : List Rc)
    (hrun : Verif.Routing.run Verif.Routing.init (ops.map call) = .ok (s, rcs))
    (hfree : ∀ r ∈ live [] (ops.zip (rcs.map accepted)), ¬ n <+: r.1) :
    ∃ s', Verif.Routing.step s (call (.register n w x)) = .ok (s', .ok) := by
  have hmem : n ∈ names (ops ++ [.register n w x]) := by
    rw [names_append]
    simp [names]
  obtain ⟨G, h2, hu, h3⟩ := run_used hP ops hno [] (cinv_init (names (ops ++ [.register n w x])))
    used_init (by simp [regs])
    (fun m hm => by rw [names_append]; exact List.mem_append_left _ hm)
    (by simpa using noRepeats_left hr) hrun
  have h3' : regs G = live [] (ops.zip (rcs.map accepted)) := h3
  refine accept_last hP h2 hmem (used_clear hu (hP.1 n hmem).1.1 (by rw [h3']; exact hfree)) hr ?_
  intro y hy
  rw [h3'] at hy
  rcases live_subset hy with hy | hy
  · cases hy
  · exact hy

/-- After owner 1 went away, its `A.{i}.b` is free. -/
example (s : State) (rcs : List Rc)
    (h : Verif.Routing.run Verif.Routing.init ((routingHistory.take 5).map call) = .ok (s, rcs))
    (h' : rcs = [.ok, .ok, .ok, .duplicate, .ok]) :
    ∃ s', Verif.Routing.step s (call (.register [[65], rows, [98]] 3 true)) = .ok (s', .ok) := by
  subst h'
  exact C20_free_name_accepted_partial (routingHistory.take 5) _ 3 true
    (conventional_of_check (by decide +kernel) (by decide +kernel))
    (noRepeats_of_check (by decide +kernel)) (by intro m h; simp [routingHistory] at h) s _ h
    (by decide +kernel)

/-- **C20** fails: when the owner of a name goes away while somebody else has registered something
below it, nobody can register the name any more, although nobody has. -/
theorem C20_emptied_name_fails :
    ∃ s rcs, Verif.Routing.run Verif.Routing.init
        [.add (topicText "A.b") 1 true, .add (topicText "A.b.c") 2 true, .removeRoute 1,
          .add (topicText "A.b") 3 true] = .ok (s, rcs) ∧
      rcs = [.ok, .ok, .ok, .duplicate] ∧ lookup s (topicText "A.b") = .ok [] := by
  have h : (match Verif.Routing.run Verif.Routing.init
      [.add (topicText "A.b") 1 true, .add (topicText "A.b.c") 2 true, .removeRoute 1,
        .add (topicText "A.b") 3 true] with
    | .ok r => decide (r.2 = [.ok, .ok, .ok, .duplicate] ∧ lookup r.1 (topicText "A.b") = .ok [])
    | _ => false) = true := by decide +kernel
  revert h
  cases e : Verif.Routing.run Verif.Routing.init
      [.add (topicText "A.b") 1 true, .add (topicText "A.b.c") 2 true, .removeRoute 1,
        .add (topicText "A.b") 3 true] with
  | fail => intro h; cases h
  | ub => intro h; cases h
  | ok r =>
    intro h
    have h' := of_decide_eq_true h
    exact ⟨r.1, r.2, rfl, h'⟩

/-! ## C58 -/

/-- **C58**, as far as it holds: a name with at most 32 components and fewer than 512 bytes is handled
within the buffers, in every state.
Missing: longer names, which clients can send. -/
theorem C58_short_names_parse_partial (text : Bytes) (h1 : text.count 46 < 32) (h2 : text.length < 512)
    (s : State) :
    (∃ l, getTopicRoutes s text = .ok l) ∧ ∀ d x, ∃ r, addTopicRoute s text d x = .ok r := by
  constructor
  · unfold getTopicRoutes
    rw [tokenize_ok h1 h2, Res.ok_bind]
    split
    · exact ⟨_, rfl⟩
    · split <;> exact ⟨_, rfl⟩
  · intro d x
    unfold addTopicRoute
    rw [tokenize_ok h1 h2, Res.ok_bind]
    split
    · exact ⟨_, rfl⟩
    · split
      · exact ⟨_, rfl⟩
      · dsimp only
        split <;> exact ⟨_, rfl⟩

example : (topicText "Device.WiFi.Radio.1.Enable").count 46 < 32 := by decide +kernel

/-- **C58** fails: looking up any name of more than 32 components writes outside the array of
components, whatever is registered. -/
theorem C58_long_name_fails (s : State) (text : Bytes) (h : 32 < (tokens text).length) :
    lookup s text = .ub := by
  unfold lookup getTopicRoutes
  rw [tokenize_ub h]
  rfl

/-- A topic of 65 bytes, well within the 255 a message header can carry. -/
example : (dotted (List.replicate 33 [97])).length = 65 ∧
    32 < (tokens (dotted (List.replicate 33 [97]))).length := by decide +kernel

/-- **C58** fails: the check made when registering lets through names of 33 components. -/
theorem C58_validated_name_fails :
    ∃ text : Bytes, text.length = 65 ∧ validate text = true ∧
      ∀ s d x, addTopicRoute s text d x = .ub := by
  refine ⟨dotted (List.replicate 33 [97]), by decide +kernel, by decide +kernel, ?_⟩
  intro s d x
  unfold addTopicRoute
  rw [if_neg (by decide +kernel), tokenize_ub (by decide +kernel)]
  rfl

end Verif.Props
