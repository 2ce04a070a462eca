import Verif.Proof.Register
import Verif.Props.Router

/-!
# Registering a data model

The provider registers some elements while the router handles nothing else; before, there was any regular history of clients.
-/

namespace Verif.Props

open Verif Verif.Spec.Routing Verif.Spec.Router Verif.Spec.Register
open Verif.Router (Act Message Delivery event Regular tableRun table0 allNames Addressed passed boot)
open Verif.Register (Elem Provider Fate World register unregister)

/-! ## Concrete data -/

/-- Client 1 is the provider `comp` with its inbox, client 2 has `T.b.c` and `U`, client 3 sends messages. -/
private def gActs : List Act :=
  [.connect 1, .connect 2, .connect 3,
   .subscribe 1 [topicText "c1", topicText "INBOX"] 1 ⟨[], 0, false⟩,
   .subscribe 1 [topicText "comp"] 2 ⟨[], 0, false⟩,
   .subscribe 2 [topicText "other"] 1 ⟨[], 0, false⟩,
   .subscribe 2 [topicText "T", topicText "b", topicText "c"] 1 ⟨topicText "c1.INBOX", 0, false⟩,
   .subscribe 2 [topicText "U"] 1 ⟨topicText "c1.INBOX", 1, false⟩]

private def gP : Provider :=
  { client := 1, component := topicText "comp", listeners := [(topicText "c1.INBOX", 1), (topicText "comp", 2)],
    inbox := topicText "c1.INBOX", seq := 5, tree := Element.Tree.init }

/-- A property and a table with a column. -/
private def gModel : List (Elem × Name) :=
  [(⟨topicText "A.x", Element.tProperty, {}⟩, [topicText "A", topicText "x"]),
   (⟨topicText "A.t.{i}.", Element.tTable, {}⟩, [topicText "A", topicText "t", rows]),
   (⟨topicText "A.t.{i}.y", Element.tProperty, {}⟩, [topicText "A", topicText "t", rows, topicText "y"])]

/-- The last one is taken by client 2. -/
private def gTaken : List (Elem × Name) := gModel ++ [(⟨topicText "U", Element.tProperty, {}⟩, [topicText "U"])]

private def gTable : Table := tableRun table0 (gActs.zip (List.replicate 8 true))

private def gState : Res Router.State := do
  let s ← boot
  let r ← Router.run s (gActs.map event)
  pure r.1

private theorem gReg : Registrable gActs gP 2 gModel :=
  ⟨by decide, acts_regular _ (by decide +kernel) (by decide +kernel) (by decide +kernel) (by decide +kernel) (by decide +kernel),
    by
      intro x hx
      unfold Named Written
      revert x
      decide +kernel⟩

private theorem gRegTaken : Registrable gActs gP 2 gTaken :=
  ⟨by decide, acts_regular _ (by decide +kernel) (by decide +kernel) (by decide +kernel) (by decide +kernel) (by decide +kernel),
    by
      intro x hx
      unfold Named Written
      revert x
      decide +kernel⟩

private theorem gKnown : Known (used gActs gP 2 gModel) gTable gP 2 2 :=
  ⟨by decide +kernel, by decide +kernel, ⟨[topicText "comp"], by decide +kernel⟩,
    ⟨[topicText "c1", topicText "INBOX"], 1,
      ⟨Verif.Routing.askable_of_check (by decide +kernel) (by decide +kernel) (by decide +kernel), by decide +kernel, by decide +kernel⟩,
      by decide +kernel⟩⟩

/-! ## All -/

/-- After a registration that succeeds, the router has exactly what it had before and all elements, each as a further name of the
provider's route, and the provider has put all of them into its tree. None of them was registered before. -/
theorem C85_registered {as : List Act} {p : Provider} {id : Int} {xs : List (Elem × Name)} (h : Registrable as p id xs) :
    ∃ s T, After as (used as p id xs) s T ∧ ∀ fates u, (∀ f ∈ fates, f ≠ Fate.unanswered) → Known (used as p id xs) T p id u →
      ∀ w', register ⟨s, p, fates⟩ (xs.map (·.1)) = .ok (w', 0) →
        (∀ x ∈ xs, ∀ y ∈ T.regs, y.1 ≠ x.2) ∧ (xs.map (·.2)).Nodup ∧
        Keeps (used as p id xs) w'.router (withNames T (xs.map (·.2)) u) ∧
        w'.provider.tree = insertAll p.tree (xs.map (·.1)) := by
  obtain ⟨s, T, haf, hout⟩ := RegisterProof.outcome h
  have hP := (RegisterProof.start h).1
  refine ⟨s, T, haf, fun fates u hf hk w' hw => ?_⟩
  obtain ⟨w, code, k, h1, h2, ⟨i, h3⟩, h4, h5, -, h7⟩ := hout fates u hf hk
  rcases h7 with ⟨rfl, rfl, e, pre, G, hcr⟩ | ⟨rfl, hlt, hfor⟩
  · rw [e] at hw
    cases hw
    rw [List.take_length] at h3 h4 h5
    exact ⟨h4, h5, ⟨hcr.forwards hP.conv, hcr.returns hP.conv⟩, by rw [h3]⟩
  · exfalso
    have hxs : xs.map (·.1) ≠ [] := fun e => h.filled (List.map_eq_nil_iff.mp e)
    rw [register, if_neg hxs, h1, Res.ok_bind] at hw
    dsimp only at hw
    split at hw
    · obtain ⟨r, -, e⟩ := Verif.Router.res_bind hw
      cases e
    · cases hw

/-- A message to an element so registered, or to a row or element in a row of a table, goes to the provider and to nobody else,
unchanged but for the id of the route. -/
theorem C85_delivered {as : List Act} {p : Provider} {id : Int} {xs : List (Elem × Name)} (h : Registrable as p id xs) :
    ∃ s T, After as (used as p id xs) s T ∧ ∀ fates u, (∀ f ∈ fates, f ≠ Fate.unanswered) → Known (used as p id xs) T p id u →
      ∀ w', register ⟨s, p, fates⟩ (xs.map (·.1)) = .ok (w', 0) →
        ∀ c m x q, x ∈ xs → Addressed (used as p id xs) m.hdr.topic q → covers x.2 q = true →
          Verif.Router.step w'.router (.message c m) = .ok (w'.router, [passed m (p.client, id)]) := by
  obtain ⟨s, T, haf, hout⟩ := RegisterProof.outcome h
  have hP := (RegisterProof.start h).1
  refine ⟨s, T, haf, fun fates u hf hk w' hw c m x q hx hq hc => ?_⟩
  obtain ⟨w, code, k, h1, h2, ⟨i, h3⟩, h4, h5, -, h7⟩ := hout fates u hf hk
  rcases h7 with ⟨rfl, rfl, e, pre, G, hcr⟩ | ⟨rfl, hlt, hfor⟩
  · rw [e] at hw
    cases hw
    rw [List.take_length] at h4 h5
    obtain ⟨mn, hr⟩ := hk.route
    have hrec := RegisterProof.receivers_new hP.conv hcr (n := x.2) (q := q)
      (fun n hn => by obtain ⟨y, hy, rfl⟩ := List.mem_map.mp hn; exact h4 y hy) h5 (List.mem_map_of_mem hx) hq hc
      (List.mem_of_find?_eq_some hr) rfl
    have := hcr.forwards hP.conv c m q hq (.inl (by rw [hrec]; simp))
    rw [this, hrec]
    rfl
  · exfalso
    have hxs : xs.map (·.1) ≠ [] := fun e => h.filled (List.map_eq_nil_iff.mp e)
    rw [register, if_neg hxs, h1, Res.ok_bind] at hw
    dsimp only at hw
    split at hw
    · obtain ⟨r, -, e⟩ := Verif.Router.res_bind hw
      cases e
    · cases hw

/-- Names that nobody has used and that differ from one another are registered, if no request is lost. -/
theorem C85_accepted {as : List Act} {p : Provider} {id : Int} {xs : List (Elem × Name)} (h : Registrable as p id xs)
    (hnew : ∀ x ∈ xs, x.2 ∉ allNames as) (hnd : (xs.map (·.2)).Nodup) :
    ∃ s T, After as (used as p id xs) s T ∧ ∀ fates u, (∀ f ∈ fates, f = Fate.answered) → Known (used as p id xs) T p id u →
      ∃ w', register ⟨s, p, fates⟩ (xs.map (·.1)) = .ok (w', 0) := by
  obtain ⟨s, T, haf, hout⟩ := RegisterProof.outcome h
  refine ⟨s, T, haf, fun fates u hf hk => ?_⟩
  obtain ⟨w, code, k, -, -, -, -, -, h6, h7⟩ := hout fates u (fun f hm => by rw [hf f hm]; decide) hk
  have hc := h6 hnew hnd (fun hm => by have := hf _ hm; cases this)
  rcases h7 with ⟨-, -, e, -⟩ | ⟨h8, -⟩
  · exact ⟨w, e⟩
  · omega

example : Registrable gActs gP 2 gModel ∧ (∀ x ∈ gModel, x.2 ∉ allNames gActs) ∧ (gModel.map (·.2)).Nodup ∧
    Known (used gActs gP 2 gModel) gTable gP 2 2 :=
  ⟨gReg, by decide +kernel, by decide +kernel, gKnown⟩

/-- A message to a row of the table is covered. -/
example : Addressed (used gActs gP 2 gModel) (topicText "A.t.7.y") [topicText "A", topicText "t", topicText "7", topicText "y"] ∧
    covers [topicText "A", topicText "t", rows, topicText "y"] [topicText "A", topicText "t", topicText "7", topicText "y"] = true :=
  ⟨⟨Verif.Routing.askable_of_check (by decide +kernel) (by decide +kernel) (by decide +kernel), by decide +kernel, by decide +kernel⟩,
    by decide +kernel⟩

/-! ## Or nothing -/

/-- A registration that does not succeed gives the code for a name that is taken, and unregisters the elements registered before
the one that failed: the router loses exactly these names and everything below them. -/
theorem C85_refused {as : List Act} {p : Provider} {id : Int} {xs : List (Elem × Name)} (h : Registrable as p id xs) :
    ∃ s T, After as (used as p id xs) s T ∧ ∀ fates u, (∀ f ∈ fates, f ≠ Fate.unanswered) → Known (used as p id xs) T p id u →
      Foreign T p xs → ∃ w' code, register ⟨s, p, fates⟩ (xs.map (·.1)) = .ok (w', code) ∧
        (code = 0 ∨ (code = 14 ∧ ∃ k, k < xs.length ∧
          Keeps (used as p id xs) w'.router (without T ((xs.take k).map (·.2))))) := by
  obtain ⟨s, T, haf, hout⟩ := RegisterProof.outcome h
  have hP := (RegisterProof.start h).1
  refine ⟨s, T, haf, fun fates u hf hk hfor => ?_⟩
  obtain ⟨w, code, k, -, -, -, -, -, -, h7⟩ := hout fates u hf hk
  rcases h7 with ⟨-, -, e, -⟩ | ⟨-, h8, h9⟩
  · exact ⟨w, 0, e, .inl rfl⟩
  · obtain ⟨w', pre, G, e, -, hcr⟩ := h9 hfor
    exact ⟨w', 14, e, .inr ⟨rfl, k, h8, hcr.forwards hP.conv, hcr.returns hP.conv⟩⟩

/-- If nothing is registered at or below the names, all or nothing is registered: when the code is not success, the router sends
messages exactly as before. Missing: data models above names registered already (`C85_rollback_takes_others_fails`), lost answers
(`C85_lost_answer_fails`), and the provider's own tree (`C85_tree_kept_fails`). -/
theorem C85_all_or_nothing_partial {as : List Act} {p : Provider} {id : Int} {xs : List (Elem × Name)} (h : Registrable as p id xs) :
    ∃ s T, After as (used as p id xs) s T ∧ ∀ fates u, (∀ f ∈ fates, f ≠ Fate.unanswered) → Known (used as p id xs) T p id u →
      Foreign T p xs → (∀ x ∈ xs, ∀ y ∈ T.regs, x.2 <+: y.1 → y.1 = x.2) →
      ∃ w' code, register ⟨s, p, fates⟩ (xs.map (·.1)) = .ok (w', code) ∧
        ((code = 0 ∧ Keeps (used as p id xs) w'.router (withNames T (xs.map (·.2)) u)) ∨
          (code = 14 ∧ Keeps (used as p id xs) w'.router T)) := by
  obtain ⟨s, T, haf, hout⟩ := RegisterProof.outcome h
  have hP := (RegisterProof.start h).1
  refine ⟨s, T, haf, fun fates u hf hk hfor hbelow => ?_⟩
  obtain ⟨w, code, k, -, -, -, h4, -, -, h7⟩ := hout fates u hf hk
  rcases h7 with ⟨-, -, e, pre, G, hcr⟩ | ⟨-, h8, h9⟩
  · exact ⟨w, 0, e, .inl ⟨rfl, hcr.forwards hP.conv, hcr.returns hP.conv⟩⟩
  · obtain ⟨w', pre, G, e, -, hcr⟩ := h9 hfor
    have : without T ((xs.take k).map (·.2)) = T := by
      rw [without, List.filter_eq_self.mpr]
      intro y hy
      simp only [decide_eq_true_eq]
      intro n hn hpre
      obtain ⟨x, hx, rfl⟩ := List.mem_map.mp hn
      exact h4 x hx y hy (hbelow x (List.mem_of_mem_take hx) y hy hpre)
    rw [this] at hcr
    exact ⟨w', 14, e, .inr ⟨rfl, hcr.forwards hP.conv, hcr.returns hP.conv⟩⟩

/-- A data model with a name that is taken, or that occurs twice, is refused. -/
theorem C85_taken {as : List Act} {p : Provider} {id : Int} {xs : List (Elem × Name)} (h : Registrable as p id xs) :
    ∃ s T, After as (used as p id xs) s T ∧ ∀ fates u, (∀ f ∈ fates, f ≠ Fate.unanswered) → Known (used as p id xs) T p id u →
      ((∃ x ∈ xs, ∃ y ∈ T.regs, y.1 = x.2) ∨ ¬ (xs.map (·.2)).Nodup) →
      ∀ w' code, register ⟨s, p, fates⟩ (xs.map (·.1)) = .ok (w', code) → code ≠ 0 := by
  obtain ⟨s, T, haf, hreg⟩ := C85_registered h
  refine ⟨s, T, haf, fun fates u hf hk hbad w' code hw => ?_⟩
  rintro rfl
  obtain ⟨h1, h2, -⟩ := hreg fates u hf hk w' hw
  rcases hbad with ⟨x, hx, y, hy, e⟩ | hnd
  · exact h1 x hx y hy e
  · exact hnd h2

example : Registrable gActs gP 2 gTaken ∧ Foreign gTable gP gTaken ∧
    (∀ x ∈ gTaken, ∀ y ∈ gTable.regs, x.2 <+: y.1 → y.1 = x.2) ∧ ∃ x ∈ gTaken, ∃ y ∈ gTable.regs, y.1 = x.2 :=
  ⟨gRegTaken, by unfold Foreign; decide +kernel, by decide +kernel, by decide +kernel⟩

/-! ## Unregistering -/

/-- Unregistering elements always succeeds, and the router loses exactly their names and everything below them. -/
theorem C85_unregistered {as : List Act} {p : Provider} {id : Int} {xs : List (Elem × Name)} (h : Registrable as p id xs) :
    ∃ s T, After as (used as p id xs) s T ∧ ∀ fates u, Known (used as p id xs) T p id u → Foreign T p xs →
      ∃ w', unregister ⟨s, p, fates⟩ (xs.map (·.1.name)) = .ok (w', 0) ∧
        Keeps (used as p id xs) w'.router (without T (xs.map (·.2))) := by
  obtain ⟨hP, hon, hgood, s, T, G, haf, hcr, -⟩ := RegisterProof.start h
  refine ⟨s, T, haf, fun fates u hk hfor => ?_⟩
  obtain ⟨q, j, hq, -⟩ := hk.inbox
  obtain ⟨w', pre, G', e, -, -, hcr'⟩ := RegisterProof.unreg_loop hP (id := id) (xs.map (fun x => (x.1.name, x.2)))
    (w := ⟨s, p, fates⟩) hcr hon ⟨q, hq⟩ hk.name hk.listener
    (fun x hx => by obtain ⟨y, hy, rfl⟩ := List.mem_map.mp hx; exact hgood y hy)
    (fun x hx => by obtain ⟨y, hy, rfl⟩ := List.mem_map.mp hx; exact hfor y hy)
  rw [List.map_map] at e hcr'
  have hne : xs.map (fun x => x.1.name) ≠ [] := fun e => h.filled (List.map_eq_nil_iff.mp e)
  refine ⟨w', ?_, hcr'.forwards hP.conv, hcr'.returns hP.conv⟩
  rw [unregister, if_neg hne]
  rw [show (Prod.fst ∘ fun x : Elem × Name => (x.1.name, x.2)) = fun x => x.1.name from rfl] at e
  rw [e]
  rfl

example : Registrable gActs gP 2 gModel ∧ Foreign gTable gP gModel ∧ Known (used gActs gP 2 gModel) gTable gP 2 2 :=
  ⟨gReg, by unfold Foreign; decide +kernel, gKnown⟩

/-! ## Where it is more or less than that -/

/-- Data models registered one after the other, each with the fates of its requests: the codes, who gets a message of client 3 to
the topic before and after, and whether the provider has the element. -/
private def gTry (models : List (List Fate × List (String × Nat))) (topic : String) : Option (List Nat × List Nat × List Nat × Bool) :=
  let run : Res (List Nat × List Nat × List Nat × Bool) := do
    let s ← gState
    let m := plain (topicText topic) []
    let d ← Verif.Router.step s (.message 3 m)
    let (w, codes) ← models.foldlM (fun (x : World × List Nat) y => do
      let r ← register { x.1 with fates := y.1 } (y.2.map (fun e => ⟨topicText e.1, e.2, {}⟩))
      pure (r.1, x.2 ++ [r.2])) ((⟨s, gP, []⟩ : World), [])
    let d' ← Verif.Router.step w.router (.message 3 m)
    pure (codes, d.2.map (·.client), d'.2.map (·.client), (Element.retrieve w.provider.tree (topicText topic)).isSome)
  match run with
  | .ok r => some r
  | _ => none

/-- The data model of the examples: refused with `U`, and the messages to its elements go nowhere; accepted without it. -/
example : gTry [([], [("A.x", 1), ("A.t.{i}.", 2), ("A.t.{i}.y", 1), ("U", 1)])] "A.t.7.y" = some ([14], [], [], true) ∧
    gTry [([], [("A.x", 1), ("A.t.{i}.", 2), ("A.t.{i}.y", 1)])] "A.t.7.y" = some ([0], [], [1], true) := by
  decide +kernel

/-- A registration that fails can take elements from another component. Client 2 has `T.b.c`. The provider registers `T.b` and
`U`, is refused, as `U` is taken, and rbus unregisters `T.b`; the router removes everything below, and messages to `T.b.c` no longer
reach client 2, which is told nothing. -/
theorem C85_rollback_takes_others_fails :
    gTry [([], [("T.b", 1), ("U", 1)])] "T.b.c" = some ([14], [2], [], false) := by decide +kernel

/-- When the answer of the router is lost, the registration fails with the code for a name that is taken, but the router keeps the
element, as only those before are unregistered: messages to it go to the provider, which has no such element, and trying again
fails, too. -/
theorem C85_lost_answer_fails :
    gTry [([.unanswered], [("A.x", 1)]), ([], [("A.x", 1)])] "A.x" = some ([14, 14], [], [1], false) := by decide +kernel

/-- The provider does not remove from its own tree what a registration that failed has put there. -/
theorem C85_tree_kept_fails :
    gTry [([], [("A.x", 1), ("U", 1)])] "A.x" = some ([14], [], [], true) := by decide +kernel

/-- A name of 128 bytes or more is refused with the code for a name that is taken, though nobody has it: rbus takes names of up to
255 bytes, the router has no room for them. -/
theorem C85_long_name_fails :
    gTry [([], [(String.ofList (List.replicate 128 'n'), 1)])] "A.x" = some ([14], [], [], false) := by decide +kernel

end Verif.Props
