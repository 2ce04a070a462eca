import Verif.Spec.PrivateLink
import Verif.Proof.Exec

/-!
# Lemmas about private connections, consumer's side
-/

namespace Verif.PrivateLink

/-- What an entry shows of itself. -/
def shown (e : Entry) : Nat × Nat := (e.param, e.provider)

theorem map_erase_on {α β : Type} [BEq α] [LawfulBEq α] [BEq β] [LawfulBEq β] {f : α → β} {a : α} :
    ∀ {l : List α}, a ∈ l → (∀ b ∈ l, f b = f a → b = a) → (l.erase a).map f = (l.map f).erase (f a)
  | [], h, _ => by cases h
  | b :: l, h, hi => by
    classical
    by_cases hb : b = a
    · subst hb; simp
    · have hf : f b ≠ f a := fun h' => hb (hi b (by simp) h')
      have hm : a ∈ l := by simpa [Ne.symm hb] using h
      rw [List.erase_cons_tail (by simpa using hb), List.map_cons, List.map_cons,
        List.erase_cons_tail (by simpa using hf), map_erase_on hm (fun b hb => hi b (by simp [hb]))]

structure Inv (h : History) (s : State) : Prop where
  held : held h = s.entries.map shown
  live : (links h).map Prod.fst = s.live
  given : given h = s.handles
  nodup : ((links h).map Prod.fst).Nodup
  one : ((links h).map Prod.snd).Nodup
  below : ∀ c ∈ s.live, c < s.nextConn
  ids : ∀ k ∈ s.handles, k.id < s.nextHandle
  conns : ∀ k ∈ s.handles, k.conn < s.nextConn
  linked : ∀ e ∈ s.entries, (e.conn, e.provider) ∈ links h
  used : ∀ x ∈ links h, ∃ e ∈ s.entries, e.provider = x.2

theorem held_snoc (h : History) (x) : held (h ++ [x]) = heldAfter (held h) x := by
  simp [held, List.foldl_append]

theorem links_snoc (h : History) (x) : links (h ++ [x]) = linksAfter (links h) x := by
  simp [links, List.foldl_append]

theorem given_snoc (h : History) (x) : given (h ++ [x]) = givenAfter (given h) x := by
  simp [given, List.foldl_append]

theorem snd_eq {l : List (Nat × Nat)} (hn : (l.map Prod.snd).Nodup) {a b q : Nat} (ha : (a, q) ∈ l)
    (hb : (b, q) ∈ l) : a = b := by
  induction l with
  | nil => cases ha
  | cons x l ih =>
    simp only [List.map_cons, List.nodup_cons, List.mem_map] at hn
    rcases List.mem_cons.1 ha with h1 | h1 <;> rcases List.mem_cons.1 hb with h2 | h2
    · rw [← h1] at h2; exact (Prod.mk.inj h2).1.symm
    · exact (hn.1 ⟨_, h2, by rw [← h1]⟩).elim
    · exact (hn.1 ⟨_, h1, by rw [← h2]⟩).elim
    · exact ih hn.2 h1 h2

theorem fst_eq {l : List (Nat × Nat)} (hn : (l.map Prod.fst).Nodup) {a b c : Nat} (ha : (c, a) ∈ l)
    (hb : (c, b) ∈ l) : a = b := by
  induction l with
  | nil => cases ha
  | cons x l ih =>
    simp only [List.map_cons, List.nodup_cons, List.mem_map] at hn
    rcases List.mem_cons.1 ha with h1 | h1 <;> rcases List.mem_cons.1 hb with h2 | h2
    · rw [← h1] at h2; exact (Prod.mk.inj h2).2.symm
    · exact (hn.1 ⟨_, h2, by rw [← h1]⟩).elim
    · exact (hn.1 ⟨_, h1, by rw [← h2]⟩).elim
    · exact ih hn.2 h1 h2

/-- Two entries that look the same are the same. -/
theorem Inv.inj {h s} (hi : Inv h s) {a b : Entry} (ha : a ∈ s.entries) (hb : b ∈ s.entries)
    (hs : shown b = shown a) : b = a := by
  have h1 := hi.linked a ha
  have h2 := hi.linked b hb
  obtain ⟨p, q, c⟩ := a
  obtain ⟨p', q', c'⟩ := b
  simp only [shown, Prod.mk.injEq] at hs
  obtain ⟨rfl, rfl⟩ := hs
  have hc : c' = c := snd_eq hi.one h2 h1
  rw [hc]

theorem inv_init : Inv [] init := by
  constructor <;> simp [PrivateLink.held, links, PrivateLink.given, init]

/-- Steps that touch neither the list, the connections nor the handles. -/
theorem Inv.same {h s e o} (hi : Inv h s) {s' : State} (h1 : s'.entries = s.entries) (h2 : s'.live = s.live)
    (h3 : s'.nextConn = s.nextConn) (h4 : s'.handles = s.handles) (h5 : s'.nextHandle = s.nextHandle)
    (h6 : heldAfter (PrivateLink.held h) (e, o) = PrivateLink.held h)
    (h7 : linksAfter (links h) (e, o) = links h)
    (h8 : givenAfter (PrivateLink.given h) (e, o) = PrivateLink.given h) : Inv (h ++ [(e, o)]) s' := by
  constructor
  · rw [held_snoc, h6, h1]; exact hi.held
  · rw [links_snoc, h7, h2]; exact hi.live
  · rw [given_snoc, h8, h4]; exact hi.given
  · rw [links_snoc, h7]; exact hi.nodup
  · rw [links_snoc, h7]; exact hi.one
  · rw [h2, h3]; exact hi.below
  · rw [h4, h5]; exact hi.ids
  · rw [h4, h3]; exact hi.conns
  · rw [links_snoc, h7, h1]; exact hi.linked
  · rw [links_snoc, h7, h1]; exact hi.used

theorem findParam_some {es : List Entry} {p e} (h : findParam es p = some e) : e ∈ es ∧ e.param = p := by
  have h1 := List.find?_some h
  exact ⟨List.mem_of_find?_eq_some h, by simpa using h1⟩

theorem findProvider_some {es : List Entry} {q e} (h : findProvider es q = some e) :
    e ∈ es ∧ e.provider = q := by
  have h1 := List.find?_some h
  exact ⟨List.mem_of_find?_eq_some h, by simpa using h1⟩

theorem findProvider_none {es : List Entry} {q} (h : findProvider es q = none) :
    ∀ e ∈ es, e.provider ≠ q := by
  intro e he
  have := List.find?_eq_none.1 h e he
  simpa using this

theorem filter_fst {l : List (Nat × Nat)} {c : Nat} (hn : (l.map Prod.fst).Nodup) :
    (l.filter (·.1 ≠ c)).map Prod.fst = (l.map Prod.fst).erase c := by
  rw [List.Nodup.erase_eq_filter hn, List.filter_map]
  congr 1
  apply List.filter_congr
  intro x _
  by_cases h : x.1 = c <;> simp [h]

/-- The step keeps the invariant. -/
theorem Inv.step {h s e s' o} (hi : Inv h s) (hs : PrivateLink.step s e = .ok (s', o)) :
    Inv (h ++ [(e, o)]) s' := by
  cases e with
  | check t p =>
    simp only [PrivateLink.step] at hs
    split at hs
    · split at hs <;> cases hs <;> exact hi.same rfl rfl rfl rfl rfl rfl rfl rfl
    · cases hs; exact hi.same rfl rfl rfl rfl rfl rfl rfl rfl
  | use t =>
    simp only [PrivateLink.step] at hs
    split at hs
    · cases hs; exact hi.same rfl rfl rfl rfl rfl rfl rfl rfl
    · split at hs <;> cases hs; exact hi.same rfl rfl rfl rfl rfl rfl rfl rfl
    · cases hs; exact hi.same rfl rfl rfl rfl rfl rfl rfl rfl
  | pick t k name =>
    simp only [PrivateLink.step] at hs
    split at hs
    · unfold pick at hs
      split at hs
      · cases hs; exact hi.same rfl rfl rfl rfl rfl rfl rfl rfl
      · split at hs <;> cases hs; exact hi.same rfl rfl rfl rfl rfl rfl rfl rfl
    · cases hs; exact hi.same rfl rfl rfl rfl rfl rfl rfl rfl
  | create t ans con =>
    simp only [PrivateLink.step] at hs
    split at hs
    · rename_i p _
      cases ans with
      | none => cases hs; exact hi.same rfl rfl rfl rfl rfl rfl rfl rfl
      | some q =>
        simp only [create] at hs
        split at hs
        · rename_i e he
          obtain ⟨he1, he2⟩ := findProvider_some he
          cases hs
          have hl := hi.linked e he1
          have hm : e.conn ∈ s.live := by rw [← hi.live]; exact List.mem_map.2 ⟨_, hl, rfl⟩
          constructor
          · rw [held_snoc]; simp [heldAfter, hi.held, grant, move, shown]
          · rw [links_snoc]; exact hi.live
          · rw [given_snoc]; simp [givenAfter, hi.given, grant, move]
          · rw [links_snoc]; exact hi.nodup
          · rw [links_snoc]; exact hi.one
          · exact hi.below
          · intro k hk
            simp only [grant, move, List.mem_append, List.mem_singleton] at hk ⊢
            rcases hk with hk | rfl
            · exact Nat.lt_succ_of_lt (hi.ids k hk)
            · exact Nat.lt_succ_self _
          · intro k hk
            simp only [grant, move, List.mem_append, List.mem_singleton] at hk ⊢
            rcases hk with hk | rfl
            · exact hi.conns k hk
            · exact hi.below _ hm
          · intro e' he'
            rw [links_snoc]
            simp only [grant, move, List.mem_append, List.mem_singleton] at he'
            rcases he' with he' | rfl
            · exact hi.linked e' he'
            · simp only [linksAfter]; rw [← he2]; exact hl
          · intro x hx
            rw [links_snoc] at hx
            obtain ⟨e', h1, h2⟩ := hi.used x hx
            exact ⟨e', by simp [grant, move, h1], h2⟩
        · rename_i he
          have hno := findProvider_none he
          split at hs
          · cases hs
            have hnew : ∀ x ∈ links h, x.1 ≠ s.nextConn := by
              intro x hx
              have : x.1 ∈ s.live := by rw [← hi.live]; exact List.mem_map.2 ⟨_, hx, rfl⟩
              exact Nat.ne_of_lt (hi.below _ this)
            constructor
            · rw [held_snoc]; simp [heldAfter, hi.held, grant, move, shown]
            · rw [links_snoc]; simp [linksAfter, grant, move, hi.live]
            · rw [given_snoc]; simp [givenAfter, hi.given, grant, move]
            · rw [links_snoc]
              simp only [linksAfter, List.map_append, List.map_cons, List.map_nil]
              rw [List.nodup_append]
              refine ⟨hi.nodup, by simp, ?_⟩
              intro a ha b hb
              simp only [List.mem_singleton] at hb
              obtain ⟨x, hx, rfl⟩ := List.mem_map.1 ha
              rw [hb]
              exact hnew x hx
            · rw [links_snoc]
              simp only [linksAfter, List.map_append, List.map_cons, List.map_nil]
              rw [List.nodup_append]
              refine ⟨hi.one, by simp, ?_⟩
              intro a ha b hb
              simp only [List.mem_singleton] at hb
              obtain ⟨x, hx, rfl⟩ := List.mem_map.1 ha
              rw [hb]
              obtain ⟨e', h1, h2⟩ := hi.used x hx
              rw [← h2]
              exact hno e' h1
            · intro c hc
              simp only [grant, move, List.mem_append, List.mem_singleton] at hc ⊢
              rcases hc with hc | rfl
              · exact Nat.lt_succ_of_lt (hi.below c hc)
              · exact Nat.lt_succ_self _
            · intro k hk
              simp only [grant, move, List.mem_append, List.mem_singleton] at hk ⊢
              rcases hk with hk | rfl
              · exact Nat.lt_succ_of_lt (hi.ids k hk)
              · exact Nat.lt_succ_self _
            · intro k hk
              simp only [grant, move, List.mem_append, List.mem_singleton] at hk ⊢
              rcases hk with hk | rfl
              · exact Nat.lt_succ_of_lt (hi.conns k hk)
              · exact Nat.lt_succ_self _
            · intro e' he'
              rw [links_snoc]
              simp only [grant, move, List.mem_append, List.mem_singleton] at he'
              simp only [linksAfter, List.mem_append, List.mem_singleton]
              rcases he' with he' | rfl
              · exact .inl (hi.linked e' he')
              · exact .inr rfl
            · intro x hx
              rw [links_snoc] at hx
              simp only [linksAfter, List.mem_append, List.mem_singleton] at hx
              rcases hx with hx | rfl
              · obtain ⟨e', h1, h2⟩ := hi.used x hx
                exact ⟨e', by simp [grant, move, h1], h2⟩
              · exact ⟨⟨p, q, s.nextConn⟩, by simp [grant, move], rfl⟩
          · cases hs; exact hi.same rfl rfl rfl rfl rfl rfl rfl rfl
    · cases hs; exact hi.same rfl rfl rfl rfl rfl rfl rfl rfl
  | close k agrees =>
    simp only [PrivateLink.step, close] at hs
    split at hs
    · cases hs
    · rename_i hd hk
      have hg : ∀ o', givenAfter (PrivateLink.given h) (.close k agrees, .closed o' none) =
          s.handles.filter (·.id != k) := by
        intro o'; rw [hi.given]; cases o' <;> (simp only [givenAfter]; congr 1; funext x; by_cases hx : x.id = k <;> simp [hx])
      have hg' : ∀ o' c, givenAfter (PrivateLink.given h) (.close k agrees, .closed o' (some c)) =
          s.handles.filter (·.id != k) := by
        intro o' c; rw [hi.given]; cases o' <;> (simp only [givenAfter]; congr 1; funext x; by_cases hx : x.id = k <;> simp [hx])
      have hidle : Inv (h ++ [(.close k agrees, .closed none none)])
          { s with handles := s.handles.filter (·.id != k) } := by
        constructor
        · rw [held_snoc]; exact hi.held
        · rw [links_snoc]; exact hi.live
        · rw [given_snoc]; exact hg none
        · rw [links_snoc]; exact hi.nodup
        · rw [links_snoc]; exact hi.one
        · exact hi.below
        · intro x hx; exact hi.ids x (List.mem_filter.1 hx).1
        · intro x hx; exact hi.conns x (List.mem_filter.1 hx).1
        · rw [links_snoc]; exact hi.linked
        · rw [links_snoc]; exact hi.used
      split at hs
      · cases hs; exact hidle
      · rename_i e he
        obtain ⟨he1, he2⟩ := findParam_some he
        have hl := hi.linked e he1
        have herase : (s.entries.erase e).map shown = (s.entries.map shown).erase (e.param, e.provider) :=
          map_erase_on he1 (fun b hb hsh => hi.inj he1 hb hsh)
        split at hs
        · split at hs
          · rename_i e' he'
            obtain ⟨he1', he2'⟩ := findProvider_some he'
            cases hs
            constructor
            · rw [held_snoc]; simp only [heldAfter]; rw [herase, hi.held]
            · rw [links_snoc]; exact hi.live
            · rw [given_snoc]; exact hg _
            · rw [links_snoc]; exact hi.nodup
            · rw [links_snoc]; exact hi.one
            · exact hi.below
            · intro x hx; exact hi.ids x (List.mem_filter.1 hx).1
            · intro x hx; exact hi.conns x (List.mem_filter.1 hx).1
            · intro x hx; rw [links_snoc]; exact hi.linked x (List.mem_of_mem_erase hx)
            · intro x hx
              rw [links_snoc] at hx
              obtain ⟨e2, h1, h2⟩ := hi.used x hx
              by_cases hee : e2 = e
              · exact ⟨e', he1', by rw [he2', ← hee, h2]⟩
              · exact ⟨e2, (List.mem_erase_of_ne hee).2 h1, h2⟩
          · rename_i he'
            have hno := findProvider_none he'
            obtain ⟨s1, hd1, hs⟩ := res_bind_ok hs
            unfold destroy at hd1
            split at hd1
            · cases hd1
              cases hs
              have hone : ∀ x ∈ links h, x.1 ≠ e.conn → x.2 ≠ e.provider := by
                intro x hx hne h2
                apply hne
                obtain ⟨c, q⟩ := x
                dsimp only at h2
                subst h2
                exact snd_eq hi.one hx hl
              constructor
              · rw [held_snoc]; simp only [heldAfter]; rw [herase, hi.held]
              · rw [links_snoc]; simp only [linksAfter]; rw [filter_fst hi.nodup, hi.live]
              · rw [given_snoc]; exact hg' _ _
              · rw [links_snoc]; exact hi.nodup.sublist (List.filter_sublist.map _)
              · rw [links_snoc]; exact hi.one.sublist (List.filter_sublist.map _)
              · intro c hc; exact hi.below c (List.mem_of_mem_erase hc)
              · intro x hx; exact hi.ids x (List.mem_filter.1 hx).1
              · intro x hx; exact hi.conns x (List.mem_filter.1 hx).1
              · intro x hx
                rw [links_snoc]
                simp only [linksAfter]
                have hxl := hi.linked x (List.mem_of_mem_erase hx)
                refine List.mem_filter.2 ⟨hxl, ?_⟩
                have hq := hno x hx
                simp only [decide_not, Bool.not_eq_true', decide_eq_false_iff_not]
                intro hc
                apply hq
                rw [hc] at hxl
                exact fst_eq hi.nodup hxl hl
              · intro x hx
                rw [links_snoc] at hx
                simp only [linksAfter] at hx
                obtain ⟨hx1, hx2⟩ := List.mem_filter.1 hx
                obtain ⟨e2, h1, h2⟩ := hi.used x hx1
                have hx3 := hone x hx1 (by simpa using hx2)
                refine ⟨e2, (List.mem_erase_of_ne ?_).2 h1, h2⟩
                rintro rfl
                exact hx3 h2.symm
            · cases hd1
        · cases hs; exact hidle
  | gone q =>
    simp only [PrivateLink.step, gone] at hs
    split at hs
    · rename_i he
      have hno := findProvider_none he
      cases hs
      refine hi.same rfl rfl rfl rfl rfl ?_ rfl rfl
      rw [hi.held]
      simp only [heldAfter]
      refine List.filter_eq_self.2 ?_
      intro x hx
      obtain ⟨e, he1, rfl⟩ := List.mem_map.1 hx
      exact decide_eq_true (hno e he1)
    · rename_i e he
      obtain ⟨he1, he2⟩ := findProvider_some he
      have hl := hi.linked e he1
      obtain ⟨s1, hd1, hs⟩ := res_bind_ok hs
      unfold destroy at hd1
      split at hd1
      · cases hd1
        cases hs
        constructor
        · rw [held_snoc, hi.held]
          simp only [heldAfter]
          rw [List.filter_map]
          congr 1
          apply List.filter_congr
          intro x _
          by_cases hq : x.provider = q <;> simp [shown, hq]
        · rw [links_snoc]; simp only [linksAfter]; rw [filter_fst hi.nodup, hi.live]
        · rw [given_snoc]; exact hi.given
        · rw [links_snoc]; exact hi.nodup.sublist (List.filter_sublist.map _)
        · rw [links_snoc]; exact hi.one.sublist (List.filter_sublist.map _)
        · intro c hc; exact hi.below c (List.mem_of_mem_erase hc)
        · exact hi.ids
        · exact hi.conns
        · intro x hx
          obtain ⟨hx1, hx2⟩ := List.mem_filter.1 hx
          rw [links_snoc]
          simp only [linksAfter]
          have hxl := hi.linked x hx1
          refine List.mem_filter.2 ⟨hxl, ?_⟩
          simp only [decide_not, Bool.not_eq_true', decide_eq_false_iff_not]
          intro hc
          rw [hc] at hxl
          have := fst_eq hi.nodup hxl hl
          rw [this, he2] at hx2
          simp at hx2
        · intro x hx
          rw [links_snoc] at hx
          simp only [linksAfter] at hx
          obtain ⟨hx1, hx2⟩ := List.mem_filter.1 hx
          obtain ⟨e2, h1, h2⟩ := hi.used x hx1
          refine ⟨e2, List.mem_filter.2 ⟨h1, ?_⟩, h2⟩
          have hne : x.1 ≠ e.conn := by simpa using hx2
          simp only [bne_iff_ne, ne_eq]
          intro hq
          apply hne
          obtain ⟨c, q'⟩ := x
          dsimp only at h2
          rw [← h2, hq, ← he2] at hx1
          exact snd_eq hi.one hx1 hl
      · cases hd1

theorem inv {h s} (hx : Exec PrivateLink.step init h s) : Inv h s := by
  induction hx with
  | nil => exact inv_init
  | snoc _ hs ih => exact ih.step hs

/-- The entries' connections have not been destroyed. -/
theorem Inv.alive {h s} (hi : Inv h s) {e : Entry} (he : e ∈ s.entries) : e.conn ∈ s.live := by
  rw [← hi.live]; exact List.mem_map.2 ⟨_, hi.linked e he, rfl⟩

theorem find_shown (es : List Entry) (p : Nat) :
    (es.map shown).find? (·.1 == p) = (findParam es p).map shown := by
  rw [List.find?_map]; rfl

theorem Inv.lookup {h s} (hi : Inv h s) (p : Nat) :
    providerOf (PrivateLink.held h) p = (findParam s.entries p).map (·.provider) := by
  rw [providerOf, hi.held, find_shown]
  cases findParam s.entries p <;> rfl

/-- Without closing and going, connections stay, and a thread in a request stays there. -/
theorem quiet_keeps {s h s'} (hx : Exec PrivateLink.step s h s') (hq : Quiet h) {t : Nat} {c : Option Nat}
    (hp : s.place t = .calling c) (hn : ∀ x ∈ h, x.1 ≠ .use t) :
    (∀ d ∈ s.live, d ∈ s'.live) ∧ s'.place t = .calling c := by
  induction hx with
  | nil => exact ⟨fun _ h => h, hp⟩
  | @snoc h s1 e o s2 hx hs ih =>
    have hq' : Quiet h := fun x hx => hq x (by simp [hx])
    obtain ⟨h1, h2⟩ := ih hq' (fun x hx => hn x (by simp [hx]))
    have hqe := hq (e, o) (by simp)
    have hne := hn (e, o) (by simp)
    have key : (∀ d ∈ s1.live, d ∈ s2.live) ∧ s2.place t = s1.place t := by
      cases e with
      | close k a => exact (hqe.1 k a rfl).elim
      | gone q => exact (hqe.2 q rfl).elim
      | check u p =>
        simp only [PrivateLink.step] at hs
        split at hs
        · rename_i hu
          have hut : t ≠ u := by rintro rfl; rw [hu] at h2; cases h2
          split at hs <;> cases hs
          · exact ⟨fun _ h => h, rfl⟩
          · exact ⟨fun _ h => h, by simp [move, hut]⟩
        · cases hs; exact ⟨fun _ h => h, rfl⟩
      | create u a b =>
        simp only [PrivateLink.step] at hs
        split at hs
        · rename_i p hu
          have hut : t ≠ u := by rintro rfl; rw [hu] at h2; cases h2
          cases a with
          | none => cases hs; exact ⟨fun _ h => h, by simp [move, hut]⟩
          | some q =>
            simp only [create] at hs
            split at hs
            · cases hs; exact ⟨fun _ h => h, by simp [move, grant, hut]⟩
            · split at hs <;> cases hs
              · exact ⟨fun d h => by simp [grant, move, h], by simp [move, grant, hut]⟩
              · exact ⟨fun _ h => h, by simp [move, hut]⟩
        · cases hs; exact ⟨fun _ h => h, rfl⟩
      | pick u k name =>
        simp only [PrivateLink.step] at hs
        split at hs
        · rename_i hu
          have hut : t ≠ u := by rintro rfl; rw [hu] at h2; cases h2
          unfold pick at hs
          split at hs
          · cases hs; exact ⟨fun _ h => h, by simp [move, hut]⟩
          · split at hs <;> cases hs; exact ⟨fun _ h => h, by simp [move, hut]⟩
        · cases hs; exact ⟨fun _ h => h, rfl⟩
      | use u =>
        have hut : t ≠ u := by rintro rfl; exact hne rfl
        simp only [PrivateLink.step] at hs
        split at hs
        · cases hs; exact ⟨fun _ h => h, by simp [move, hut]⟩
        · split at hs <;> cases hs; exact ⟨fun _ h => h, by simp [move, hut]⟩
        · cases hs; exact ⟨fun _ h => h, rfl⟩
    exact ⟨fun d hd => key.1 d (h1 d hd), by rw [key.2, h2]⟩

/-- A parameter that is on the list, that no handle is for and that no thread is opening. -/
structure Orphan (p : Nat) (s : State) : Prop where
  on : ∃ e ∈ s.entries, e.param = p
  unheld : ∀ k ∈ s.handles, k.param ≠ p
  unasked : ∀ t, s.place t ≠ .opening p

theorem find_mem {es : List Entry} {p : Nat} (h : ∃ e ∈ es, e.param = p) : ∃ e, findParam es p = some e := by
  obtain ⟨e, he, hp⟩ := h
  cases hf : findParam es p with
  | some e' => exact ⟨e', rfl⟩
  | none => have := List.find?_eq_none.1 hf e he; simp [hp] at this

theorem Orphan.step {p s e s' o} (h : Orphan p s) (hg : ∀ q, e ≠ .gone q)
    (hs : PrivateLink.step s e = .ok (s', o)) : Orphan p s' := by
  have hmove : ∀ (s1 : State) t pl, Orphan p s1 → pl ≠ .opening p → Orphan p (move s1 t pl) := by
    intro s1 t pl h1 hpl
    refine ⟨h1.on, h1.unheld, ?_⟩
    intro u
    simp only [move]
    split
    · exact hpl
    · exact h1.unasked u
  cases e with
  | gone q => exact (hg q rfl).elim
  | check t p' =>
    simp only [PrivateLink.step] at hs
    split at hs
    · split at hs
      · cases hs; exact h
      · rename_i hf
        cases hs
        refine hmove s t _ h ?_
        intro hp
        cases hp
        obtain ⟨e, he⟩ := find_mem h.on
        rw [he] at hf
        cases hf
    · cases hs; exact h
  | create t a b =>
    simp only [PrivateLink.step] at hs
    split at hs
    · rename_i p' hu
      have hne : p' ≠ p := by rintro rfl; exact h.unasked t hu
      have hgrant : ∀ (s1 : State) q c m, Orphan p s1 → Orphan p (grant s1 t p' q c m).1 := by
        intro s1 q c m h1
        refine hmove _ t _ ⟨?_, ?_, h1.unasked⟩ nofun
        · obtain ⟨e, he, hp⟩ := h1.on
          exact ⟨e, by simp [he], hp⟩
        · intro k hk
          simp only [List.mem_append, List.mem_singleton] at hk
          rcases hk with hk | rfl
          · exact h1.unheld k hk
          · exact hne
      cases a with
      | none => cases hs; exact hmove s t _ h nofun
      | some q =>
        simp only [create] at hs
        split at hs
        · cases hs; exact hgrant s _ _ false h
        · split at hs <;> cases hs
          · exact hgrant _ _ _ true ⟨h.on, h.unheld, h.unasked⟩
          · exact hmove s t _ h nofun
    · cases hs; exact h
  | pick t k name =>
    simp only [PrivateLink.step] at hs
    split at hs
    · unfold pick at hs
      split at hs
      · cases hs; exact hmove s t _ h nofun
      · split at hs <;> cases hs; exact hmove s t _ h nofun
    · cases hs; exact h
  | use t =>
    simp only [PrivateLink.step] at hs
    split at hs
    · cases hs; exact hmove s t _ h nofun
    · split at hs <;> cases hs; exact hmove s t _ h nofun
    · cases hs; exact h
  | close k a =>
    simp only [PrivateLink.step, close] at hs
    split at hs
    · cases hs
    · rename_i hd hk
      have hdp : hd.param ≠ p := h.unheld hd (List.mem_of_find?_eq_some hk)
      have hu : ∀ x ∈ s.handles.filter (·.id != k), x.param ≠ p :=
        fun x hx => h.unheld x (List.mem_filter.1 hx).1
      split at hs
      · cases hs; exact ⟨h.on, hu, h.unasked⟩
      · rename_i e he
        obtain ⟨he1, he2⟩ := findParam_some he
        have hon : ∃ x ∈ s.entries.erase e, x.param = p := by
          obtain ⟨x, hx, hp⟩ := h.on
          refine ⟨x, (List.mem_erase_of_ne ?_).2 hx, hp⟩
          rintro rfl
          exact hdp (he2.symm.trans hp)
        split at hs
        · split at hs
          · cases hs; exact ⟨hon, hu, h.unasked⟩
          · obtain ⟨s1, hd1, hs⟩ := res_bind_ok hs
            unfold destroy at hd1
            split at hd1 <;> cases hd1
            cases hs
            exact ⟨hon, hu, h.unasked⟩
        · cases hs; exact ⟨h.on, hu, h.unasked⟩

theorem Orphan.exec {p s h s'} (ho : Orphan p s) (hx : Exec PrivateLink.step s h s')
    (hg : ∀ x ∈ h, ∀ q, x.1 ≠ .gone q) : Orphan p s' := by
  induction hx with
  | nil => exact ho
  | @snoc h s1 e o s2 hx hs ih =>
    exact (ih (fun x hx => hg x (by simp [hx]))).step (hg (e, o) (by simp)) hs

/-- The inner loop never ends when an entry of another provider is on the list. -/
theorem sweep_stuck (n : Nat) {es : List Entry} {q : Nat} {e : Entry} (he : e ∈ es)
    (hq : e.provider ≠ q) : sweep n es q = none := by
  induction n generalizing es with
  | zero => rfl
  | succ n ih =>
    cases es with
    | nil => cases he
    | cons a l =>
      simp only [sweep]
      apply ih
      simp only [sweepOnce]
      exact (List.mem_eraseP_of_neg (by simpa using hq)).2 he

/-- And ends when there is none. -/
theorem sweep_ends {es : List Entry} {q : Nat} (h : ∀ e ∈ es, e.provider = q) (n : Nat)
    (hn : es.length < n) : sweep n es q = some [] := by
  induction es generalizing n with
  | nil =>
    cases n with
    | zero => cases hn
    | succ n => rfl
  | cons e es ih =>
    cases n with
    | zero => cases hn
    | succ n =>
      have h1 := h e (by simp)
      simp only [sweep, sweepOnce, List.eraseP_cons, h1, beq_self_eq_true, cond_true]
      exact ih (fun e he => h e (by simp [he])) n (by simpa using hn)

end Verif.PrivateLink
