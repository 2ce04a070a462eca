import Verif.Spec.PrivateServer
import Verif.Proof.Exec

/-!
# Lemmas about private connections, provider's side
-/

namespace Verif.PrivateServer

/-- What an entry shows of itself. -/
def shown (e : Entry) : Nat × Nat × Nat := (e.consumer, e.param, e.addr)

structure Inv (h : History) (s : State) : Prop where
  opened : opened h = s.entries.map shown
  nodup : (s.entries.map (·.id)).Nodup
  below : ∀ e ∈ s.entries, e.id < s.nextEntry
  insts : (s.instances.map (·.id)).Nodup
  instBelow : ∀ i ∈ s.instances, i.id < s.nextInstance
  fds : ∀ i ∈ s.instances, ∀ fd, i.phase = .listening (some fd) → fd < s.nextFd

theorem opened_snoc (h : History) (x) : opened (h ++ [x]) = openedAfter (opened h) x := by
  simp [opened, List.foldl_append]

theorem filter_id {P : Entry → Bool} {e : Entry} : ∀ {l : List Entry}, (l.map (·.id)).Nodup →
    l.find? P = some e → l.filter (·.id != e.id) = l.eraseP P
  | [], _, h => by cases h
  | a :: l, hn, h => by
    simp only [List.map_cons, List.nodup_cons, List.mem_map, not_exists, not_and] at hn
    by_cases ha : P a = true
    · rw [List.find?_cons_of_pos ha] at h
      cases h
      rw [List.eraseP_cons_of_pos ha]
      simp only [List.filter_cons, bne_self_eq_false, Bool.false_eq_true, if_false]
      refine List.filter_eq_self.2 ?_
      intro x hx
      simpa using hn.1 x hx
    · rw [List.find?_cons_of_neg ha] at h
      rw [List.eraseP_cons_of_neg ha, ← filter_id hn.2 h]
      have hm := List.mem_of_find?_eq_some h
      have : (a.id != e.id) = true := by simpa using fun h' => hn.1 e hm h'.symm
      simp only [List.filter_cons, this, if_true]

theorem inv_init : Inv [] init := by
  constructor <;> simp [PrivateServer.opened, init]

theorem map_phase_id (l : List Instance) (i : Nat) (p : Phase) :
    (l.map fun x => if x.id = i then { x with phase := p } else x).map (·.id) = l.map (·.id) := by
  rw [List.map_map]
  apply List.map_congr_left
  intro x _
  simp only [Function.comp_apply]
  split <;> rfl

/-- Steps that touch only the instances' phases and the threads. -/
theorem Inv.same {h s e o} (hi : Inv h s) {s' : State} (h1 : s'.entries.map shown = s.entries.map shown)
    (h1' : s'.entries.map (·.id) = s.entries.map (·.id))
    (h2 : s'.nextEntry = s.nextEntry) (h3 : s'.instances.map (·.id) = s.instances.map (·.id))
    (h4 : s'.nextInstance = s.nextInstance)
    (h5 : ∀ i ∈ s'.instances, ∀ fd, i.phase = .listening (some fd) → fd < s'.nextFd)
    (h6 : openedAfter (PrivateServer.opened h) (e, o) = PrivateServer.opened h) :
    Inv (h ++ [(e, o)]) s' := by
  constructor
  · rw [opened_snoc, h6, h1]; exact hi.opened
  · rw [h1']; exact hi.nodup
  · intro x hx
    have : x.id ∈ s'.entries.map (·.id) := List.mem_map.2 ⟨x, hx, rfl⟩
    rw [h1'] at this
    obtain ⟨y, hy, hyx⟩ := List.mem_map.1 this
    rw [h2, ← hyx]
    exact hi.below y hy
  · rw [h3]; exact hi.insts
  · intro x hx
    have : x.id ∈ s'.instances.map (·.id) := List.mem_map.2 ⟨x, hx, rfl⟩
    rw [h3] at this
    obtain ⟨y, hy, hyx⟩ := List.mem_map.1 this
    rw [h4, ← hyx]
    exact hi.instBelow y hy
  · exact h5

theorem Inv.idle {h s e o} (hi : Inv h s) {t : Nat} {p : Place}
    (h6 : openedAfter (PrivateServer.opened h) (e, o) = PrivateServer.opened h) :
    Inv (h ++ [(e, o)]) (move s t p) :=
  hi.same rfl rfl rfl rfl rfl hi.fds h6

theorem Inv.finish {h s e o} (hi : Inv h s) (x : Instance)
    (h6 : openedAfter (PrivateServer.opened h) (e, o) = (PrivateServer.opened h).filter (·.2.2 ≠ x.addr)) :
    Inv (h ++ [(e, o)]) (finish s x).1 := by
  constructor
  · rw [opened_snoc, h6, hi.opened]
    simp only [PrivateServer.finish]
    rw [List.filter_map]
    congr 1
    apply List.filter_congr
    intro y _
    by_cases hy : y.addr = x.addr <;> simp [shown, hy]
  · exact hi.nodup.sublist (List.filter_sublist.map _)
  · intro y hy; exact hi.below y (List.mem_filter.1 hy).1
  · exact hi.insts.sublist (List.filter_sublist.map _)
  · intro y hy; exact hi.instBelow y (List.mem_filter.1 hy).1
  · intro y hy; exact hi.fds y (List.mem_filter.1 hy).1

theorem tellAll_map {β : Type} (f : Entry → β) (hf : ∀ e fd, f { e with fd := fd } = f e) (es : List Entry)
    (c fd : Nat) : (tellAll es c fd).map f = es.map f := by
  rw [tellAll, List.map_map]
  apply List.map_congr_left
  intro e _
  simp only [Function.comp_apply]
  split
  · exact hf e _
  · rfl

theorem Inv.step {h s e s' o} (hi : Inv h s) (hs : PrivateServer.step s e = .ok (s', o)) :
    Inv (h ++ [(e, o)]) s' := by
  cases e with
  | «open» c p a =>
    simp only [PrivateServer.step] at hs
    cases hs
    have hnew : ∀ fd, (s.entries ++ [(⟨s.nextEntry, a, c, p, fd⟩ : Entry)]).map (·.id) =
        s.entries.map (·.id) ++ [s.nextEntry] := by simp
    have hnd : (s.entries.map (·.id) ++ [s.nextEntry]).Nodup := by
      rw [List.nodup_append]
      refine ⟨hi.nodup, by simp, ?_⟩
      intro x hx y hy
      simp only [List.mem_singleton] at hy
      obtain ⟨e, he, rfl⟩ := List.mem_map.1 hx
      rw [hy]
      exact Nat.ne_of_lt (hi.below e he)
    have hb : ∀ fd, ∀ e ∈ s.entries ++ [(⟨s.nextEntry, a, c, p, fd⟩ : Entry)], e.id < s.nextEntry + 1 := by
      intro fd e he
      simp only [List.mem_append, List.mem_singleton] at he
      rcases he with he | rfl
      · exact Nat.lt_succ_of_lt (hi.below e he)
      · exact Nat.lt_succ_self _
    unfold startListener
    split
    · constructor
      · rw [opened_snoc]; simp [openedAfter, hi.opened, shown]
      · simp only [hnew]; exact hnd
      · exact hb _
      · simp only [List.map_append, List.map_cons, List.map_nil]
        rw [List.nodup_append]
        refine ⟨hi.insts, by simp, ?_⟩
        intro x hx y hy
        simp only [List.mem_singleton] at hy
        obtain ⟨i, hi', rfl⟩ := List.mem_map.1 hx
        rw [hy]
        exact Nat.ne_of_lt (hi.instBelow i hi')
      · intro i hi'
        simp only [List.mem_append, List.mem_singleton] at hi'
        rcases hi' with hi' | rfl
        · exact Nat.lt_succ_of_lt (hi.instBelow i hi')
        · exact Nat.lt_succ_self _
      · intro i hi' fd hp
        simp only [List.mem_append, List.mem_singleton] at hi'
        rcases hi' with hi' | rfl
        · exact hi.fds i hi' fd hp
        · cases hp
    · constructor
      · rw [opened_snoc]; simp [openedAfter, hi.opened, shown]
      · simp only [hnew]; exact hnd
      · exact hb _
      · exact hi.insts
      · exact hi.instBelow
      · exact hi.fds
  | close c p =>
    simp only [PrivateServer.step, closeParam] at hs
    have hdrop : dropFirst (s.entries.map shown) c p =
        (s.entries.eraseP fun e => e.param == p && e.consumer == c).map shown := by
      rw [dropFirst, List.eraseP_map]; rfl
    split at hs
    · rename_i e he
      cases hs
      constructor
      · rw [opened_snoc, hi.opened]
        simp only [openedAfter]
        rw [filter_id hi.nodup he, hdrop]
      · exact hi.nodup.sublist (List.filter_sublist.map _)
      · intro y hy; exact hi.below y (List.mem_filter.1 hy).1
      · exact hi.insts
      · exact hi.instBelow
      · exact hi.fds
    · rename_i he
      cases hs
      refine hi.same rfl rfl rfl rfl rfl hi.fds ?_
      rw [hi.opened]
      simp only [openedAfter]
      rw [hdrop, List.eraseP_of_forall_not]
      intro x hx
      exact List.find?_eq_none.1 he x hx
  | bind i =>
    simp only [PrivateServer.step] at hs
    split at hs
    · rename_i x hx
      split at hs
      · split at hs
        · cases hs; exact hi.finish x rfl
        · cases hs
          refine hi.same rfl rfl rfl (map_phase_id _ _ _) rfl ?_ rfl
          intro y hy fd hp
          simp only [setPhase] at hy
          obtain ⟨z, hz, rfl⟩ := List.mem_map.1 hy
          split at hp
          · cases hp
          · exact hi.fds z hz fd hp
      · cases hs; exact hi.same rfl rfl rfl rfl rfl hi.fds rfl
    · cases hs; exact hi.same rfl rfl rfl rfl rfl hi.fds rfl
  | connect i =>
    simp only [PrivateServer.step] at hs
    split at hs
    · split at hs
      · cases hs; exact hi.same rfl rfl rfl rfl rfl hi.fds rfl
      · split at hs
        · cases hs
          refine hi.same rfl rfl rfl (map_phase_id _ _ _) rfl ?_ rfl
          intro y hy fd hp
          simp only [setPhase] at hy
          obtain ⟨z, hz, rfl⟩ := List.mem_map.1 hy
          split at hp
          · cases hp; exact Nat.lt_succ_self _
          · exact Nat.lt_succ_of_lt (hi.fds z hz fd hp)
        · cases hs; exact hi.same rfl rfl rfl rfl rfl hi.fds rfl
    · cases hs; exact hi.same rfl rfl rfl rfl rfl hi.fds rfl
  | register i c =>
    simp only [PrivateServer.step] at hs
    split at hs
    · split at hs
      · cases hs
        exact hi.same (tellAll_map _ (fun _ _ => rfl) _ _ _) (tellAll_map _ (fun _ _ => rfl) _ _ _)
          rfl rfl rfl hi.fds rfl
      · cases hs; exact hi.same rfl rfl rfl rfl rfl hi.fds rfl
    · cases hs; exact hi.same rfl rfl rfl rfl rfl hi.fds rfl
  | hangup i =>
    simp only [PrivateServer.step] at hs
    split at hs
    · rename_i x hx
      split at hs
      · cases hs; exact hi.finish x rfl
      · cases hs; exact hi.same rfl rfl rfl rfl rfl hi.fds rfl
    · cases hs; exact hi.same rfl rfl rfl rfl rfl hi.fds rfl
  | ask i fd p =>
    simp only [PrivateServer.step] at hs
    split at hs
    · split at hs
      · split at hs
        · cases hs; exact hi.idle rfl
        · cases hs; exact hi.same rfl rfl rfl rfl rfl hi.fds rfl
      · cases hs; exact hi.same rfl rfl rfl rfl rfl hi.fds rfl
    · cases hs; exact hi.same rfl rfl rfl rfl rfl hi.fds rfl
  | answer i =>
    simp only [PrivateServer.step] at hs
    split at hs
    · split at hs <;> cases hs; exact hi.idle rfl
    · cases hs; exact hi.same rfl rfl rfl rfl rfl hi.fds rfl
  | publish t c p =>
    simp only [PrivateServer.step] at hs
    split at hs
    · split at hs
      · cases hs; exact hi.idle rfl
      · cases hs; exact hi.same rfl rfl rfl rfl rfl hi.fds rfl
    · cases hs; exact hi.same rfl rfl rfl rfl rfl hi.fds rfl
  | send t =>
    simp only [PrivateServer.step] at hs
    split at hs
    · split at hs <;> cases hs; exact hi.idle rfl
    · cases hs; exact hi.same rfl rfl rfl rfl rfl hi.fds rfl

theorem inv {h s} (hx : Exec PrivateServer.step init h s) : Inv h s := by
  induction hx with
  | nil => exact inv_init
  | snoc _ hs ih => exact ih.step hs

/-! ### Channels -/

theorem channel_fst (h : History) (c : Nat) : (h.foldl (channelAfter c) ([], none)).1 = opened h := by
  suffices ∀ (l : Opened × Option Nat) (l' : Opened), l.1 = l' →
      (h.foldl (channelAfter c) l).1 = h.foldl openedAfter l' from this _ _ rfl
  induction h with
  | nil => exact fun _ _ h => h
  | cons x h ih =>
    intro l l' hl
    simp only [List.foldl_cons]
    exact ih _ _ (by simp [channelAfter, hl])

theorem channel_snoc (h : History) (x) (c : Nat) : channel (h ++ [x]) c =
    if (opened (h ++ [x])).all (·.1 != c) then none else
      match x with
      | (.register _ c', .registered fd) => if c' = c then some fd else channel h c
      | _ => channel h c := by
  rw [channel, List.foldl_append, opened_snoc, ← channel_fst h c]
  rfl

theorem channel_none {h : History} {c : Nat} (hn : (opened h).all (·.1 != c) = true) :
    channel h c = none := by
  rcases List.eq_nil_or_concat h with rfl | ⟨h', x, rfl⟩
  · rfl
  · rw [List.concat_eq_append] at hn ⊢
    rw [channel_snoc, if_pos hn]

/-- With addresses made of names, the entries of a consumer have the descriptor it last registered on. -/
structure Chan (h : History) (s : State) : Prop where
  addr : ∀ e ∈ s.entries, e.addr = e.consumer
  fd : ∀ e ∈ s.entries, e.fd = channel h e.consumer

theorem not_all {es : List Entry} {e : Entry} (he : e ∈ es) :
    (es.map shown).all (·.1 != e.consumer) = false := by
  rw [List.all_eq_false]
  exact ⟨shown e, List.mem_map.2 ⟨e, he, rfl⟩, by simp [shown]⟩

/-- The channel stays when the step is no registration and something is still open. -/
theorem channel_keeps {h s x s'} (hi' : Inv (h ++ [x]) s')
    (hr : ∀ i c fd, x ≠ (.register i c, .registered fd)) {e : Entry} (he : e ∈ s'.entries) {f : Option Nat}
    (hf : f = channel h e.consumer) (_ : Inv h s) : f = channel (h ++ [x]) e.consumer := by
  rw [channel_snoc, hi'.opened, if_neg (by simp [not_all he])]
  split
  · exact (hr _ _ _ rfl).elim
  · exact hf

theorem Chan.sub {h s x s'} (hc : Chan h s) (hi : Inv h s) (hi' : Inv (h ++ [x]) s')
    (hsub : ∀ e ∈ s'.entries, e ∈ s.entries) (hr : ∀ i c fd, x ≠ (.register i c, .registered fd)) :
    Chan (h ++ [x]) s' := by
  refine ⟨fun e he => hc.addr e (hsub e he), ?_⟩
  intro e he
  exact channel_keeps hi' hr he (hc.fd e (hsub e he)) hi

theorem step_entries {s e s' o} (hs : PrivateServer.step s e = .ok (s', o)) :
    (∃ c p a, e = .open c p a ∧ s' = startListener s c p a) ∨
    (∃ i c fd, e = .register i c ∧ o = .registered fd ∧ s'.entries = tellAll s.entries c fd) ∨
    ((∀ i c fd, (e, o) ≠ (.register i c, .registered fd)) ∧ (∀ e' ∈ s'.entries, e' ∈ s.entries) ∧
      (∀ c p a, e ≠ .open c p a)) := by
  cases e with
  | «open» c p a => simp only [PrivateServer.step] at hs; cases hs; exact .inl ⟨c, p, a, rfl, rfl⟩
  | close c p =>
    refine .inr (.inr ⟨nofun, ?_, nofun⟩)
    simp only [PrivateServer.step, closeParam] at hs
    split at hs <;> cases hs
    · exact fun e he => (List.mem_filter.1 he).1
    · exact fun _ h => h
  | bind i =>
    refine .inr (.inr ⟨nofun, ?_, nofun⟩)
    simp only [PrivateServer.step] at hs
    split at hs
    · split at hs
      · split at hs <;> cases hs
        · exact fun e he => (List.mem_filter.1 he).1
        · exact fun _ h => h
      · cases hs; exact fun _ h => h
    · cases hs; exact fun _ h => h
  | connect i =>
    refine .inr (.inr ⟨nofun, ?_, nofun⟩)
    simp only [PrivateServer.step] at hs
    split at hs
    · split at hs
      · cases hs; exact fun _ h => h
      · split at hs <;> cases hs <;> exact fun _ h => h
    · cases hs; exact fun _ h => h
  | register i c =>
    simp only [PrivateServer.step] at hs
    split at hs
    · split at hs
      · cases hs; exact .inr (.inl ⟨i, c, _, rfl, rfl, rfl⟩)
      · cases hs; exact .inr (.inr ⟨nofun, fun _ h => h, nofun⟩)
    · cases hs; exact .inr (.inr ⟨nofun, fun _ h => h, nofun⟩)
  | hangup i =>
    refine .inr (.inr ⟨nofun, ?_, nofun⟩)
    simp only [PrivateServer.step] at hs
    split at hs
    · split at hs <;> cases hs
      · exact fun e he => (List.mem_filter.1 he).1
      · exact fun _ h => h
    · cases hs; exact fun _ h => h
  | ask i fd p =>
    refine .inr (.inr ⟨nofun, ?_, nofun⟩)
    simp only [PrivateServer.step] at hs
    split at hs
    · split at hs
      · split at hs <;> cases hs <;> exact fun _ h => h
      · cases hs; exact fun _ h => h
    · cases hs; exact fun _ h => h
  | answer i =>
    refine .inr (.inr ⟨nofun, ?_, nofun⟩)
    simp only [PrivateServer.step] at hs
    split at hs
    · split at hs <;> cases hs; exact fun _ h => h
    · cases hs; exact fun _ h => h
  | publish t c p =>
    refine .inr (.inr ⟨nofun, ?_, nofun⟩)
    simp only [PrivateServer.step] at hs
    split at hs
    · split at hs <;> cases hs <;> exact fun _ h => h
    · cases hs; exact fun _ h => h
  | send t =>
    refine .inr (.inr ⟨nofun, ?_, nofun⟩)
    simp only [PrivateServer.step] at hs
    split at hs
    · split at hs <;> cases hs; exact fun _ h => h
    · cases hs; exact fun _ h => h

theorem chan {h s} (hx : Exec PrivateServer.step init h s) (hl : Local h) : Chan h s := by
  induction hx with
  | nil => constructor <;> (intro e he; simp [init] at he)
  | @snoc h s e o s' hx hs ih =>
    have hc := ih (fun c p a o ho => hl c p a o (by simp [ho]))
    have hi := inv hx
    have hi' := hi.step hs
    rcases step_entries hs with ⟨c, p, a, rfl, rfl⟩ | ⟨i, c, fd, rfl, rfl, hent⟩ | ⟨hr, hsub, _⟩
    · have hac : a = c := hl c p a o (by simp)
      subst hac
      have hold : ∀ x ∈ s.entries, x ∈ (startListener s a p a).entries → x.addr = x.consumer ∧
          x.fd = channel (h ++ [(.open a p a, o)]) x.consumer :=
        fun x hx hx' => ⟨hc.addr x hx, channel_keeps hi' nofun hx' (hc.fd x hx) hi⟩
      have key : ∀ e ∈ (startListener s a p a).entries, e.addr = e.consumer ∧
          e.fd = channel (h ++ [(.open a p a, o)]) e.consumer := by
        intro e he
        by_cases hm : e ∈ s.entries
        · exact hold e hm he
        · have he0 := he
          unfold startListener at he
          split at he
          · rename_i hf
            simp only [List.mem_append, hm, false_or, List.mem_singleton] at he
            subst he
            refine ⟨rfl, channel_keeps hi' nofun he0 ?_ hi⟩
            refine (channel_none ?_).symm
            rw [hi.opened, List.all_eq_true]
            intro x hx
            obtain ⟨y, hy, rfl⟩ := List.mem_map.1 hx
            have h1 := List.find?_eq_none.1 hf y hy
            have h2 := hc.addr y hy
            simp only [shown, bne_iff_ne, ne_eq]
            rw [← h2]
            simpa using h1
          · rename_i y hf
            simp only [List.mem_append, hm, false_or, List.mem_singleton] at he
            subst he
            refine ⟨rfl, channel_keeps hi' nofun he0 ?_ hi⟩
            have hy := List.mem_of_find?_eq_some hf
            have h1 := List.find?_some hf
            have h2 := hc.addr y hy
            have h3 : y.consumer = a := by rw [← h2]; simpa using h1
            rw [hc.fd y hy, h3]
      exact ⟨fun e he => (key e he).1, fun e he => (key e he).2⟩
    · have key : ∀ e ∈ s'.entries, e.addr = e.consumer ∧
          e.fd = channel (h ++ [(.register i c, .registered fd)]) e.consumer := by
        intro e he
        have hna := not_all he
        rw [channel_snoc, hi'.opened, if_neg (by simp [hna])]
        rw [hent] at he
        obtain ⟨y, hy, rfl⟩ := List.mem_map.1 he
        by_cases hyc : y.consumer = c
        · rw [if_pos hyc]
          simp only [hyc, if_true]
          exact ⟨by rw [hc.addr y hy, hyc], trivial⟩
        · rw [if_neg hyc]
          simp only [if_neg (Ne.symm hyc)]
          exact ⟨hc.addr y hy, hc.fd y hy⟩
      exact ⟨fun e he => (key e he).1, fun e he => (key e he).2⟩
    · exact hc.sub hi hi' hsub hr

/-- An entry without its descriptor. -/
def labelled (e : Entry) : Nat × Nat × Nat × Nat := (e.id, shown e)

/-- While nothing is closed and no instance ends, entries stay, though they may learn a descriptor. -/
theorem quiet_step {s e s' o} (hs : PrivateServer.step s e = .ok (s', o))
    (hq : (∀ c p, e ≠ .close c p) ∧ ∀ a, o ≠ .ended a) :
    ∀ x ∈ s.entries.map labelled, x ∈ s'.entries.map labelled := by
  cases e with
  | «open» c p a =>
    simp only [PrivateServer.step] at hs
    cases hs
    intro x hx
    unfold startListener
    split <;> (rw [List.map_append]; exact List.mem_append_left _ hx)
  | close c p => exact (hq.1 c p rfl).elim
  | bind i =>
    simp only [PrivateServer.step] at hs
    split at hs
    · split at hs
      · split at hs
        · cases hs; exact (hq.2 _ rfl).elim
        · cases hs; exact fun _ h => h
      · cases hs; exact fun _ h => h
    · cases hs; exact fun _ h => h
  | connect i =>
    simp only [PrivateServer.step] at hs
    split at hs
    · split at hs
      · cases hs; exact fun _ h => h
      · split at hs <;> cases hs <;> exact fun _ h => h
    · cases hs; exact fun _ h => h
  | register i c =>
    simp only [PrivateServer.step] at hs
    split at hs
    · split at hs
      · cases hs
        intro x hx
        rw [tellAll_map _ (fun _ _ => rfl)]
        exact hx
      · cases hs; exact fun _ h => h
    · cases hs; exact fun _ h => h
  | hangup i =>
    simp only [PrivateServer.step] at hs
    split at hs
    · split at hs
      · cases hs; exact (hq.2 _ rfl).elim
      · cases hs; exact fun _ h => h
    · cases hs; exact fun _ h => h
  | ask i fd p =>
    simp only [PrivateServer.step] at hs
    split at hs
    · split at hs
      · split at hs <;> cases hs <;> exact fun _ h => h
      · cases hs; exact fun _ h => h
    · cases hs; exact fun _ h => h
  | answer i =>
    simp only [PrivateServer.step] at hs
    split at hs
    · split at hs <;> cases hs; exact fun _ h => h
    · cases hs; exact fun _ h => h
  | publish t c p =>
    simp only [PrivateServer.step] at hs
    split at hs
    · split at hs <;> cases hs <;> exact fun _ h => h
    · cases hs; exact fun _ h => h
  | send t =>
    simp only [PrivateServer.step] at hs
    split at hs
    · split at hs <;> cases hs; exact fun _ h => h
    · cases hs; exact fun _ h => h

/-- A thread in the middle of something stays there until its own next step. -/
theorem place_step {s e s' o} (hs : PrivateServer.step s e = .ok (s', o)) {u : Nat}
    (hp : s.place u ≠ .idle) (h1 : ∀ t, 2 * t = u → e ≠ .send t) (h2 : ∀ i, 2 * i + 1 = u → e ≠ .answer i) :
    s'.place u = s.place u := by
  cases e with
  | «open» c p a =>
    simp only [PrivateServer.step] at hs
    cases hs
    unfold startListener
    split <;> rfl
  | close c p =>
    simp only [PrivateServer.step, closeParam] at hs
    split at hs <;> cases hs <;> rfl
  | bind i =>
    simp only [PrivateServer.step] at hs
    split at hs
    · split at hs
      · split at hs <;> cases hs <;> rfl
      · cases hs; rfl
    · cases hs; rfl
  | connect i =>
    simp only [PrivateServer.step] at hs
    split at hs
    · split at hs
      · cases hs; rfl
      · split at hs <;> cases hs <;> rfl
    · cases hs; rfl
  | register i c =>
    simp only [PrivateServer.step] at hs
    split at hs
    · split at hs <;> cases hs <;> rfl
    · cases hs; rfl
  | hangup i =>
    simp only [PrivateServer.step] at hs
    split at hs
    · split at hs <;> cases hs <;> rfl
    · cases hs; rfl
  | ask i fd p =>
    simp only [PrivateServer.step] at hs
    split at hs
    · split at hs
      · rename_i hc
        have hu : u ≠ 2 * i + 1 := by rintro rfl; exact hp hc.2
        split at hs <;> cases hs
        · simp [move, hu]
        · rfl
      · cases hs; rfl
    · cases hs; rfl
  | answer i =>
    have hu : u ≠ 2 * i + 1 := by rintro rfl; exact h2 i rfl rfl
    simp only [PrivateServer.step] at hs
    split at hs
    · split at hs <;> cases hs; simp [move, hu]
    · cases hs; rfl
  | publish t c p =>
    simp only [PrivateServer.step] at hs
    split at hs
    · rename_i hc
      have hu : u ≠ 2 * t := by rintro rfl; exact hp hc
      split at hs <;> cases hs
      · simp [move, hu]
      · rfl
    · cases hs; rfl
  | send t =>
    have hu : u ≠ 2 * t := by rintro rfl; exact h1 t rfl rfl
    simp only [PrivateServer.step] at hs
    split at hs
    · split at hs <;> cases hs; simp [move, hu]
    · cases hs; rfl

theorem quiet_exec {s h s'} (hx : Exec PrivateServer.step s h s') (hq : Quiet h) {u : Nat}
    (hp : s.place u ≠ .idle) (h1 : ∀ t, 2 * t = u → ∀ x ∈ h, x.1 ≠ .send t)
    (h2 : ∀ i, 2 * i + 1 = u → ∀ x ∈ h, x.1 ≠ .answer i) :
    (∀ x ∈ s.entries.map labelled, x ∈ s'.entries.map labelled) ∧ s'.place u = s.place u := by
  induction hx with
  | nil => exact ⟨fun _ h => h, rfl⟩
  | @snoc h sm e o s2 hx hs ih =>
    obtain ⟨ha, hb⟩ := ih (fun x hx => hq x (by simp [hx])) (fun t ht x hx => h1 t ht x (by simp [hx]))
      (fun t ht x hx => h2 t ht x (by simp [hx]))
    refine ⟨fun x hx => quiet_step hs (hq (e, o) (by simp)) x (ha x hx), ?_⟩
    rw [← hb]
    refine place_step hs (by rw [hb]; exact hp) (fun t ht => h1 t ht (e, o) (by simp))
      (fun t ht => h2 t ht (e, o) (by simp))

theorem find_some {es : List Entry} {c p e} (h : find es c p = some e) :
    e ∈ es ∧ e.param = p ∧ e.consumer = c := by
  have h1 := List.find?_some h
  simp only [Bool.and_eq_true, beq_iff_eq] at h1
  exact ⟨List.mem_of_find?_eq_some h, h1⟩

theorem find_none {es : List Entry} {c p} (h : find es c p = none) :
    ∀ e ∈ es, e.consumer = c → e.param ≠ p := by
  intro e he hc hp
  have := List.find?_eq_none.1 h e he
  simp [hp, hc] at this

theorem find_id {es : List Entry} (hn : (es.map (·.id)).Nodup) {e : Entry} (he : e ∈ es) :
    es.find? (·.id == e.id) = some e := by
  induction es with
  | nil => cases he
  | cons a l ih =>
    simp only [List.map_cons, List.nodup_cons, List.mem_map, not_exists, not_and] at hn
    rcases List.mem_cons.1 he with rfl | hm
    · exact List.find?_cons_of_pos (by simp)
    · rw [List.find?_cons_of_neg, ih hn.2 hm]
      simpa using fun h => hn.1 e hm h.symm

end Verif.PrivateServer
