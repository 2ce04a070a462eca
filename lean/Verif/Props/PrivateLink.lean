import Verif.Proof.PrivateLink

/-!
# Properties of private connections, consumer's side (C75)
-/

namespace Verif.Props

open Verif.PrivateLink

private theorem link_exec {es s os} (hr : PrivateLink.run PrivateLink.init es = .ok (s, os)) :
    Exec PrivateLink.step PrivateLink.init (es.zip os) s := by
  simpa using (Exec.extend .nil (run := PrivateLink.run) (fun _ => rfl) (fun _ _ _ => rfl) es s os hr).2

/-- Two parameters of provider 7 and one of provider 8. -/
private def opening3 : List PrivateLink.Event :=
  [.check 1 10, .create 1 (some 7) true, .check 1 11, .create 1 (some 7) true, .check 2 12,
   .create 2 (some 8) true]

/-- There is one connection to a provider exactly as long as one of its parameters is open, and never two:
whichever threads open and close, however the calls interleave, and whatever providers answer or when they
go. -/
theorem C75_one_link_per_provider {h s} (hx : Exec PrivateLink.step PrivateLink.init h s) (q : Nat) :
    ((links h).filter (·.2 = q)).length = if q ∈ (held h).map (·.2) then 1 else 0 := by
  have hi := PrivateLink.inv hx
  have hle : ((links h).filter (·.2 = q)).length ≤ 1 := by
    have h1 : ((links h).map Prod.snd).count q ≤ 1 := List.nodup_iff_count.1 hi.one q
    rw [List.count_eq_countP, List.countP_map, List.countP_eq_length_filter] at h1
    refine Nat.le_trans (Nat.le_of_eq ?_) h1
    congr 1
  split
  · rename_i hp
    obtain ⟨x, hpx, hq'⟩ := List.mem_map.1 hp
    rw [hi.held] at hpx
    obtain ⟨e, he, rfl⟩ := List.mem_map.1 hpx
    have hl := hi.linked e he
    have hpos : 0 < ((links h).filter (·.2 = q)).length := by
      refine List.length_pos_of_mem (List.mem_filter.2 ⟨hl, ?_⟩)
      exact decide_eq_true hq'
    omega
  · rename_i hp
    rw [List.length_eq_zero_iff, List.filter_eq_nil_iff]
    intro x hx hxq
    obtain ⟨e, he, h2⟩ := hi.used x hx
    refine hp (List.mem_map.2 ⟨shown e, ?_, ?_⟩)
    · rw [hi.held]
      exact List.mem_map.2 ⟨e, he, rfl⟩
    · rw [shown, h2, of_decide_eq_true hxq]

example : ∃ h s, Exec PrivateLink.step PrivateLink.init h s ∧ (11, 7) ∈ held h ∧ (10, 7) ∉ held h ∧
    links h = [(0, 7), (1, 8)] :=
  ⟨_, _, link_exec (es := opening3 ++ [.close 0 true]) rfl, by decide, by decide, by decide⟩

example : ∃ h s, Exec PrivateLink.step PrivateLink.init h s ∧ held h = [(12, 8)] ∧
    links h = [(1, 8)] :=
  ⟨_, _, link_exec (es := opening3 ++ [.close 0 true, .close 1 true]) rfl, by decide, by decide⟩

/-- A request made with the ordinary handle goes over the connection to the provider of its parameter if
that is open, and to the router otherwise. -/
theorem C75_requests_take_the_link {h s t name s' c} (hx : Exec PrivateLink.step PrivateLink.init h s)
    (hs : PrivateLink.step s (.pick t none name) = .ok (s', .picked c)) :
    match providerOf (held h) name with
    | some q => ∃ d, c = some d ∧ (d, q) ∈ links h
    | none => c = none := by
  have hi := PrivateLink.inv hx
  rw [hi.lookup]
  simp only [PrivateLink.step] at hs
  split at hs
  · simp only [pick] at hs
    cases hf : findParam s.entries name with
    | none => rw [hf] at hs; cases hs; rfl
    | some e =>
      rw [hf] at hs
      cases hs
      exact ⟨_, rfl, hi.linked e (findParam_some hf).1⟩
  · cases hs

example : ∃ h s s', Exec PrivateLink.step PrivateLink.init h s ∧
    PrivateLink.step s (.pick 3 none 12) = .ok (s', .picked (some 1)) ∧ providerOf (held h) 12 = some 8 :=
  ⟨_, _, _, link_exec (es := opening3) rfl, rfl, by decide⟩

/-- Opening a parameter that is already open is refused, and nothing else is. Missing: two threads that
open the same parameter at once both succeed. -/
theorem C75_duplicate_refused_partial {h s t p s' o} (hx : Exec PrivateLink.step PrivateLink.init h s)
    (hs : PrivateLink.step s (.check t p) = .ok (s', o)) (ho : o ≠ .idle) :
    (o = .duplicate ↔ (providerOf (held h) p).isSome) ∧ (o = .duplicate → s' = s) := by
  have hi := PrivateLink.inv hx
  rw [hi.lookup]
  simp only [PrivateLink.step] at hs
  split at hs
  · cases hf : findParam s.entries p with
    | none => rw [hf] at hs; cases hs; exact ⟨⟨nofun, nofun⟩, nofun⟩
    | some e => rw [hf] at hs; cases hs; exact ⟨⟨fun _ => rfl, fun _ => rfl⟩, fun _ => rfl⟩
  · cases hs; exact (ho rfl).elim

example : ∃ h s s', Exec PrivateLink.step PrivateLink.init h s ∧
    PrivateLink.step s (.check 3 12) = .ok (s', .duplicate) :=
  ⟨_, _, _, link_exec (es := opening3) rfl, rfl⟩

/-- Opening, closing a handle that was given and not closed, and a provider's going never destroy a
connection twice or use one that was destroyed. -/
theorem C75_lists_defined {h s e} (hx : Exec PrivateLink.step PrivateLink.init h s)
    (hu : ∀ t, e ≠ .use t) (hc : ∀ k a, e = .close k a → ∃ x ∈ given h, x.id = k)
    (hk : ∀ t k n, e = .pick t (some k) n → ∃ x ∈ given h, x.id = k) : PrivateLink.step s e ≠ .ub := by
  have hi := PrivateLink.inv hx
  have hfind : ∀ k, (∃ x ∈ given h, x.id = k) → ∃ x, s.handles.find? (·.id == k) = some x := by
    rintro k ⟨x, hx1, hx2⟩
    rw [hi.given] at hx1
    cases hf : s.handles.find? (·.id == k) with
    | some y => exact ⟨y, rfl⟩
    | none => have := List.find?_eq_none.1 hf x hx1; simp [hx2] at this
  cases e with
  | use t => exact (hu t rfl).elim
  | check t p =>
    simp only [PrivateLink.step]
    split
    · split <;> nofun
    · nofun
  | create t a b => simp only [PrivateLink.step]; split <;> nofun
  | gone q =>
    simp only [PrivateLink.step, gone]
    split
    · nofun
    · rename_i e he
      rw [destroy, if_pos (hi.alive (findProvider_some he).1)]
      nofun
  | pick t k n =>
    simp only [PrivateLink.step]
    split
    · cases k with
      | none => nofun
      | some k =>
        obtain ⟨x, hx⟩ := hfind k (hk t k n rfl)
        simp only [pick, hx]
        nofun
    · nofun
  | close k a =>
    obtain ⟨x, hx⟩ := hfind k (hc k a rfl)
    simp only [PrivateLink.step, close, hx]
    split
    · nofun
    · rename_i e he
      split
      · split
        · nofun
        · rw [destroy, if_pos (hi.alive (findParam_some he).1)]
          nofun
      · nofun

example : ∃ h s s', Exec PrivateLink.step PrivateLink.init h s ∧ (∃ x ∈ given h, x.id = 2) ∧
    PrivateLink.step s (.close 2 true) = .ok (s', .closed (some (12, 8)) (some 1)) :=
  ⟨_, _, _, link_exec (es := opening3) rfl, by decide, rfl⟩

/-- A request made with the ordinary handle is sent, over the connection chosen when it began, if nothing
is closed and no provider goes while it is under way. Missing: requests during which that happens, and
requests made with the handle of a parameter that is no longer open, see below. -/
theorem C75_request_sent_partial {h s t name s1 c h' s2}
    (hx : Exec PrivateLink.step PrivateLink.init h s)
    (hs : PrivateLink.step s (.pick t none name) = .ok (s1, .picked c))
    (hx' : Exec PrivateLink.step s1 h' s2) (hq : Quiet h') (hn : ∀ x ∈ h', x.1 ≠ .use t) :
    ∃ s3, PrivateLink.step s2 (.use t) = .ok (s3, .sent c) := by
  have hi := PrivateLink.inv hx
  simp only [PrivateLink.step] at hs
  split at hs
  · simp only [pick] at hs
    cases hs
    obtain ⟨h1, h2⟩ := quiet_keeps hx' hq (t := t) (c := (findParam s.entries name).map (·.conn))
      (by simp [move]) hn
    simp only [PrivateLink.step, h2]
    cases hf : findParam s.entries name with
    | none => exact ⟨_, rfl⟩
    | some e =>
      have := h1 e.conn (hi.alive (findParam_some hf).1)
      simp only [Option.map_some, if_pos this]
      exact ⟨_, rfl⟩
  · cases hs

example : ∃ h s s1 h' s2, Exec PrivateLink.step PrivateLink.init h s ∧
    PrivateLink.step s (.pick 3 none 12) = .ok (s1, .picked (some 1)) ∧
    Exec PrivateLink.step s1 h' s2 ∧ h' = [(.check 1 13, .checked)] :=
  ⟨_, _, _, _, _, link_exec (es := opening3) rfl, rfl, .snoc .nil rfl, rfl⟩

/-- What happens in between matters: when the connection ends after the request has chosen it and before
it is sent, the request uses a connection that was freed. -/
theorem C75_close_while_calling_fails : ∃ h s, Exec PrivateLink.step PrivateLink.init h s ∧
    PrivateLink.step s (.use 3) = .ub ∧ ∃ h' c, h = h' ++ [(.close 2 true, .closed (some (12, 8)) c)] :=
  ⟨_, _, .snoc (.snoc (link_exec (es := opening3) rfl) (e := .pick 3 none 12) rfl) (e := .close 2 true) rfl,
    rfl, _, _, rfl⟩

/-- After its provider has gone, the handle of a private parameter must not be used: any request made with
it about a parameter that is not open goes over its connection, which was freed. There is no way for the
application to know. -/
theorem C75_stale_handle_fails {h s t name k} (hx : Exec PrivateLink.step PrivateLink.init h s)
    (hk : k ∈ given h) (hu : ∀ x ∈ given h, x.id = k.id → x = k) (hl : ∀ q, (k.conn, q) ∉ links h)
    (hn : providerOf (held h) name = none) (ht : s.place t = .idle) :
    ∃ s1 c, PrivateLink.step s (.pick t (some k.id) name) = .ok (s1, .picked c) ∧
      PrivateLink.step s1 (.use t) = .ub := by
  have hi := PrivateLink.inv hx
  rw [hi.given] at hk hu
  have hf : s.handles.find? (·.id == k.id) = some k := by
    cases hf : s.handles.find? (·.id == k.id) with
    | none => have := List.find?_eq_none.1 hf k hk; simp at this
    | some y =>
      have h1 := List.find?_some hf
      rw [hu y (List.mem_of_find?_eq_some hf) (by simpa using h1)]
  have hp : findParam s.entries name = none := by
    rw [hi.lookup] at hn
    cases hf : findParam s.entries name with
    | none => rfl
    | some e => rw [hf] at hn; cases hn
  have hd : k.conn ∉ s.live := by
    rw [← hi.live]
    intro hm
    obtain ⟨x, hx1, hx2⟩ := List.mem_map.1 hm
    exact hl x.2 (by rw [← hx2]; exact hx1)
  refine ⟨move s t (.calling (some k.conn)), some k.conn, ?_, ?_⟩
  · simp only [PrivateLink.step, ht, pick, hf, hp]
    rfl
  · simp only [PrivateLink.step, move, if_true]
    exact if_neg hd

example : ∃ h s, Exec PrivateLink.step PrivateLink.init h s ∧ ⟨2, 12, 1⟩ ∈ given h ∧
    links h = [(0, 7)] ∧ providerOf (held h) 12 = none ∧ s.place 3 = .idle :=
  ⟨_, _, link_exec (es := opening3 ++ [.gone 8]) rfl, by decide, by decide, by decide, rfl⟩

/-- When the provider does not agree to the closing of a parameter, or cannot be reached, the handle is
gone and yet the parameter stays open: opening it again is refused as a duplicate for as long as its
provider is not reported gone, whatever the application does. -/
theorem C75_refused_close_fails {h s k p s1 o} (hx : Exec PrivateLink.step PrivateLink.init h s)
    (hu : ∀ x ∈ given h, x.param = p → x.id = k)
    (hp : (providerOf (held h) p).isSome) (hopen : ∀ t, s.place t ≠ .opening p)
    (hs : PrivateLink.step s (.close k false) = .ok (s1, o)) {h' s2}
    (hx' : Exec PrivateLink.step s1 h' s2) (hg : ∀ x ∈ h', ∀ q, x.1 ≠ .gone q) {t s3 o'}
    (hc : PrivateLink.step s2 (.check t p) = .ok (s3, o')) : o' = .idle ∨ o' = .duplicate := by
  have hi := PrivateLink.inv hx
  rw [hi.lookup] at hp
  have ho : Orphan p s1 := by
    rw [hi.given] at hu
    have hon : ∃ e ∈ s.entries, e.param = p := by
      cases hf : findParam s.entries p with
      | none => rw [hf] at hp; cases hp
      | some e => exact ⟨e, findParam_some hf⟩
    have hun : ∀ x ∈ s.handles.filter (·.id != k), x.param ≠ p := by
      intro x hx hxp
      obtain ⟨h1, h2⟩ := List.mem_filter.1 hx
      have := hu x h1 hxp
      simp [this] at h2
    simp only [PrivateLink.step, close] at hs
    split at hs
    · cases hs
    · split at hs
      · cases hs; exact ⟨hon, hun, hopen⟩
      · cases hs; exact ⟨hon, hun, hopen⟩
  obtain ⟨e, he⟩ := find_mem (ho.exec hx' hg).on
  simp only [PrivateLink.step] at hc
  split at hc
  · rw [he] at hc; cases hc; exact .inr rfl
  · cases hc; exact .inl rfl

example : ∃ h s s1, Exec PrivateLink.step PrivateLink.init h s ∧
    (∀ x ∈ given h, x.param = 12 → x.id = 2) ∧ (providerOf (held h) 12).isSome ∧
    PrivateLink.step s (.close 2 false) = .ok (s1, .closed none none) ∧
    PrivateLink.step s1 (.check 1 12) = .ok (s1, .duplicate) :=
  ⟨_, _, _, link_exec (es := opening3) rfl, by decide, by decide, rfl, rfl⟩

/-- A handle left over from before its provider went closes the parameter that was opened again since,
under another handle: that handle's next request uses a connection that was freed. -/
theorem C75_stale_close_fails : ∃ h s, Exec PrivateLink.step PrivateLink.init h s ∧
    ⟨1, 10, 1⟩ ∈ given h ∧ (.gone 7, .forgot (some 0)) ∈ h ∧ (.close 0 true, .closed (some (10, 7)) (some 1)) ∈ h ∧
    (.close 1 true, .closed none none) ∉ h ∧
    ∃ s1 c, PrivateLink.step s (.pick 3 (some 1) 10) = .ok (s1, c) ∧ PrivateLink.step s1 (.use 3) = .ub :=
  ⟨_, _, link_exec (es := [.check 1 10, .create 1 (some 7) true, .gone 7, .check 1 10,
    .create 1 (some 7) true, .close 0 true]) rfl, by decide, by decide, by decide, by decide, _, _, rfl, rfl⟩

/-- Two threads that open the same parameter at once both succeed. -/
theorem C75_two_openers_fails : ∃ h s, Exec PrivateLink.step PrivateLink.init h s ∧
    (.create 1 (some 7) true, .opened 0 10 7 0 true) ∈ h ∧
    (.create 2 (some 7) true, .opened 1 10 7 0 false) ∈ h ∧ held h = [(10, 7), (10, 7)] :=
  ⟨_, _, link_exec (es := [.check 1 10, .check 2 10, .create 1 (some 7) true, .create 2 (some 7) true]) rfl,
    by decide, by decide, by decide⟩

/-- The last `rbus_close` ends the private connections when they are all with one provider: it destroys
that one connection. Missing: more than one provider. -/
theorem C75_close_ends_links_partial {h s q} (hx : Exec PrivateLink.step PrivateLink.init h s)
    (hq : ∀ x ∈ held h, x.2 = q) {n : Nat} (hn : s.entries.length < n) :
    destroyAll n n s.entries = some ((links h).map Prod.fst) := by
  have hi := PrivateLink.inv hx
  rw [hi.held] at hq
  cases he : s.entries with
  | nil =>
    have hl : links h = [] := by
      cases hl : links h with
      | nil => rfl
      | cons x l =>
        obtain ⟨e, h1, _⟩ := hi.used x (by rw [hl]; simp)
        rw [he] at h1
        cases h1
    rw [hl]
    cases n with
    | zero => cases hn
    | succ n => rfl
  | cons e es =>
    rw [he] at hn hq
    have hp : ∀ x ∈ e :: es, x.provider = q := fun x hx => hq _ (List.mem_map.2 ⟨x, hx, rfl⟩)
    have hl : links h = [(e.conn, e.provider)] := by
      have h1 := hi.linked e (by rw [he]; simp)
      have h2 : ∀ x ∈ links h, x = (e.conn, e.provider) := by
        intro x hx
        obtain ⟨e', h3, h4⟩ := hi.used x hx
        rw [he] at h3
        obtain ⟨c, r⟩ := x
        have h5 : r = e.provider := by rw [hp e (by simp), ← hp e' h3]; exact h4.symm
        subst h5
        rw [snd_eq hi.one hx h1]
      have h6 := hi.nodup
      cases hl : links h with
      | nil => rw [hl] at h1; cases h1
      | cons x l =>
        rw [hl] at h2 h6
        have h7 := h2 x (by simp)
        cases l with
        | nil => rw [h7]
        | cons y l =>
          have h8 := h2 y (by simp)
          rw [h7, h8] at h6
          simp at h6
    rw [hl]
    cases n with
    | zero => cases hn
    | succ n =>
      have hsw : sweep (n + 1) es e.provider = some [] :=
        sweep_ends (fun x hx => by rw [hp x (by simp [hx]), hp e (by simp)]) _
          (Nat.lt_trans (Nat.lt_succ_self _) hn)
      simp only [destroyAll, hsw]
      cases n with
      | zero => simp only [List.length_cons] at hn; omega
      | succ n => rfl

example : ∃ h s, Exec PrivateLink.step PrivateLink.init h s ∧ (∀ x ∈ held h, x.2 = 7) ∧
    destroyAll 5 5 s.entries = some [0] :=
  ⟨_, _, link_exec (es := opening3 ++ [.close 2 true]) rfl, by decide, rfl⟩

/-- With parameters of two providers open, the last `rbus_close` never returns, and it holds the locks that
every other call needs. -/
theorem C75_two_providers_hang_fails {h s p q p' q'} (hx : Exec PrivateLink.step PrivateLink.init h s)
    (h1 : (p, q) ∈ held h) (h2 : (p', q') ∈ held h) (hne : q ≠ q') (n m : Nat) :
    destroyAll n m s.entries = none := by
  have hi := PrivateLink.inv hx
  rw [hi.held] at h1 h2
  obtain ⟨e1, he1, hs1⟩ := List.mem_map.1 h1
  obtain ⟨e2, he2, hs2⟩ := List.mem_map.1 h2
  have hq1 : e1.provider = q := (Prod.mk.inj hs1).2
  have hq2 : e2.provider = q' := (Prod.mk.inj hs2).2
  cases m with
  | zero => rfl
  | succ m =>
    cases he : s.entries with
    | nil => rw [he] at he1; cases he1
    | cons e es =>
      have hother : ∃ x ∈ es, x.provider ≠ e.provider := by
        rw [he] at he1 he2
        by_cases hq : e.provider = q
        · refine ⟨e2, ?_, by rw [hq2, hq]; exact Ne.symm hne⟩
          rcases List.mem_cons.1 he2 with rfl | h
          · exact (hne (hq.symm.trans hq2)).elim
          · exact h
        · refine ⟨e1, ?_, by rw [hq1]; exact Ne.symm hq⟩
          rcases List.mem_cons.1 he1 with rfl | h
          · exact (hq hq1).elim
          · exact h
      obtain ⟨x, hx1, hx2⟩ := hother
      simp only [destroyAll, sweep_stuck n hx1 hx2]
      rfl

example : ∃ h s, Exec PrivateLink.step PrivateLink.init h s ∧ (10, 7) ∈ held h ∧ (12, 8) ∈ held h :=
  ⟨_, _, link_exec (es := opening3) rfl, by decide, by decide⟩

end Verif.Props
