import Verif.Spec.Dispatch
import Verif.Proof.Exec

/-!
# Invariants of listeners and message callbacks
-/

namespace Verif.Dispatch

theorem exec_of_run {es s os} (h : run init es = .ok (s, os)) :
    es.length = os.length ∧ Exec step init (es.zip os) s := by
  have := Exec.extend (step := step) (s₀ := init) .nil (run := run) (fun _ => rfl)
    (fun _ _ _ => rfl) es s os h
  simpa using this

/-! ## The queue -/

/-- What the callback thread has looked up and not yet called; and whether its message is still in the
queue. -/
def pendingCall : Worker → List (Msg × Option Nat)
  | .found _ m cb => [(m, cb)]
  | _ => []

/-- Messages looked up and not released. -/
def inHand : Worker → List Msg
  | .found _ m _ => [m]
  | .returned _ m => [m]
  | _ => []

/-- The worker's item is the front of the queue. -/
def holdsFront (w : Worker) (q : List (Nat × Msg)) : Prop :=
  match w with
  | .fetched a m | .found a m _ | .returned a m => ∃ r, q = (a, m) :: r
  | _ => True

structure QInv (h : History) (s : State) : Prop where
  flow : released h ++ s.queue.map (·.2) = accepted h
  hand : (lookups h).map (·.1) = released h ++ inHand s.worker
  call : (lookups h).filterMap (fun x => x.2.map (fun c => (x.1, c)))
    = calls h ++ (pendingCall s.worker).filterMap (fun x => x.2.map (fun c => (x.1, c)))
  front : holdsFront s.worker s.queue
  size : s.queue.length ≤ maxMessages + 1

theorem accepted_snoc (h : History) (e o) :
    accepted (h ++ [(e, o)]) = accepted h ++ (match e, o with
      | .receive m, .queued => [m]
      | _, _ => []) := by
  simp only [accepted, List.filterMap_append]
  congr 1
  cases e <;> cases o <;> rfl

theorem released_snoc (h : History) (e o) :
    released (h ++ [(e, o)]) = released h ++ (match o with
      | .released m => [m]
      | _ => []) := by
  simp only [released, List.filterMap_append]
  congr 1
  cases o <;> rfl

theorem lookups_snoc (h : History) (e o) :
    lookups (h ++ [(e, o)]) = lookups h ++ (match o with
      | .looked m cb => [(m, cb)]
      | _ => []) := by
  simp only [lookups, List.filterMap_append]
  congr 1
  cases o <;> rfl

theorem calls_snoc (h : History) (e o) :
    calls (h ++ [(e, o)]) = calls h ++ (match o with
      | .called m cb => [(m, cb)]
      | _ => []) := by
  simp only [calls, List.filterMap_append]
  congr 1
  cases o <;> rfl

theorem holdsFront_front (q : List (Nat × Msg)) : holdsFront (front q) q := by
  cases q with
  | nil => trivial
  | cons x r => exact ⟨r, rfl⟩

theorem inHand_front (q : List (Nat × Msg)) : inHand (front q) = [] := by
  cases q <;> rfl

theorem pendingCall_front (q : List (Nat × Msg)) : pendingCall (front q) = [] := by
  cases q <;> rfl

/-- A step that changes neither queue nor worker, and shows nothing of messages. -/
theorem QInv.same {h s s' e o} (hi : QInv h s) (hq : s'.queue = s.queue) (hw : s'.worker = s.worker)
    (ho : (∃ i, o = .added i) ∨ o = .full ∨ (∃ i, o = .removed i) ∨ o = .notFound ∨ o = .dropped ∨
      o = .nothing) : QInv (h ++ [(e, o)]) s' := by
  obtain ⟨h1, h2, h3, h4, h5⟩ := hi
  rcases ho with ⟨i, rfl⟩ | rfl | ⟨i, rfl⟩ | rfl | rfl | rfl <;>
    (refine ⟨?_, ?_, ?_, by rw [hq, hw]; exact h4, by rw [hq]; exact h5⟩ <;>
      simp only [accepted_snoc, released_snoc, lookups_snoc, calls_snoc, hq, hw, List.append_nil] <;>
      first | exact h1 | exact h2 | exact h3)

theorem addListener_shape (s : State) (id e cb) :
    (addListener s id e cb).1.queue = s.queue ∧ (addListener s id e cb).1.worker = s.worker ∧
    ((∃ i, (addListener s id e cb).2 = .added i) ∨ (addListener s id e cb).2 = .full) := by
  unfold addListener
  split
  · exact ⟨rfl, rfl, .inl ⟨_, rfl⟩⟩
  · exact ⟨rfl, rfl, .inr rfl⟩

theorem removeListener_shape (s : State) (p) :
    (removeListener s p).1.queue = s.queue ∧ (removeListener s p).1.worker = s.worker ∧
    ((∃ i, (removeListener s p).2 = .removed i) ∨ (removeListener s p).2 = .notFound) := by
  unfold removeListener
  split
  · exact ⟨rfl, rfl, .inl ⟨_, rfl⟩⟩
  · exact ⟨rfl, rfl, .inr rfl⟩

theorem qinv_step {h s e s' o} (hi : QInv h s) (hs : step s e = .ok (s', o)) :
    QInv (h ++ [(e, o)]) s' := by
  cases e with
  | addWithId id e cb =>
    simp only [step, Res.ok.injEq] at hs
    obtain ⟨h1, h2, h3⟩ := addListener_shape s id e cb
    rw [hs] at h1 h2 h3
    exact hi.same h1 h2 (by rcases h3 with ⟨i, h3⟩ | h3 <;> subst h3 <;> simp)
  | add e cb =>
    simp only [step, Res.ok.injEq] at hs
    obtain ⟨h1, h2, h3⟩ := addListener_shape { s with nextId := (s.nextId + 1) % 4294967296 } s.nextId e cb
    rw [hs] at h1 h2 h3
    exact hi.same h1 h2 (by rcases h3 with ⟨i, h3⟩ | h3 <;> subst h3 <;> simp)
  | remove e =>
    simp only [step, Res.ok.injEq] at hs
    obtain ⟨h1, h2, h3⟩ := removeListener_shape s (fun l => l.expr = e)
    rw [hs] at h1 h2 h3
    exact hi.same h1 h2 (by rcases h3 with ⟨i, h3⟩ | h3 <;> subst h3 <;> simp)
  | removeWithId id =>
    simp only [step, Res.ok.injEq] at hs
    obtain ⟨h1, h2, h3⟩ := removeListener_shape s (fun l => l.id = id)
    rw [hs] at h1 h2 h3
    exact hi.same h1 h2 (by rcases h3 with ⟨i, h3⟩ | h3 <;> subst h3 <;> simp)
  | receive m =>
    simp only [step] at hs
    split at hs
    · cases hs
      exact hi.same rfl rfl (by simp)
    · rename_i hlen
      cases hs
      obtain ⟨h1, h2, h3, h4, h5⟩ := hi
      refine ⟨?_, ?_, ?_, ?_, ?_⟩ <;>
        simp only [accepted_snoc, released_snoc, lookups_snoc, calls_snoc, List.append_nil]
      · rw [← h1]; simp
      · exact h2
      · exact h3
      · revert h4
        cases s.worker <;> simp only [holdsFront, imp_self]
        all_goals
          rintro ⟨r, hr⟩
          exact ⟨r ++ [(s.made, m)], by rw [hr]; rfl⟩
      · simp only [List.length_append, List.length_singleton]; omega
  | fetch =>
    simp only [step] at hs
    split at hs
    · rename_i hw
      cases hs
      obtain ⟨h1, h2, h3, h4, h5⟩ := hi
      simp only [hw, inHand, pendingCall, List.filterMap_nil, List.append_nil] at h2 h3
      refine ⟨?_, ?_, ?_, ?_, h5⟩ <;>
        simp only [accepted_snoc, released_snoc, lookups_snoc, calls_snoc, List.append_nil]
      · exact h1
      · by_cases hr : s.running
        · rw [if_pos hr, inHand_front]; simpa using h2
        · rw [if_neg hr]; simpa [inHand] using h2
      · by_cases hr : s.running
        · rw [if_pos hr, pendingCall_front]; simpa using h3
        · rw [if_neg hr]; simpa [pendingCall] using h3
      · by_cases hr : s.running
        · rw [if_pos hr]; exact holdsFront_front _
        · rw [if_neg hr]; trivial
    · cases hs
  | look =>
    simp only [step] at hs
    split at hs
    · rename_i a m hw
      obtain ⟨h1, h2, h3, h4, h5⟩ := hi
      simp only [hw, inHand, pendingCall, List.filterMap_nil, List.append_nil, holdsFront] at h2 h3 h4
      split at hs
      · cases hs
        refine ⟨?_, ?_, ?_, ?_, h5⟩ <;>
          simp only [accepted_snoc, released_snoc, lookups_snoc, calls_snoc, List.append_nil]
        · exact h1
        · simp [inHand, h2]
        · simp [pendingCall, h3]
        · exact h4
      · cases hs
        refine ⟨?_, ?_, ?_, trivial, h5⟩ <;>
          simp only [accepted_snoc, released_snoc, lookups_snoc, calls_snoc, List.append_nil]
        · exact h1
        · simp [inHand, h2]
        · simp [pendingCall, h3]
    · cases hs
  | call =>
    simp only [step] at hs
    split at hs
    · rename_i a m cb hw
      cases hs
      obtain ⟨h1, h2, h3, h4, h5⟩ := hi
      simp only [hw, inHand, pendingCall, holdsFront] at h2 h3 h4
      refine ⟨?_, ?_, ?_, ?_, h5⟩ <;>
        simp only [accepted_snoc, released_snoc, lookups_snoc, calls_snoc, List.append_nil]
      · exact h1
      · simp [inHand, h2]
      · simp [pendingCall, h3]
      · exact h4
    · rename_i a m hw
      cases hs
      obtain ⟨h1, h2, h3, h4, h5⟩ := hi
      simp only [hw, inHand, pendingCall, holdsFront] at h2 h3 h4
      refine ⟨?_, ?_, ?_, ?_, h5⟩ <;>
        simp only [accepted_snoc, released_snoc, lookups_snoc, calls_snoc, List.append_nil]
      · exact h1
      · simp [inHand, h2]
      · simp [pendingCall, h3]
      · exact h4
    · cases hs
  | next =>
    simp only [step] at hs
    split at hs
    · rename_i a m hw
      cases hs
      obtain ⟨h1, h2, h3, h4, h5⟩ := hi
      simp only [hw, inHand, pendingCall, holdsFront] at h2 h3 h4
      obtain ⟨r, hr⟩ := h4
      have he : s.queue.eraseP (fun x => decide (x.1 = a)) = r := by rw [hr]; simp
      refine ⟨?_, ?_, ?_, ?_, ?_⟩ <;>
        simp only [accepted_snoc, released_snoc, lookups_snoc, calls_snoc, List.append_nil, he]
      · rw [← h1, hr]; simp
      · rw [inHand_front, h2]; simp
      · rw [pendingCall_front, h3]
      · exact holdsFront_front _
      · rw [hr] at h5; simp only [List.length_cons] at h5; omega
    · cases hs
  | stop =>
    simp only [step] at hs
    cases hs
    exact hi.same rfl rfl (by simp)

theorem qinv {h s} (hx : Exec step init h s) : QInv h s := by
  induction hx with
  | nil => exact ⟨rfl, rfl, rfl, trivial, by simp [init]⟩
  | snoc _ hs ih => exact qinv_step ih hs

/-- How many messages wait. -/
theorem waiting_eq {h s} (hi : QInv h s) : waiting h = s.queue.length := by
  unfold waiting
  rw [← hi.flow]
  simp

theorem run_append {s es s1 os1 fs s2 os2} (h1 : run s es = .ok (s1, os1))
    (h2 : run s1 fs = .ok (s2, os2)) : run s (es ++ fs) = .ok (s2, os1 ++ os2) := by
  induction es generalizing s os1 with
  | nil => cases h1; exact h2
  | cons e es ih =>
    simp only [run] at h1
    obtain ⟨⟨s3, o⟩, h3, h1⟩ := res_bind_ok h1
    obtain ⟨⟨s4, os⟩, h4, h1⟩ := res_bind_ok h1
    cases h1
    simp only [List.cons_append, run, h3, Res.ok_bind, ih h4, Res.pure_eq]

/-- What the callback thread shows while it handles a message. -/
def handles (m : Msg) (cb : Option Nat) : List Obs :=
  [.looked m cb, (match cb with
    | some c => .called m c
    | none => .nothing), .released m]

/-- One turn of the callback thread. -/
theorem turn (s : State) (hr : s.running = true) (a m q) (hw : s.worker = .fetched a m)
    (hq : s.queue = (a, m) :: q) :
    run s [.look, .call, .next] = .ok ({ s with queue := q, worker := front q },
      handles m (lookup m.control s.slots)) := by
  cases hl : lookup m.control s.slots <;>
    simp [hq, run, step, hw, hr, hl, handles]

/-- The callback thread alone empties the queue. -/
theorem drains (s : State) (hr : s.running = true) (a m q) (hw : s.worker = .fetched a m)
    (hq : s.queue = (a, m) :: q) :
    run s ((List.replicate s.queue.length [Event.look, .call, .next]).flatten)
      = .ok ({ s with queue := [], worker := .idle },
        (s.queue.map (fun x => handles x.2 (lookup x.2.control s.slots))).flatten) := by
  induction q generalizing s a m with
  | nil => simp [hq, turn s hr a m [] hw hq, front]
  | cons x q ih =>
    obtain ⟨b, m'⟩ := x
    have h1 := ih { s with queue := (b, m') :: q, worker := .fetched b m' } hr b m' rfl rfl
    have h2 := turn s hr a m _ hw hq
    have h3 := run_append h2 h1
    rw [hq]
    exact h3

/-! ## The table -/

/-- The listeners of the table. -/
def inTable (t : List (Option Listener)) : List Listener := t.filterMap (fun x => x)

theorem fill_some {l t t'} (h : fill l t = some t') :
    t'.length = t.length ∧ List.Perm (inTable t') (l :: inTable t) := by
  induction t generalizing t' with
  | nil => simp [fill] at h
  | cons x r ih =>
    cases x with
    | none =>
      simp only [fill, Option.some.injEq] at h
      subst h
      simp [inTable]
    | some y =>
      simp only [fill, Option.map_eq_some_iff] at h
      obtain ⟨u, hu, rfl⟩ := h
      obtain ⟨h1, h2⟩ := ih hu
      refine ⟨by simp [h1], ?_⟩
      simp only [inTable, List.filterMap_cons]
      exact (List.Perm.cons y h2).trans (List.Perm.swap l y _)

theorem fill_none {l t} : fill l t = none ↔ (inTable t).length = t.length := by
  induction t with
  | nil => simp [fill, inTable]
  | cons x r ih =>
    cases x with
    | none =>
      simp only [fill, reduceCtorEq, inTable, List.filterMap_cons, List.length_cons, false_iff]
      have := List.length_filterMap_le (fun x : Option Listener => x) r
      omega
    | some y =>
      simp only [fill, Option.map_eq_none_iff, ih, inTable, List.filterMap_cons, List.length_cons]
      omega

theorem clear_some {p t t' id} (h : clear p t = some (t', id)) :
    t'.length = t.length ∧ ∃ l ∈ inTable t, p l = true ∧ l.id = id ∧
      List.Perm (inTable t) (l :: inTable t') := by
  induction t generalizing t' with
  | nil => simp [clear] at h
  | cons x r ih =>
    cases x with
    | none =>
      simp only [clear, Option.map_eq_some_iff] at h
      obtain ⟨⟨u, i⟩, hu, hv⟩ := h
      simp only [Prod.mk.injEq] at hv
      obtain ⟨rfl, rfl⟩ := hv
      obtain ⟨h1, l, h2, h3, h4, h5⟩ := ih hu
      exact ⟨by simp [h1], l, by simpa [inTable] using h2, h3, h4, by simpa [inTable] using h5⟩
    | some y =>
      simp only [clear] at h
      split at h
      · rename_i hp
        simp only [Option.some.injEq, Prod.mk.injEq] at h
        obtain ⟨rfl, rfl⟩ := h
        exact ⟨rfl, y, by simp [inTable], hp, rfl, by simp [inTable]⟩
      · simp only [Option.map_eq_some_iff] at h
        obtain ⟨⟨u, i⟩, hu, hv⟩ := h
        simp only [Prod.mk.injEq] at hv
        obtain ⟨rfl, rfl⟩ := hv
        obtain ⟨h1, l, h2, h3, h4, h5⟩ := ih hu
        refine ⟨by simp [h1], l, ?_, h3, h4, ?_⟩
        · simp only [inTable, List.filterMap_cons, List.mem_cons]; exact .inr h2
        · simp only [inTable, List.filterMap_cons]
          exact (List.Perm.cons y h5).trans (List.Perm.swap l y _)

theorem clear_none {p t} (h : clear p t = none) : ∀ l ∈ inTable t, p l = false := by
  induction t with
  | nil => simp [inTable]
  | cons x r ih =>
    cases x with
    | none =>
      simp only [clear, Option.map_eq_none_iff] at h
      simpa [inTable] using ih h
    | some y =>
      simp only [clear] at h
      split at h
      · cases h
      · rename_i hp
        simp only [Option.map_eq_none_iff] at h
        intro l hl
        simp only [inTable, List.filterMap_cons, List.mem_cons] at hl
        rcases hl with rfl | hl
        · simpa using hp
        · exact ih h l hl

theorem lookup_eq (id : Nat) (t) :
    lookup id t = ((inTable t).find? (fun l => l.id = id)).map (·.callback) := by
  induction t with
  | nil => rfl
  | cons x r ih =>
    cases x with
    | none => simpa [lookup, inTable] using ih
    | some y =>
      simp only [lookup, inTable, List.filterMap_cons, List.find?_cons]
      by_cases hy : y.id = id
      · simp [hy]
      · simpa [hy, inTable] using ih

theorem find_perm {a b : List Listener} (hp : a.Perm b) (hn : (a.map (·.id)).Nodup) (id : Nat) :
    a.find? (fun l => l.id = id) = b.find? (fun l => l.id = id) := by
  have hnb : (b.map (·.id)).Nodup := (hp.map _).nodup_iff.mp hn
  have key : ∀ (c : List Listener), (c.map (·.id)).Nodup → ∀ l, l ∈ c → l.id = id →
      c.find? (fun l => l.id = id) = some l := by
    intro c
    induction c with
    | nil => intro _ l hl; cases hl
    | cons x c ih =>
      intro hc l hl hid
      simp only [List.map_cons, List.nodup_cons] at hc
      rw [List.find?_cons]
      by_cases hx : x.id = id
      · rcases List.mem_cons.mp hl with rfl | hl
        · simp [hx]
        · exact absurd (List.mem_map_of_mem (f := (·.id)) hl) (by rw [hid, ← hx]; exact hc.1)
      · rcases List.mem_cons.mp hl with rfl | hl
        · exact absurd hid hx
        · simp only [hx, decide_false]
          exact ih hc.2 l hl hid
  cases ha : a.find? (fun l => l.id = id) with
  | some l =>
    have h1 := List.mem_of_find?_eq_some ha
    have h2 := List.find?_some ha
    exact (key b hnb l (hp.mem_iff.mp h1) (by simpa using h2)).symm
  | none =>
    symm
    rw [List.find?_eq_none] at ha ⊢
    intro l hl
    exact ha l (hp.mem_iff.mpr hl)

theorem live_snoc (h : History) (e o) :
    live (h ++ [(e, o)]) = (match e, o with
    | .addWithId _ e cb, .added id | .add e cb, .added id => live h ++ [⟨id, e, cb⟩]
    | _, .removed id => (live h).filter (fun l => l.id ≠ id)
    | _, _ => live h) := by
  simp only [live, List.foldl_append, List.foldl_cons, List.foldl_nil]
  cases e <;> cases o <;> rfl

structure TInv (h : History) (s : State) : Prop where
  len : s.slots.length = maxListeners
  perm : List.Perm (inTable s.slots) (live h)
  nodup : ((live h).map (·.id)).Nodup

theorem FreshIds.init {h x} (hf : FreshIds (h ++ [x])) : FreshIds h := by
  intro a e id b hab
  exact hf a e id (b ++ [x]) (by simp [hab])

theorem perm_remove {a b c : List Listener} {l : Listener} (h : a.Perm (l :: b)) (h' : a.Perm c)
    (hn : (c.map (·.id)).Nodup) : b.Perm (c.filter (fun x => x.id ≠ l.id)) := by
  have h1 : (l :: b).Perm c := h.symm.trans h'
  have h2 : ((l :: b).map (·.id)).Nodup := (h1.map _).nodup_iff.mpr hn
  simp only [List.map_cons, List.nodup_cons] at h2
  have h3 := h1.filter (fun x => x.id ≠ l.id)
  rw [List.filter_cons, if_neg (by simp)] at h3
  have h4 : b.filter (fun x => decide (x.id ≠ l.id)) = b := by
    rw [List.filter_eq_self]
    intro x hx
    simp only [ne_eq, decide_eq_true_eq]
    intro he
    exact h2.1 (he ▸ List.mem_map_of_mem hx)
  rw [h4] at h3
  exact h3

theorem tinv_add {h s id e cb s' o ev} (hi : TInv h s)
    (hs : addListener s id e cb = (s', o))
    (hev : ∀ id, live (h ++ [(ev, .added id)]) = live h ++ [⟨id, e, cb⟩])
    (hev' : live (h ++ [(ev, .full)]) = live h)
    (hf : o = .added id → ∀ l ∈ live h, l.id ≠ id) : TInv (h ++ [(ev, o)]) s' := by
  unfold addListener at hs
  split at hs
  · rename_i t ht
    cases hs
    obtain ⟨h1, h2⟩ := fill_some ht
    refine ⟨by rw [← hi.len]; exact h1, ?_, ?_⟩
    · rw [hev]
      exact h2.trans ((List.Perm.cons _ hi.perm).trans (List.perm_append_comm (l₁ := [_])))
    · rw [hev, List.map_append, List.nodup_append]
      refine ⟨hi.nodup, by simp, ?_⟩
      intro x hx y hy
      obtain ⟨l, hl, rfl⟩ := List.mem_map.mp hx
      simp only [List.map_cons, List.map_nil, List.mem_singleton] at hy
      subst hy
      exact hf rfl l hl
  · cases hs
    exact ⟨hi.len, by rw [hev']; exact hi.perm, by rw [hev']; exact hi.nodup⟩

theorem tinv_remove {h s p s' o ev} (hi : TInv h s) (hs : removeListener s p = (s', o))
    (hev : ∀ id, live (h ++ [(ev, .removed id)]) = (live h).filter (fun l => l.id ≠ id))
    (hev' : live (h ++ [(ev, .notFound)]) = live h) : TInv (h ++ [(ev, o)]) s' := by
  unfold removeListener at hs
  split at hs
  · rename_i t id ht
    cases hs
    obtain ⟨h1, l, h2, h3, rfl, h5⟩ := clear_some ht
    refine ⟨by rw [← hi.len]; exact h1, ?_, ?_⟩
    · rw [hev]; exact perm_remove h5 hi.perm hi.nodup
    · rw [hev]; exact hi.nodup.sublist (List.filter_sublist.map _)
  · cases hs
    exact ⟨hi.len, by rw [hev']; exact hi.perm, by rw [hev']; exact hi.nodup⟩

theorem TInv.same {h s s' x} (hi : TInv h s) (h1 : s'.slots = s.slots)
    (h2 : live (h ++ [x]) = live h) : TInv (h ++ [x]) s' :=
  ⟨by rw [h1]; exact hi.len, by rw [h1, h2]; exact hi.perm, by rw [h2]; exact hi.nodup⟩

theorem tinv_step {h s e s' o} (hi : TInv h s) (hs : step s e = .ok (s', o))
    (hf : ∀ id, o = .added id → ∀ l ∈ live h, l.id ≠ id) : TInv (h ++ [(e, o)]) s' := by
  cases e with
  | addWithId id e cb =>
    simp only [step, Res.ok.injEq] at hs
    exact tinv_add hi hs (fun _ => by rw [live_snoc]) (by rw [live_snoc]) (hf id)
  | add e cb =>
    simp only [step, Res.ok.injEq] at hs
    exact tinv_add (s := { s with nextId := (s.nextId + 1) % 4294967296 })
      ⟨hi.len, hi.perm, hi.nodup⟩ hs (fun _ => by rw [live_snoc]) (by rw [live_snoc]) (hf _)
  | remove e =>
    simp only [step, Res.ok.injEq] at hs
    exact tinv_remove hi hs (fun _ => by rw [live_snoc]) (by rw [live_snoc])
  | removeWithId id =>
    simp only [step, Res.ok.injEq] at hs
    exact tinv_remove hi hs (fun _ => by rw [live_snoc]) (by rw [live_snoc])
  | receive m =>
    simp only [step] at hs
    split at hs <;> (cases hs; exact hi.same rfl (by rw [live_snoc]))
  | fetch =>
    simp only [step] at hs
    split at hs <;> (cases hs; try exact hi.same rfl (by rw [live_snoc]))
  | look =>
    simp only [step] at hs
    split at hs
    · split at hs <;> (cases hs; exact hi.same rfl (by rw [live_snoc]))
    · cases hs
  | call =>
    simp only [step] at hs
    split at hs <;> (cases hs; try exact hi.same rfl (by rw [live_snoc]))
  | next =>
    simp only [step] at hs
    split at hs <;> (cases hs; try exact hi.same rfl (by rw [live_snoc]))
  | stop =>
    simp only [step] at hs
    cases hs
    exact hi.same rfl (by rw [live_snoc])

theorem tinv {h s} (hx : Exec step init h s) (hf : FreshIds h) : TInv h s := by
  induction hx with
  | nil =>
    refine ⟨by simp [init], ?_, by simp [live]⟩
    simp [inTable, init, live, maxListeners]
  | @snoc h s e o s' _ hs ih =>
    refine tinv_step (ih hf.init) hs ?_
    intro id ho
    subst ho
    exact hf h e id [] rfl

/-- Checks `FreshIds` by computation. -/
def freshCheck (a : History) : History → Bool
  | [] => true
  | (e, o) :: r => (match o with
      | .added id => (live a).all (fun l => l.id ≠ id)
      | _ => true) && freshCheck (a ++ [(e, o)]) r

theorem freshCheck_sound (r : History) : ∀ a, freshCheck a r = true →
    ∀ a' e id b, r = a' ++ (e, Obs.added id) :: b → ∀ l ∈ live (a ++ a'), l.id ≠ id := by
  induction r with
  | nil => intro a _ a' e id b h; simp at h
  | cons x r ih =>
    intro a hc a' e id b h
    obtain ⟨e0, o0⟩ := x
    simp only [freshCheck, Bool.and_eq_true] at hc
    cases a' with
    | nil =>
      simp only [List.nil_append, List.cons.injEq, Prod.mk.injEq] at h
      obtain ⟨⟨rfl, rfl⟩, rfl⟩ := h
      intro l hl
      rw [List.append_nil] at hl
      have := List.all_eq_true.mp hc.1 l hl
      simpa using this
    | cons y a' =>
      simp only [List.cons_append, List.cons.injEq] at h
      obtain ⟨rfl, h⟩ := h
      have := ih _ hc.2 a' e id b h
      simpa using this

theorem FreshIds.of_check {h : History} (hc : freshCheck [] h = true) : FreshIds h := by
  intro a e id b hab
  simpa using freshCheck_sound h [] hc a e id b hab

/-! ## Ids chosen by the library -/

theorem mem_live_snoc {h : History} {e o l} (hl : l ∈ live (h ++ [(e, o)])) :
    l ∈ live h ∨ (∃ x, e = .addWithId x l.expr l.callback ∧ o = .added l.id) ∨
      (e = .add l.expr l.callback ∧ o = .added l.id) := by
  rw [live_snoc] at hl
  split at hl
  · rcases List.mem_append.mp hl with hl | hl
    · exact .inl hl
    · rw [List.mem_singleton] at hl; subst hl; exact .inr (.inl ⟨_, rfl, rfl⟩)
  · rcases List.mem_append.mp hl with hl | hl
    · exact .inl hl
    · rw [List.mem_singleton] at hl; subst hl; exact .inr (.inr ⟨rfl, rfl⟩)
  · exact .inl (List.mem_filter.mp hl).1
  · exact .inl hl

/-- How many ids a step takes from the counter. -/
def takes : Event → Nat
  | .add _ _ => 1
  | _ => 0

theorem adds_snoc (es : List Event) (e) : adds (es ++ [e]) = adds es + takes e := by
  simp only [adds, List.countP_append]
  cases e <;> rfl

theorem step_nextId {s e s' o} (hs : step s e = .ok (s', o)) :
    s'.nextId = s.nextId + takes e ∨ s'.nextId = (s.nextId + takes e) % 4294967296 := by
  cases e <;> simp only [step, addListener, removeListener] at hs <;> (repeat' split at hs) <;> cases hs <;> simp [takes]

theorem step_added {s e s' id} (hs : step s e = .ok (s', .added id)) :
    (∃ x cb, e = .addWithId id x cb) ∨ ∃ x cb, e = .add x cb ∧ id = s.nextId := by
  cases e <;> simp only [step, addListener, removeListener] at hs <;> (repeat' split at hs) <;> cases hs
  · exact .inl ⟨_, _, rfl⟩
  · exact .inr ⟨_, _, rfl, rfl⟩

theorem GoodIds.init {h x} (hf : GoodIds (h ++ [x])) : GoodIds h := by
  intro a id e cb b hab
  exact hf a id e cb (b ++ [x]) (by simp [hab])

/-- Ids chosen by the library are below its counter and new. -/
theorem ids_below {h s} (hx : Exec step init h s) (hg : GoodIds h)
    (hn : adds (h.map (·.1)) ≤ 4294967296 - 10001) :
    s.nextId = 10000 + adds (h.map (·.1)) ∧ (∀ l ∈ live h, l.id < s.nextId) ∧ FreshIds h := by
  induction hx with
  | nil => exact ⟨rfl, by simp [live], fun a e id b hab => by simp at hab⟩
  | @snoc h s e o s' hx hs ih =>
    simp only [List.map_append, List.map_cons, List.map_nil, adds_snoc] at hn ⊢
    obtain ⟨h1, h2, h3⟩ := ih hg.init (by omega)
    have hn' := step_nextId hs
    have hge : s'.nextId = s.nextId + takes e := by
      rcases hn' with hn' | hn' <;> omega
    refine ⟨by omega, ?_, ?_⟩
    · intro l hl
      rcases mem_live_snoc hl with hl | ⟨x, rfl, rfl⟩ | ⟨rfl, rfl⟩
      · have := h2 l hl; omega
      · rcases step_added hs with ⟨y, cb, he⟩ | ⟨_, _, he, _⟩
        · cases he
          have := (hg h _ _ _ [] rfl).1
          omega
        · cases he
      · rcases step_added hs with ⟨y, cb, he⟩ | ⟨_, _, he, hid⟩
        · cases he
        · simp only [takes] at hge; omega
    · intro a e' id b hab
      rcases List.eq_nil_or_concat b with rfl | ⟨b', x, rfl⟩
      · have hh := List.append_inj_left' hab rfl
        have ht := List.append_inj_right' hab rfl
        cases ht
        subst hh
        rcases step_added hs with ⟨y, cb, he⟩ | ⟨_, _, _, hid⟩
        · cases he
          exact (hg h _ _ _ [] rfl).2
        · intro l hl
          have := h2 l hl
          omega
      · have : h ++ [(e, o)] = (a ++ (e', Obs.added id) :: b') ++ [x] := by rw [hab]; simp
        exact h3 a e' id b' (List.append_inj_left' this rfl)

end Verif.Dispatch
