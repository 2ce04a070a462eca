import Verif.Spec.Trace
import Verif.Proof.Meta
import Verif.Proof.Exec

namespace Verif.Proof.Trace

open Verif Verif.Message Verif.Trace Verif.Spec.Trace

/-- The array holds the string. -/
def Hold (a x : Bytes) : Prop := a.length = 512 ∧ (0 : UInt8) ∉ x ∧ ∃ r, a = x ++ 0 :: r

theorem Hold.cstr {a x : Bytes} (h : Hold a x) : cstr a = .ok x := by
  obtain ⟨_, hx, r, rfl⟩ := h
  rw [Verif.Trace.cstr, if_pos (by simp)]
  have ht : ∀ b ∈ x, (fun b : UInt8 => decide (b ≠ 0)) b = true := by
    intro b hb
    simp only [decide_eq_true_eq]
    rintro rfl
    exact hx hb
  rw [List.takeWhile_append_of_pos ht]
  simp

theorem Hold.short {a x : Bytes} (h : Hold a x) : x.length < 512 := by
  obtain ⟨h, _, r, rfl⟩ := h
  simp at h
  omega

theorem hold_fresh : Hold (List.replicate capacity 0) [] := by
  refine ⟨List.length_replicate, by simp, List.replicate 511 0, ?_⟩
  rw [List.nil_append, ← List.replicate_succ]
  rfl

theorem Hold.poke {a x : Bytes} (h : Hold a x) : ∃ a', poke a 0 0 = .ok a' ∧ Hold a' [] := by
  obtain ⟨hl, _, r, rfl⟩ := h
  refine ⟨_, if_pos (by omega), by simpa using hl, by simp, ?_⟩
  cases x with
  | nil => exact ⟨r, rfl⟩
  | cons b x => exact ⟨x ++ 0 :: r, rfl⟩

theorem Hold.put {a x : Bytes} (h : Hold a x) {s : Option Bytes} (hs : ∀ y, s = some y → (0 : UInt8) ∉ y) :
    ∃ a', put a s = .ok a' ∧ Hold a' (kept s) := by
  cases s with
  | none => exact h.poke
  | some s =>
    by_cases hc : 0 < s.length ∧ s.length < capacity - 1
    · have hl := h.1
      have hc' : s.length ≤ 510 := by simp only [capacity] at hc; omega
      simp only [Verif.Trace.put, hc, and_self, if_true, copyIn]
      rw [if_pos (by omega), Res.ok_bind, Verif.Trace.poke, if_pos (by simp; omega)]
      refine ⟨_, rfl, by simp; omega, ?_, ?_⟩
      · simpa [kept, hc'] using hs s rfl
      · obtain ⟨n, hn⟩ : ∃ n, a.length - s.length = n + 2 := ⟨a.length - s.length - 2, by omega⟩
        refine ⟨0 :: List.replicate n 0, ?_⟩
        rw [List.set_append_right _ _ (by omega), hn]
        simp [kept, hc', List.replicate_succ]
    · simp only [Verif.Trace.put, if_neg hc]
      have hk : kept (some s) = [] := by
        simp only [capacity] at hc
        simp only [kept]
        split
        · exact List.eq_nil_of_length_eq_zero (by omega)
        · rfl
      rw [hk]
      exact h.poke

/-- The state shows the sheet. -/
structure Rel (s : State) (w : Sheet) : Prop where
  parent : ∀ t, Hold (own s t).parent (w.has t).parent
  state : ∀ t, Hold (own s t).state (w.has t).state
  size : s.sent.length = w.sent.length
  sent : ∀ (k : Nat) m x, s.sent[k]? = some m → w.sent[k]? = some x → ∃ method, Carries m method x
  clean : ∀ (k : Nat) x, w.sent[k]? = some x → (0 : UInt8) ∉ x.parent ∧ (0 : UInt8) ∉ x.state

theorem rel_start : Rel start empty :=
  ⟨fun _ => hold_fresh, fun _ => hold_fresh, rfl, by simp [start], by simp [empty]⟩

theorem Rel.get {s w} (r : Rel s w) (t : Nat) : getContext s t = .ok ((w.has t).parent, (w.has t).state) := by
  simp only [getContext, (r.parent t).cstr, (r.state t).cstr, Res.ok_bind, Res.pure_eq]

theorem Rel.keep {s w} (r : Rel s w) (t : Nat) (c : Option Ctx) (x : Trace)
    (hp : Hold (c.getD fresh).parent x.parent) (hq : Hold (c.getD fresh).state x.state) :
    Rel (s.keep t c) (w.give t x) := by
  refine ⟨fun u => ?_, fun u => ?_, r.size, r.sent, r.clean⟩
  · by_cases h : u = t
    · simpa [own, State.keep, Sheet.give, h] using hp
    · simpa [own, State.keep, Sheet.give, h] using r.parent u
  · by_cases h : u = t
    · simpa [own, State.keep, Sheet.give, h] using hq
    · simpa [own, State.keep, Sheet.give, h] using r.state u

theorem Rel.drop {s w} (r : Rel s w) (t : Nat) : Rel (s.keep t none) (w.give t blank) :=
  r.keep t none blank hold_fresh hold_fresh

theorem Rel.set {s w} (r : Rel s w) (t : Nat) {p q : Option Bytes} (hp : ∀ y, p = some y → (0 : UInt8) ∉ y)
    (hq : ∀ y, q = some y → (0 : UInt8) ∉ y) :
    ∃ s', setContext s t p q = .ok s' ∧ Rel s' (w.give t ⟨kept p, kept q⟩) := by
  obtain ⟨a, ha, ha'⟩ := (r.parent t).put hp
  obtain ⟨b, hb, hb'⟩ := (r.state t).put hq
  refine ⟨s.keep t (some ⟨a, b⟩), by simp only [setContext, ha, hb, Res.ok_bind, Res.pure_eq], r.keep t _ _ ha' hb'⟩

theorem Rel.clear {s w} (r : Rel s w) (t : Nat) :
    ∃ s', clearContext s t = .ok s' ∧ Rel s' (w.give t blank) := by
  obtain ⟨a, ha, ha'⟩ := (r.parent t).poke
  obtain ⟨b, hb, hb'⟩ := (r.state t).poke
  refine ⟨s.keep t (some ⟨a, b⟩), by simp only [clearContext, ha, hb, Res.ok_bind, Res.pure_eq], r.keep t _ _ ha' hb'⟩

theorem Rel.send {s w} (r : Rel s w) (t : Nat) {m b : Bytes} (hm : CString m) (hb : b.length < 2 ^ 31 - 32768) :
    ∃ s' msg, send s t m b = .ok (s', .message msg) ∧ Rel s' ⟨w.has, w.sent ++ [w.has t]⟩ ∧
      Carries msg m (w.has t) ∧ s'.sent = s.sent ++ [msg] := by
  have hc : Carries (setMeta b m (w.has t).parent (w.has t).state) m (w.has t) := by
    have hp := (r.parent t)
    have hq := (r.state t)
    have h1 := hp.short
    have h2 := hq.short
    exact getMeta_setMeta b m _ _ hb hm ⟨hp.2.1, by omega⟩ ⟨hq.2.1, by omega⟩ 0
  refine ⟨_, _, by simp only [Verif.Trace.send, r.get t, Res.ok_bind, Res.pure_eq]; rfl, ?_, hc, rfl⟩
  refine ⟨r.parent, r.state, by simp [r.size], ?_, ?_⟩
  · intro k m' x h1 h2
    by_cases hk : k < s.sent.length
    · rw [List.getElem?_append_left hk] at h1
      rw [List.getElem?_append_left (by rw [← r.size]; exact hk)] at h2
      exact r.sent k m' x h1 h2
    · have hk' := r.size
      rw [List.getElem?_append_right (by omega)] at h1 h2
      rw [← hk'] at h2
      obtain ⟨n, hn⟩ : ∃ n, k - s.sent.length = n := ⟨_, rfl⟩
      rw [hn] at h1 h2
      cases n with
      | zero => simp at h1 h2; subst h1; subst h2; exact ⟨m, hc⟩
      | succ n => simp at h1
  · intro k x h2
    by_cases hk : k < w.sent.length
    · rw [List.getElem?_append_left hk] at h2
      exact r.clean k x h2
    · rw [List.getElem?_append_right (by omega)] at h2
      obtain ⟨n, hn⟩ : ∃ n, k - w.sent.length = n := ⟨_, rfl⟩
      rw [hn] at h2
      cases n with
      | zero => simp at h2; subst h2; exact ⟨(r.parent t).2.1, (r.state t).2.1⟩
      | succ n => simp at h2

theorem Rel.arriving {s w} (r : Rel s w) {k : Nat} (hk : k < w.sent.length) :
    ∃ x, w.sent[k]? = some x ∧ arriving s k = .ok (x.parent, x.state) := by
  have hk' : k < s.sent.length := by rw [r.size]; exact hk
  obtain ⟨m, h⟩ := r.sent k _ _ (List.getElem?_eq_getElem hk') (List.getElem?_eq_getElem hk)
  refine ⟨w.sent[k], List.getElem?_eq_getElem hk, ?_⟩
  simp only [Verif.Trace.arriving, List.getElem?_eq_getElem hk', show getMeta s.sent[k] 0 = _ from h, Res.ok_bind,
    Res.pure_eq]

theorem copyOut_found (s : Bytes) {l : Option Int} (h : ∀ x, l = some x → 0 < x) :
    copyOut? s l = .ok (found s l) := by
  cases l with
  | none => rfl
  | some x =>
    have := h x rfl
    simp only [copyOut?, copyOut, if_neg (show ¬ x ≤ 0 by omega), Res.ok_bind, Res.pure_eq, found, Option.map_some]
    congr 2
    rw [List.take_eq_take_iff]
    omega

/-- Traces that are kept are short. -/
def Short (w : Sheet) : Prop := ∀ x ∈ w.sent, x.parent.length ≤ 510 ∧ x.state.length ≤ 510

theorem kept_some {s : Bytes} (h : s.length ≤ 510) : kept (some s) = s := if_pos h

theorem kept_length (s : Option Bytes) : (kept s).length ≤ 510 := by
  cases s with
  | none => simp [kept]
  | some s => simp only [kept]; split <;> simp_all

structure AllShort (w : Sheet) : Prop where
  has : ∀ t, (w.has t).parent.length ≤ 510 ∧ (w.has t).state.length ≤ 510
  sent : Short w

theorem AllShort.give {w} (h : AllShort w) {t : Nat} {x : Trace} (hx : x.parent.length ≤ 510 ∧ x.state.length ≤ 510) :
    AllShort (w.give t x) := by
  refine ⟨fun u => ?_, h.sent⟩
  simp only [Sheet.give]
  split
  · exact hx
  · exact h.has u

theorem short_blank : blank.parent.length ≤ 510 ∧ blank.state.length ≤ 510 := by decide

theorem AllShort.after {w} (h : AllShort w) (e : Event) : AllShort (after w e) := by
  cases e with
  | set t b p q => cases b; exact h; exact h.give ⟨kept_length p, kept_length q⟩
  | clear t b => cases b; exact h; exact h.give short_blank
  | get => exact h
  | request t m b =>
    refine ⟨h.has, fun x hx => ?_⟩
    simp only [Spec.Trace.after, List.mem_append, List.mem_singleton] at hx
    rcases hx with hx | rfl
    · exact h.sent x hx
    · exact h.has t
  | invokeAsync t u m b =>
    refine ⟨(h.give short_blank).has, fun x hx => ?_⟩
    simp only [Spec.Trace.after, List.mem_append, List.mem_singleton] at hx
    rcases hx with hx | rfl
    · exact h.sent x hx
    · exact short_blank
  | deliver t k =>
    refine h.give ?_
    cases hk : w.sent[k]? with
    | none => exact short_blank
    | some x => exact h.sent x (List.mem_of_getElem? hk)
  | answered t b => cases b; exact h.give short_blank; exact h
  | direct => exact h
  | close => exact h.give short_blank
  | exit => exact h.give short_blank

theorem step_rel {s w} (r : Rel s w) (sh : AllShort w) {e : Event} (he : Sane w.sent.length e) :
    ∃ s' o, step s e = .ok (s', o) ∧ Rel s' (after w e) ∧ Reply w e o ∧ s'.sent = s.sent ++ messages [o] := by
  cases e with
  | set t b p q =>
    cases b with
    | false => exact ⟨s, _, rfl, r, rfl, by simp [messages]⟩
    | true =>
      obtain ⟨s', h, r'⟩ := r.set t he.1 he.2
      refine ⟨s', .success none none, by simp only [step, if_true, h, Res.ok_bind, Res.pure_eq], r', rfl, ?_⟩
      simp only [setContext] at h
      obtain ⟨_, _, h⟩ := res_bind_ok h
      obtain ⟨_, _, h⟩ := res_bind_ok h
      cases h
      simp [messages, State.keep]
  | clear t b =>
    cases b with
    | false => exact ⟨s, _, rfl, r, rfl, by simp [messages]⟩
    | true =>
      obtain ⟨s', h, r'⟩ := r.clear t
      refine ⟨s', .success none none, by simp only [step, if_true, h, Res.ok_bind, Res.pure_eq], r', rfl, ?_⟩
      simp only [clearContext] at h
      obtain ⟨_, _, h⟩ := res_bind_ok h
      obtain ⟨_, _, h⟩ := res_bind_ok h
      cases h
      simp [messages, State.keep]
  | get t b lp lq =>
    cases b with
    | false => exact ⟨s, _, rfl, r, rfl, by simp [messages]⟩
    | true =>
      refine ⟨s, .success _ _, ?_, r, rfl, by simp [messages]⟩
      simp only [step, if_true, r.get t, copyOut_found _ he.1, copyOut_found _ he.2, Res.ok_bind, Res.pure_eq]
  | request t m b =>
    obtain ⟨s', msg, h, r', hc, hs⟩ := r.send t he.1 he.2
    exact ⟨s', _, h, r', ⟨msg, rfl, hc⟩, hs⟩
  | invokeAsync t u m b =>
    obtain ⟨s', msg, h, r', hc, hs⟩ := (r.drop u).send u he.1 he.2
    have hb : (w.give u blank).has u = blank := by simp [Sheet.give]
    rw [hb] at r' hc
    exact ⟨s', _, h, r', ⟨msg, rfl, hc⟩, hs⟩
  | deliver t k =>
    obtain ⟨x, hx, ha⟩ := r.arriving (show k < w.sent.length from he)
    have hc := r.clean k x hx
    have hl := sh.sent x (List.mem_of_getElem? hx)
    obtain ⟨s', h, r'⟩ := r.set t (p := some x.parent) (q := some x.state) (fun y hy => by cases hy; exact hc.1)
      (fun y hy => by cases hy; exact hc.2)
    refine ⟨s', .silent, by simp only [step, ha, h, Res.ok_bind, Res.pure_eq], ?_, rfl, ?_⟩
    · rw [kept_some hl.1, kept_some hl.2] at r'
      simp only [Spec.Trace.after, hx, Option.getD_some]
      exact r'
    · simp only [setContext] at h
      obtain ⟨_, _, h⟩ := res_bind_ok h
      obtain ⟨_, _, h⟩ := res_bind_ok h
      cases h
      simp [messages, State.keep]
  | answered t b =>
    cases b with
    | true => exact ⟨s, _, rfl, r, rfl, by simp [messages]⟩
    | false =>
      obtain ⟨s', h, r'⟩ := r.clear t
      refine ⟨s', .silent, by simp [step, h], r', rfl, ?_⟩
      simp only [clearContext] at h
      obtain ⟨_, _, h⟩ := res_bind_ok h
      obtain ⟨_, _, h⟩ := res_bind_ok h
      cases h
      simp [messages, State.keep]
  | direct t k =>
    obtain ⟨x, hx, ha⟩ := r.arriving (show k < w.sent.length from he)
    exact ⟨s, .silent, by simp only [step, ha, Res.ok_bind, Res.pure_eq], r, rfl, by simp [messages]⟩
  | close t => exact ⟨_, _, rfl, r.drop t, rfl, by simp [messages, State.keep]⟩
  | exit t => exact ⟨_, _, rfl, r.drop t, rfl, by simp [messages, State.keep]⟩

theorem sent_after (w : Sheet) (e : Event) : (after w e).sent.length = w.sent.length + if sends e then 1 else 0 := by
  cases e <;> (try (rename_i b; cases b)) <;> simp [after, sends, Sheet.give] <;> grind [after, Sheet.give]

/-- Sane from the `n`-th message on. -/
def SaneFrom (n : Nat) (h : List Event) : Prop := ∀ a e b, h = a ++ e :: b → Sane (n + requests a) e

theorem saneFrom_cons {n e es} : SaneFrom n (e :: es) → Sane n e ∧ SaneFrom (n + if sends e then 1 else 0) es := by
  intro h
  refine ⟨by simpa [requests] using h [] e es rfl, fun a x b hx => ?_⟩
  have := h (e :: a) x b (by rw [hx]; rfl)
  simp only [requests, List.countP_cons] at this ⊢
  rw [Nat.add_assoc, Nat.add_comm (if sends e = true then 1 else 0)]
  exact this

theorem run_rel {s w} (r : Rel s w) (sh : AllShort w) (h : List Event) (hs : SaneFrom w.sent.length h) :
    ∃ s' os, run s h = .ok (s', os) ∧ Rel s' (afterAll w h) ∧ AllShort (afterAll w h) ∧ Replies w h os ∧
      s'.sent = s.sent ++ messages os ∧ (afterAll w h).sent.length = w.sent.length + requests h := by
  induction h generalizing s w with
  | nil => exact ⟨s, [], rfl, r, sh, trivial, by simp [messages], rfl⟩
  | cons e es ih =>
    obtain ⟨he, hes⟩ := saneFrom_cons hs
    obtain ⟨s1, o, h1, r1, hr, hm⟩ := step_rel r sh he
    obtain ⟨s2, os, h2, r2, sh2, hr2, hm2, hl⟩ := ih r1 (sh.after e) (by rw [sent_after]; exact hes)
    refine ⟨s2, o :: os, by simp only [run, h1, h2, Res.ok_bind, Res.pure_eq], r2, sh2, ⟨hr, hr2⟩, ?_, ?_⟩
    · rw [hm2, hm, List.append_assoc]
      congr 1
      simp only [messages, List.filterMap_cons, List.filterMap_nil]
      cases o <;> rfl
    · simp only [afterAll, List.foldl_cons] at hl ⊢
      rw [hl, sent_after]
      simp only [requests, List.countP_cons]
      omega

theorem short_empty : AllShort empty := ⟨fun _ => short_blank, fun x hx => by simp [empty] at hx⟩

theorem run_start {h : List Event} (hs : AllSane h) :
    ∃ s os, run start h = .ok (s, os) ∧ Rel s (afterAll empty h) ∧ AllShort (afterAll empty h) ∧ Replies empty h os ∧
      s.sent = messages os ∧ (afterAll empty h).sent.length = requests h := by
  obtain ⟨s, os, h1, h2, h3, h4, h5, h6⟩ := run_rel rel_start short_empty h (fun a e b hab => by
    have := hs a e b hab
    simpa [empty] using this)
  exact ⟨s, os, h1, h2, h3, h4, by simpa [start] using h5, by simpa [empty] using h6⟩

theorem afterAll_append (w : Sheet) (a b : List Event) : afterAll w (a ++ b) = afterAll (afterAll w a) b :=
  List.foldl_append

theorem untouched_step {t : Nat} {e : Event} (h : touches t e = false) (w : Sheet) : (after w e).has t = w.has t := by
  cases e <;> (try (rename_i b; cases b)) <;> simp [touches] at h <;> simp [after, Sheet.give] <;>
    grind [after, Sheet.give]

theorem untouched {t : Nat} {b : List Event} (h : ∀ e ∈ b, touches t e = false) (w : Sheet) :
    (afterAll w b).has t = w.has t := by
  induction b generalizing w with
  | nil => rfl
  | cons e b ih =>
    simp only [afterAll, List.foldl_cons]
    exact (ih (fun x hx => h x (by simp [hx])) _).trans (untouched_step (h e (by simp)) w)

theorem sent_grows_step (w : Sheet) (e : Event) : ∃ l, (after w e).sent = w.sent ++ l := by
  cases e with
  | set t b => cases b <;> exact ⟨[], by simp [after, Sheet.give]⟩
  | clear t b => cases b <;> exact ⟨[], by simp [after, Sheet.give]⟩
  | answered t b => cases b <;> exact ⟨[], by simp [after, Sheet.give]⟩
  | request => exact ⟨_, rfl⟩
  | invokeAsync => exact ⟨_, rfl⟩
  | _ => exact ⟨[], by simp [after, Sheet.give]⟩

theorem sent_grows (w : Sheet) (b : List Event) : ∃ l, (afterAll w b).sent = w.sent ++ l := by
  induction b generalizing w with
  | nil => exact ⟨[], by simp [afterAll]⟩
  | cons e b ih =>
    obtain ⟨l, hl⟩ := sent_grows_step w e
    obtain ⟨l', hl'⟩ := ih (after w e)
    refine ⟨l ++ l', ?_⟩
    simp only [afterAll, List.foldl_cons] at hl' ⊢
    rw [hl', hl, List.append_assoc]

theorem sane_prefix {a b : List Event} (h : AllSane (a ++ b)) : AllSane a := by
  intro x e y hxy
  exact h x e (y ++ b) (by rw [hxy]; simp)

theorem sent_count {h : List Event} : (afterAll empty h).sent.length = requests h := by
  have : ∀ w : Sheet, (afterAll w h).sent.length = w.sent.length + requests h := by
    induction h with
    | nil => intro w; rfl
    | cons e es ih =>
      intro w
      have := ih (after w e)
      simp only [afterAll, List.foldl_cons] at this ⊢
      rw [this, sent_after]
      simp only [requests, List.countP_cons]
      omega
  simpa [empty] using this empty

theorem behalf {h : List Event} {i j : Nat} (hs : AllSane h) (hb : Behalf h i j) :
    ∃ x, (afterAll empty h).sent[i]? = some x ∧ (afterAll empty h).sent[j]? = some x := by
  obtain ⟨a, t, b, m, body, c, rfl, hq, rfl⟩ := hb
  have hi : i < requests a := hs a (.deliver t i) (b ++ .request t m body :: c) (by simp)
  have hla := sent_count (h := a)
  obtain ⟨x, hx⟩ : ∃ x, (afterAll empty a).sent[i]? = some x :=
    ⟨_, List.getElem?_eq_getElem (by omega)⟩
  have h1 : (after (afterAll empty a) (.deliver t i)).has t = x := by
    simp [after, Sheet.give, hx]
  have h2 : (afterAll empty (a ++ .deliver t i :: b)).has t = x := by
    rw [afterAll_append]
    simp only [afterAll, List.foldl_cons]
    exact (untouched hq _).trans h1
  have h3 : (afterAll empty (a ++ .deliver t i :: b ++ [.request t m body])).sent
      = (afterAll empty (a ++ .deliver t i :: b)).sent ++ [x] := by
    rw [afterAll_append, ← h2]
    rfl
  have hl : (afterAll empty (a ++ .deliver t i :: b)).sent.length = requests a + requests b := by
    rw [sent_count]
    simp [requests, List.countP_append, List.countP_cons, sends]
  obtain ⟨l, hl'⟩ := sent_grows (afterAll empty (a ++ .deliver t i :: b ++ [.request t m body])) c
  rw [← afterAll_append, h3] at hl'
  rw [show a ++ Event.deliver t i :: b ++ Event.request t m body :: c
      = a ++ .deliver t i :: b ++ [.request t m body] ++ c by simp, hl']
  obtain ⟨l2, hl2⟩ := sent_grows (afterAll empty a) (.deliver t i :: b)
  rw [← afterAll_append] at hl2
  refine ⟨x, ?_, ?_⟩
  · rw [hl2, List.append_assoc, List.append_assoc, List.getElem?_append_left (by omega)]
    exact hx
  · rw [List.append_assoc, List.getElem?_append_right (by omega), hl]
    simp

theorem chain {h : List Event} {i j : Nat} (hs : AllSane h) (hc : Chain h i j) (hi : i < requests h) :
    ∃ x, (afterAll empty h).sent[i]? = some x ∧ (afterAll empty h).sent[j]? = some x := by
  induction hc with
  | self => exact ⟨_, List.getElem?_eq_getElem (by rw [sent_count]; exact hi), List.getElem?_eq_getElem _⟩
  | next _ hb ih =>
    obtain ⟨x, h1, h2⟩ := ih
    obtain ⟨y, h3, h4⟩ := behalf hs hb
    rw [h2] at h3
    cases h3
    exact ⟨x, h1, h4⟩

theorem replies_last {w : Sheet} {h : List Event} {e : Event} {os : List Out} (hr : Replies w (h ++ [e]) os) :
    ∃ os' o, os = os' ++ [o] ∧ Reply (afterAll w h) e o := by
  induction h generalizing w os with
  | nil =>
    match os, hr with
    | [o], hr => exact ⟨[], o, rfl, hr.1⟩
    | _ :: _ :: _, hr => exact (hr.2).elim
  | cons x h ih =>
    match os, hr with
    | o :: os, hr =>
      obtain ⟨os', o', rfl, hr'⟩ := ih hr.2
      exact ⟨o :: os', o', rfl, hr'⟩

theorem run_last {h : List Event} {e : Event} (hs : AllSane (h ++ [e])) :
    ∃ s os o, run start (h ++ [e]) = .ok (s, os ++ [o]) ∧ Reply (afterAll empty h) e o := by
  obtain ⟨s, os, h1, _, _, hr, _⟩ := run_start hs
  obtain ⟨os', o, rfl, hr'⟩ := replies_last hr
  exact ⟨s, os', o, h1, hr'⟩

theorem chain_messages {h : List Event} {i j : Nat} (hs : AllSane h) (hc : Chain h i j) (hi : i < requests h)
    {s : State} {os : List Out} (hr : run start h = .ok (s, os)) :
    ∃ m m' x, (messages os)[i]? = some m ∧ (messages os)[j]? = some m' ∧ (∃ c, Carries m c x) ∧ ∃ c, Carries m' c x := by
  obtain ⟨s', os', h1, r, _, _, hm, _⟩ := run_start hs
  rw [hr] at h1
  cases h1
  obtain ⟨x, h1, h2⟩ := chain hs hc hi
  have get : ∀ k : Nat, (afterAll empty h).sent[k]? = some x → ∃ m, s.sent[k]? = some m ∧ ∃ c, Carries m c x := by
    intro k hk
    have hlt : k < s.sent.length := by
      rw [r.size]
      exact (List.getElem?_eq_some_iff.mp hk).1
    exact ⟨_, List.getElem?_eq_getElem hlt, r.sent k _ x (List.getElem?_eq_getElem hlt) hk⟩
  obtain ⟨m, hm1, hc1⟩ := get i h1
  obtain ⟨m', hm2, hc2⟩ := get j h2
  rw [hm] at hm1 hm2
  exact ⟨m, m', x, hm1, hm2, hc1, hc2⟩

end Verif.Proof.Trace
