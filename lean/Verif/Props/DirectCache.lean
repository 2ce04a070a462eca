import Verif.Proof.DirectCache

/-!
# C99: what the file of private connections tells
-/

namespace Verif.Props

open Verif Verif.DirectCache Verif.Spec.DirectCache

/-- The largest number of connections the file can tell of is kept to. -/
def FewConnections (es : List Event) : Prop := ∀ k, (sheet (es.take k)).kept.length < 2 ^ 31

private def tv : Bytes := "Device.Tv".toUTF8.data.toList
private def radio : Bytes := "Device.Radio".toUTF8.data.toList
private def app : Bytes := "app.1".toUTF8.data.toList
private def box : Bytes := "box.2".toUTF8.data.toList
private def place : Bytes := "unix:///tmp/x".toUTF8.data.toList

/-- As long as the disk takes what is written, no sequence of starts, openings and closings makes a process read
where it must not, and a process that starts logs exactly the connections that the process of this program which
last changed its own connections had then, in the order they were opened. -/
theorem C99_told (es : List Event) (hp : ∀ e ∈ es, Plain e) (hs : FewConnections es) :
    ∃ s os, run init es = .ok (s, os) ∧ os.length = es.length ∧
      ∀ (k : Nat) p, es[k]? = some (.start p) →
        os[k]? = some (.told ((sheet (es.take k)).kept.map Conn.line)) := by
  obtain ⟨s, os, h, hl, _, hk⟩ := run_rel rel_init es hp hs
  refine ⟨s, os, h, hl, ?_⟩
  intro k p he
  have hlt : k < es.length := (List.getElem?_eq_some_iff.mp he).1
  have ho : os[k]? = some os[k] := List.getElem?_eq_getElem (by omega)
  have := hk k _ _ he ho
  simp only [says] at this
  rw [ho, this]
  rfl

example : ∃ s, run init [.open 1 place app tv, .open 1 place app radio, .close 1 app tv, .start 1] =
    .ok (s, [.opened, .opened, .closed, .told [(some radio, some app)]]) := ⟨_, rfl⟩

/-- When the process alone writes the file and no start lies between, what the next start tells are the connections
the process served when it ended. -/
theorem C99_own (es : List Event) (p : Nat) (hp : ∀ e ∈ es, Plain e)
    (hs : FewConnections (es ++ [.start p]))
    (hown : (sheet es).kept = (sheet es).live p) :
    ∃ s os, run init (es ++ [.start p]) = .ok (s, os ++ [.told (((sheet es).live p).map Conn.line)]) := by
  obtain ⟨s, os, h, hl, hk⟩ := C99_told (es ++ [.start p]) (by
    intro e he
    rw [List.mem_append, List.mem_singleton] at he
    rcases he with he | he
    · exact hp e he
    · rw [he]; trivial) hs
  refine ⟨s, os.take es.length, ?_⟩
  have h1 := hk es.length p (by simp)
  rw [List.take_left, hown] at h1
  rw [h]
  have h2 : os = os.take es.length ++ [.told (((sheet es).live p).map Conn.line)] := by
    have hlen : os.length = es.length + 1 := by rw [hl]; simp
    have hlt : es.length < os.length := by omega
    rw [List.getElem?_eq_getElem hlt, Option.some.injEq] at h1
    rw [← h1, List.take_append_getElem hlt, List.take_of_length_le (by omega)]
  rw [← h2]

example : (sheet [.open 1 place app tv]).kept = (sheet [.open 1 place app tv]).live 1 := rfl

/-- After the last connection of the only process has been closed, the next start tells of none. -/
example : ∃ s, run init [.open 1 place app tv, .gone 1 place, .start 1] =
    .ok (s, [.opened, .ended, .told []]) := ⟨_, rfl⟩

/-- The file is only logged: a process that starts serves none of the connections it is told of, and, as it does
not write the file either, is told of the same connections at every further start, although it had none. -/
theorem C99_stale_fails (p : Nat) (a c e : Bytes) (ha : 0 ∉ a) (hc : 0 ∉ c) (he : 0 ∉ e) :
    (∃ s os, run init [.open p a c e, .start p, .start p] = .ok (s, os) ∧
        os[2]? = some (.told [(some (e.take 255), some (c.take 255))])) ∧
      (sheet [.open p a c e, .start p]).live p = [] := by
  obtain ⟨s, os, h, hl, hk⟩ := C99_told [.open p a c e, .start p, .start p] (by
    intro x hx
    simp only [List.mem_cons, List.not_mem_nil, or_false] at hx
    rcases hx with hx | hx | hx
    · rw [hx]; exact ⟨ha, hc, he⟩
    · rw [hx]; trivial
    · rw [hx]; trivial) (by
    intro k
    rcases k with _ | _ | _ | k
    all_goals simp [sheet, note, Sheet.now, blank])
  refine ⟨⟨s, os, h, ?_⟩, by simp [sheet, note, Sheet.now, blank]⟩
  have := hk 2 p rfl
  rw [this]
  simp [sheet, note, Sheet.now, blank, Conn.line, short]

example : ∃ s, run init [.open 1 place app tv, .start 1, .start 1] =
    .ok (s, [.opened, .told [(some tv, some app)], .told [(some tv, some app)]]) := ⟨_, rfl⟩

/-- Two processes of the same program share the file: one that opens and closes a connection of its own removes it,
so that the other is told of nothing when it starts again although it served a connection until it ended. -/
theorem C99_shared_fails (p q : Nat) (hpq : p ≠ q) (a b c d e f : Bytes)
    (ha : 0 ∉ a) (hb : 0 ∉ b) (hc : 0 ∉ c) (hd : 0 ∉ d) (he : 0 ∉ e) (hf : 0 ∉ f)
    (hd2 : d.length < 256) (hf2 : f.length < 256) :
    (∃ s os, run init [.open p a c e, .open q b d f, .close q d f, .start p] = .ok (s, os) ∧
        os[3]? = some (.told [])) ∧
      (sheet [.open p a c e, .open q b d f, .close q d f]).live p = [⟨short a, short c, short e⟩] := by
  have sd : short d = d := List.take_of_length_le (by omega)
  have sf : short f = f := List.take_of_length_le (by omega)
  obtain ⟨s, os, h, hl, hk⟩ := C99_told [.open p a c e, .open q b d f, .close q d f, .start p] (by
    intro x hx
    simp only [List.mem_cons, List.not_mem_nil, or_false] at hx
    rcases hx with hx | hx | hx | hx
    · rw [hx]; exact ⟨ha, hc, he⟩
    · rw [hx]; exact ⟨hb, hd, hf⟩
    · rw [hx]; trivial
    · rw [hx]; trivial) (by
    intro k
    rcases k with _ | _ | _ | _ | k
    all_goals simp [sheet, note, Sheet.now, blank, sd, sf, Ne.symm hpq, hpq])
  refine ⟨⟨s, os, h, ?_⟩, by simp [sheet, note, Sheet.now, blank, sd, sf, Ne.symm hpq, hpq]⟩
  have := hk 3 p rfl
  rw [this]
  simp [sheet, note, Sheet.now, blank, sd, sf, Ne.symm hpq, hpq]

example : ∃ s, run init [.open 1 place app tv, .open 2 place box radio, .close 2 box radio, .start 1] =
    .ok (s, [.opened, .opened, .closed, .told []]) := ⟨_, rfl⟩

/-- Writing the file is not checked: if only a part gets to the disk, any part that holds the whole number of
connections makes every process of the program read from NULL when it starts, and as nothing is done about the file,
at every further start. -/
theorem C99_cut_fails (es : List Event) (hp : ∀ e ∈ es, Plain e) (hs : FewConnections es) :
    ∃ s os, run init es = .ok (s, os) ∧ ∀ f, s.file = some f → ∀ n p, n < f.length →
      numberSize (sheet es).kept.length ≤ n → run init (es ++ [.cut n, .start p]) = .ub := by
  obtain ⟨s, os, h, _, hr, _⟩ := run_rel rel_init es hp hs
  refine ⟨s, os, h, ?_⟩
  intro f hf n p hlt hn
  have hsm := hs es.length
  rw [List.take_length] at hsm
  rw [run_append, h]
  simp only [Res.ok_bind]
  rw [cut_start hr hsm hf n p hlt]
  rw [if_neg (by unfold sheet at hn; omega)]
  rfl

example : run init [.open 1 place app tv, .cut 1, .start 1] = .ub := rfl
example : run init [.open 1 place app tv, .cut 12, .start 1] = .ub := rfl

/-- A part of the file that does not hold the whole number is taken for no connections. -/
theorem C99_cut_number (es : List Event) (hp : ∀ e ∈ es, Plain e) (hs : FewConnections es) :
    ∃ s os, run init es = .ok (s, os) ∧ ∀ f, s.file = some f → ∀ n p,
      n < f.length → n < numberSize (sheet es).kept.length →
      ∃ s', run init (es ++ [.cut n, .start p]) = .ok (s', os ++ [.cut, .told []]) := by
  obtain ⟨s, os, h, _, hr, _⟩ := run_rel rel_init es hp hs
  refine ⟨s, os, h, ?_⟩
  intro f hf n p hlt hn
  have hsm := hs es.length
  rw [List.take_length] at hsm
  rw [run_append, h]
  simp only [Res.ok_bind]
  rw [cut_start hr hsm hf n p hlt]
  rw [if_pos (by unfold sheet at hn; omega)]
  exact ⟨_, rfl⟩

example : ∃ s, run init [.open 1 place app tv, .cut 0, .start 1] = .ok (s, [.opened, .cut, .told []]) :=
  ⟨_, rfl⟩

/-- A file is there whenever the last list written was not empty, so the cases above are met. -/
theorem C99_file (es : List Event) (hp : ∀ e ∈ es, Plain e) (hs : FewConnections es) :
    ∃ s os, run init es = .ok (s, os) ∧ (s.file = none ↔ (sheet es).kept = []) := by
  obtain ⟨s, os, h, _, hr, _⟩ := run_rel rel_init es hp hs
  refine ⟨s, os, h, ?_⟩
  obtain ⟨l, hl, hk, _⟩ := hr.kept
  rw [hl]
  have hk' : l.map conn = (sheet es).kept := hk
  rw [← hk']
  unfold save
  cases l with
  | nil => simp
  | cons x l => simp

example : (sheet [.open 1 place app tv]).kept ≠ [] := by decide

end Verif.Props
