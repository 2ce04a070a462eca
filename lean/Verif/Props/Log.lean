import Verif.Proof.Log

/-!
# C100: what becomes of a message that is logged
-/

namespace Verif.Props

open Verif Verif.Log Verif.Spec.Log

private def noon : Clock := ⟨12, 0, 3, 45⟩
private def hello : Call := ⟨2, bytes "RBUS", bytes "/src/rbus/rbus.c", 77, bytes "hello", 9, noon⟩
private def whisper : Call := { hello with level := 1 }

/-- Whatever was called before: with a handler registered, a message goes to the one registered last, at any level;
without one it is printed if it has at least the level set last (the one of the environment at first), and else goes
nowhere. -/
theorem C100_log (env : Option Bytes) (s : State) (hs : start env = .ok s) (es : List Event) (k : Nat) (c : Call)
    (hk : es[k]? = some (.log c)) :
    match handlerAfter (es.take k) with
    | some h => ∃ file l, (run s es).2[k]? = some (.handed h c.level file l c.thread (shown c.text))
    | none => (levelAfter s.level (es.take k) ≤ c.level → (run s es).2[k]? = some (.printed (line c))) ∧
        (c.level < levelAfter s.level (es.take k) → (run s es).2[k]? = some .quiet) := by
  have hh : s.handler = none := by
    unfold start at hs
    split at hs
    · cases hs; rfl
    · split at hs
      · cases hs; rfl
      · split at hs
        · cases hs; rfl
        · cases hs
  rw [run_at s es k _ hk]
  rw [run_fst, hh]
  cases handlerAfter (es.take k) with
  | some h => exact ⟨[], 0, rfl⟩
  | none =>
    simp only [step, logPrintf, Option.none_or]
    constructor
    · intro hl
      rw [if_neg (by omega)]
    · intro hl
      rw [if_pos hl]

example : run ⟨2, none⟩ [.log whisper, .setLevel 1, .log whisper, .register (some 5), .setLevel 4, .log whisper] =
    (⟨4, some 5⟩, [.quiet, .done, .printed (line whisper), .done, .done,
      .handed 5 1 [] 0 9 (bytes "hello")]) := by decide +kernel

/-- The level a program begins with: WARN, or the one named by RT_LOG_LEVEL in letters of any size. -/
theorem C100_environment (env : Option Bytes) :
    (env = none ∨ env = some [] → start env = .ok ⟨2, none⟩) ∧
      (∀ s i name, env = some s → names[i]? = some name → Reads s name → start env = .ok ⟨i, none⟩) ∧
      (∀ s, env = some s → s ≠ [] → (∀ name ∈ names, ¬ Reads s name) → start env = .fail) := by
  have h0 : ∀ s, sameText s (bytes "debug") = true ↔ Reads s "debug" := fun s => sameText_iff s _ (by decide +kernel)
  have h1 : ∀ s, sameText s (bytes "info") = true ↔ Reads s "info" := fun s => sameText_iff s _ (by decide +kernel)
  have h2 : ∀ s, sameText s (bytes "warn") = true ↔ Reads s "warn" := fun s => sameText_iff s _ (by decide +kernel)
  have h3 : ∀ s, sameText s (bytes "error") = true ↔ Reads s "error" := fun s => sameText_iff s _ (by decide +kernel)
  have h4 : ∀ s, sameText s (bytes "fatal") = true ↔ Reads s "fatal" := fun s => sameText_iff s _ (by decide +kernel)
  refine ⟨?_, ?_, ?_⟩
  · rintro (h | h) <;> subst h <;> rfl
  · intro s i name he hi hr
    subst he
    have hne : s.length ≠ 0 := by
      intro hz
      have : s = [] := List.eq_nil_of_length_eq_zero hz
      subst this
      unfold Reads at hr
      rcases i with _ | _ | _ | _ | _ | i
      all_goals simp only [names, List.getElem?_cons_succ, List.getElem?_cons_zero, List.getElem?_nil,
        Option.some.injEq, reduceCtorEq] at hi
      all_goals subst hi
      all_goals revert hr
      all_goals decide +kernel
    have hq : ∀ b, sameText s b = (bytes name == b.map Text.lower) := by
      intro b
      unfold sameText
      rw [hr]
    simp only [start, hne, if_false, named, hq]
    rcases i with _ | _ | _ | _ | _ | i
    all_goals simp only [names, List.getElem?_cons_succ, List.getElem?_cons_zero, List.getElem?_nil,
      Option.some.injEq, reduceCtorEq] at hi
    all_goals subst hi
    all_goals decide +kernel
  · intro s he hne hr
    subst he
    have hz : s.length ≠ 0 := fun h => hne (List.eq_nil_of_length_eq_zero h)
    simp only [start, hz, if_false, named, h0, h1, h2, h3, h4,
      hr "debug" (by simp [names]), hr "info" (by simp [names]), hr "warn" (by simp [names]),
      hr "error" (by simp [names]), hr "fatal" (by simp [names])]

example : start (some (bytes "Info")) = .ok ⟨1, none⟩ := by decide +kernel
example : start (some (bytes "loud")) = .fail := by decide +kernel

/-- Turning a level into its name and back gives the level; a text that names none gives the level that is set. -/
theorem C100_names (s : State) :
    (∀ l, l ≤ 4 → fromString s (some (levelName l)) = l) ∧
      ∀ t, (∀ name ∈ names, ¬ Reads t name) → fromString s (some t) = s.level := by
  constructor
  · intro l h
    have h' : l = 0 ∨ l = 1 ∨ l = 2 ∨ l = 3 ∨ l = 4 := by omega
    have : ∀ l ∈ [0, 1, 2, 3, 4], named (levelName l) = some l := by decide +kernel
    unfold fromString
    simp only []
    rw [this l (by simpa using h')]
    rfl
  · intro t hr
    unfold fromString named
    simp only [sameText_iff t "debug" (by decide +kernel), sameText_iff t "info" (by decide +kernel),
      sameText_iff t "warn" (by decide +kernel), sameText_iff t "error" (by decide +kernel),
      sameText_iff t "fatal" (by decide +kernel),
      hr "debug" (by simp [names]), hr "info" (by simp [names]), hr "warn" (by simp [names]),
      hr "error" (by simp [names]), hr "fatal" (by simp [names]), if_false, Option.getD_none]

example : fromString ⟨3, none⟩ (some (bytes "quiet")) = 3 := by decide +kernel

/-- A text of up to 1022 bytes is shown whole. -/
theorem C100_whole (t : Bytes) (h0 : 0 ∉ t) (h : t.length ≤ 1022) : shown t = t := by
  rw [shown_short h0 (by omega), List.take_of_length_le h]

/-- A text of 1024 bytes or more is cut, and ends in three dots. -/
theorem C100_marked_partial (t : Bytes) (h0 : 0 ∉ t) (h : 1024 ≤ t.length) :
    shown t = t.take 1020 ++ bytes "..." := by
  rw [shown_long h0 (by omega)]
  rfl

/-- A text of exactly 1023 bytes loses its last byte without any mark: it is shown as a shorter text would be, whose
message is whole. -/
theorem C100_marked_fails (t : Bytes) (h0 : 0 ∉ t) (h : t.length = 1023) :
    shown t ≠ t ∧ shown t = shown (t.take 1022) ∧ (t.take 1022).length = 1022 := by
  have h1 : shown t = t.take 1022 := shown_short h0 (by omega)
  have hl : (t.take 1022).length = 1022 := by rw [List.length_take]; omega
  refine ⟨?_, ?_, hl⟩
  · intro hh
    have := congrArg List.length (h1.symm.trans hh)
    omega
  · rw [h1, C100_whole _ (fun hh => h0 (List.mem_of_mem_take hh)) (by omega)]

example : (0 : UInt8) ∉ List.replicate 1023 (65 : UInt8) ∧ (List.replicate 1023 (65 : UInt8)).length = 1023 :=
  ⟨fun h => absurd (List.eq_of_mem_replicate h) (by decide), List.length_replicate⟩

/-- Every text fits into the buffer, and is shown without bytes it does not have, but for the dots. -/
theorem C100_bound (t : Bytes) (h0 : 0 ∉ t) : (shown t).length ≤ 1023 := by
  by_cases h : t.length ≤ 1023
  · rw [shown_short h0 h, List.length_take]; omega
  · rw [shown_long h0 (by omega), List.length_append, List.length_take]
    simp only [List.length_cons, List.length_nil]
    omega

/-- A printed line has the module, the level, the file without its directories, the line, the thread and the text, in
this order, and ends there. -/
theorem C100_line (c : Call) (base : Bytes) (hf : Path c.file base) :
    ∃ time, line c = time ++ bytes "  " ++ padRight 10 c.module' ++ bytes " " ++ padLeft 5 (levelName c.level) ++
      bytes " " ++ base ++ bytes ":" ++ Text.signedText c.line ++ bytes " -- Thread-" ++ Text.signedText c.thread ++
      bytes ": " ++ shown c.text ++ bytes "\n" := by
  refine ⟨digits 2 c.time.hour ++ [58] ++ digits 2 c.time.min ++ [58] ++ digits 2 c.time.sec ++ [46] ++
    digits 6 c.time.usec, ?_⟩
  unfold line
  rw [trim_path hf]
  rfl

example : line hello = bytes "12:00:03.000045  RBUS        WARN rbus.c:77 -- Thread-9: hello\n" := by decide +kernel
example : Path hello.file (bytes "rbus.c") := by
  have h : hello.file = bytes "/src/rbus" ++ 47 :: bytes "rbus.c" := by decide +kernel
  rw [h]
  exact .inside (by decide +kernel)

/-- A handler is never told where a message comes from: the file is always empty and the line 0. -/
theorem C100_place_fails (s : State) (es : List Event) (k : Nat) (c : Call) (hk : es[k]? = some (.log c))
    (h level : Nat) (file : Bytes) (l : Int) (t : Int) (m : Bytes)
    (ho : (run s es).2[k]? = some (.handed h level file l t m)) : file = [] ∧ l = 0 := by
  rw [run_at s es k _ hk] at ho
  simp only [step, logPrintf] at ho
  split at ho
  · cases ho; exact ⟨rfl, rfl⟩
  · split at ho <;> cases ho

/-- Once a handler has been registered, nothing is printed any more whatever is called, and no level keeps a message
from the handlers: `rbus_setLogLevel` says it succeeded, and changes nothing. -/
theorem C100_back_fails (s : State) (es : List Event) (i k : Nat) (h : Nat) (c : Call) (hi : i < k)
    (hr : es[i]? = some (.register (some h))) (hk : es[k]? = some (.log c)) :
    ∃ h' file l, (run s es).2[k]? = some (.handed h' c.level file l c.thread (shown c.text)) := by
  rw [run_at s es k _ hk, run_fst]
  have hm : h ∈ (es.take k).filterMap asksHandler := by
    rw [List.mem_filterMap]
    refine ⟨.register (some h), ?_, rfl⟩
    apply List.mem_of_getElem? (i := i)
    rw [List.getElem?_take_of_lt hi]
    exact hr
  have : ∃ h', handlerAfter (es.take k) = some h' := by
    unfold handlerAfter
    cases hl : (es.take k).filterMap asksHandler with
    | nil => rw [hl] at hm; cases hm
    | cons a l => exact ⟨_, List.getLast?_eq_some_getLast (List.cons_ne_nil a l)⟩
  obtain ⟨h', hh⟩ := this
  rw [hh]
  exact ⟨h', [], 0, rfl⟩

example : (run ⟨2, none⟩ [.register (some 5), .register none, .setLevel 4, .log whisper]).2 =
    [.done, .invalid, .done, .handed 5 1 [] 0 9 (bytes "hello")] := by decide +kernel

end Verif.Props
