import Verif.Proof.Timeout
import Verif.Model.Element
import Verif.Proof.RowsUse
/-!
# How long a call waits: theorems
-/

namespace Verif.Props

open Model.Timeout Spec.Timeout Proof.Timeout

private def text (s : String) : Bytes := s.toUTF8.data.toList

private def noEnv : Kind → Option Bytes := fun _ => none

private def noFiles : Files := fun _ => none

private def oneFile (name content : Bytes) : Files := fun n => if n = name then some content else none

/-- In every history of opening, closing, configuring and calling, on any number of handles, with the environment and the files as
they are at each moment, every call waits as the latest configuration of its kind on its handle and the file of its kind say, and
nothing is undefined. Missing: names of programs longer than 89 characters, numbers that do not fit, variables that hold no
positive number, configuring a handle that is closed (see the findings). -/
theorem C107_waits_partial (prog : Bytes) (hp : prog.length ≤ 89) (es : List Event) (hg : Good prog es.reverse) :
    ∃ s, run prog start es = .ok (s, answers prog [] es) :=
  Rel.run hp es start_rel (by simpa using hg)

private def demo : List Event :=
  [.open 1 noEnv, .open 2 (fun k => if k = .set then some (text "7000") else none),
   .config 1 .get 2000, .call 1 .get noFiles, .call 2 .get noFiles, .call 2 .set noFiles,
   .configAll 2 ⟨1, 2, 3, 4, 5⟩, .call 2 (.setMulti 1 0) noFiles, .config 2 .setMulti 0, .call 2 (.setMulti 3 0) noFiles,
   .call 1 .get (oneFile (text "/tmp/rbus_app_timeout_get") (text "30\n")), .close 1, .call 1 .get noFiles]

example : answers (text "app") [] demo =
    [.done, .done, .done, .waits 2000, .waits 15000, .waits 7000, .done, .waits 4, .done, .waits 60000, .waits 30000, .done, .refused] := by
  decide +kernel

private theorem noFiles_good (prog : Bytes) (k : Kind) : GoodFile prog noFiles k := fun _ _ _ h => by cases h

private theorem noEnv_good : GoodEnv noEnv := fun _ _ h => by cases h

example : Good (text "app") demo.reverse := by
  refine ⟨⟨⟨⟨⟨⟨⟨⟨⟨⟨⟨⟨⟨trivial, noEnv_good⟩, ?_⟩, ?_⟩, noFiles_good _ _⟩, noFiles_good _ _⟩, noFiles_good _ _⟩, ?_⟩, noFiles_good _ _⟩, ?_⟩,
    noFiles_good _ _⟩, ?_⟩, trivial⟩, noFiles_good _ _⟩
  · intro k t h _
    have hk : k = .set := by
      cases k <;> first | rfl | cases h
    subst hk
    cases h
    refine ⟨?_, by decide +kernel, by decide +kernel⟩
    unfold Unsigned
    decide +kernel
  · decide +kernel
  · decide +kernel
  · decide +kernel
  · intro name t hn ht
    cases hn
    have : t = text "30\n" := by
      have h' : oneFile (text "/tmp/rbus_app_timeout_get") (text "30\n") (text "/tmp/rbus_app_timeout_get") = some t := ht
      unfold oneFile at h'
      simp at h'
      exact h'.symm
    subst this
    refine ⟨?_, by decide +kernel, by decide +kernel⟩
    unfold Unsigned
    decide +kernel

/-- What counts as a number in a file or a variable: digits after blanks, followed by anything else. -/
theorem C107_number (blanks rest : Bytes) (n : Nat) (hb : ∀ c ∈ blanks, blank c = true) (hr : ∀ c ∈ rest.head?, digit c = false) :
    number (blanks ++ (Element.decimal n ++ rest)) = n ∧ Unsigned (blanks ++ (Element.decimal n ++ rest)) ∧
      ending (blanks ++ (Element.decimal n ++ rest)) = blanks.length + (Element.decimal n).length := by
  have hd : ∀ c ∈ Element.decimal n, digit c = true := by
    intro c hc
    have := RowsProof.decimal_digits n c hc
    simp [digit, this.1, this.2]
  have hne : Element.decimal n ≠ [] := by
    unfold Element.decimal
    simp
  have hp : Parts (blanks ++ (Element.decimal n ++ rest)) blanks (Element.decimal n) rest :=
    ⟨rfl, hb, hd, fun c hc => ⟨hr c hc, fun h => absurd h hne⟩⟩
  refine ⟨?_, ?_, hp.ending⟩
  · rw [hp.number]
    unfold valueOf
    rw [RowsProof.fold_decimal n 0]
    omega
  · intro c hc
    rw [hp.facts.2.1] at hc
    cases hx : Element.decimal n with
    | nil => exact absurd hx hne
    | cons x r =>
      rw [hx] at hc
      simp at hc
      subst hc
      have := RowsProof.decimal_digits n x (by rw [hx]; simp)
      omega

example : number (text " 12 s") = 12 := by decide +kernel

/-- The files are read anew for each call and change nothing: a call leaves every handle as it was. -/
theorem C107_unchanged (prog : Bytes) (s s' : State) (i : Nat) (a : Api) (fs : Files) (o : Out)
    (h : step prog s (.call i a fs) = .ok (s', o)) : s' = s := by
  unfold step at h
  simp only [] at h
  cases hs : s i with
  | none => rw [hs] at h; cases h; rfl
  | some v =>
    rw [hs] at h
    obtain ⟨ms, _, h⟩ := res_bind_ok h
    cases h
    rfl

private theorem one_get (prog : Bytes) (env : Kind → Option Bytes) (a : Api) (fs : Files) (v : Values) (hv : valuesInit env = .ok v) :
    run prog start [.open 1 env, .call 1 a fs] =
      (do let ms ← wait prog fs v a; return ((start.put 1 (some v)), [.done, .waits ms])) := by
  unfold run step
  simp only [hv, Res.ok_bind, Res.pure_eq]
  unfold run step
  simp only [State.put, if_true]
  cases wait prog fs v a <;> rfl

private def plain : Values := ⟨15000, 15000, 120000, 60000, 600000⟩

private theorem fetch_file {prog : Bytes} {fs : Files} {v : Values} {k : Kind} {t : Bytes} {n : Int} (hk : k ≠ .subscribe)
    (hf : fs (fileName prog k) = some t) (hne : t ≠ []) (ha : atoi (buffer t) = .ok n) (hn : 0 < n) :
    fetch prog fs v k = if n * 1000 < 2 ^ 31 then .ok (BitVec.ofInt 32 (n * 1000)) else .ub := by
  unfold fetch inFile
  rw [if_neg hk, hf]
  cases t with
  | nil => exact absurd rfl hne
  | cons c t =>
    simp only []
    rw [ha]
    simp only [Res.ok_bind, hn, if_true]

/-- A number of seconds that in milliseconds is no `int` makes the next call undefined, here 2147484 (rbus_handle.c:253). -/
theorem C107_overflow_fails (prog : Bytes) :
    run prog start [.open 1 noEnv, .call 1 .get (fun _ => some (text "2147484\n"))] = .ub := by
  rw [one_get prog noEnv .get _ plain rfl]
  unfold wait
  simp only []
  rw [fetch_file (t := text "2147484\n") (n := 2147484) (by decide) rfl (by decide +kernel) (by decide +kernel) (by decide)]
  rfl

/-- The buffer has no room for a terminator: a file of 25 digits is read on past the buffer (rbus_handle.c:240-249). -/
theorem C107_long_fails (prog : Bytes) :
    run prog start [.open 1 noEnv, .call 1 .get (fun _ => some (text "0000000000000000000000030"))] = .ub := by
  rw [one_get prog noEnv .get _ plain rfl]
  have ha : inFile (fun _ => some (text "0000000000000000000000030")) (fileName prog .get) = .ub := by
    have : atoi (buffer (text "0000000000000000000000030")) = .ub := by decide +kernel
    exact this
  unfold wait fetch
  simp only [ha]
  rfl

/-- A number of seconds is cut to an `int`: 4294967297 seconds in the file are one second. -/
theorem C107_cut_fails (prog : Bytes) :
    ∃ s, run prog start [.open 1 noEnv, .call 1 .get (fun _ => some (text "4294967297\n"))] = .ok (s, [.done, .waits 1000]) := by
  refine ⟨start.put 1 (some plain), ?_⟩
  rw [one_get prog noEnv .get _ plain rfl]
  unfold wait
  simp only []
  rw [fetch_file (t := text "4294967297\n") (n := 1) (by decide) rfl (by decide +kernel) (by decide +kernel) (by decide)]
  rfl

/-- The name of the file is cut at 126 characters: for a program whose name has 104 characters the file for getting one value
also rules queries with wildcards, whose own file is not looked at. -/
theorem C107_names_fails (prog : Bytes) (hp : prog.length = 104) (content : Bytes) (own : Option Bytes) :
    ∃ get wild, file prog .get = some get ∧ file prog .getMulti = some wild ∧ get ≠ wild ∧
      (∀ fs : Files, fs get = some content → fs wild = own → ∀ v, fetch prog fs v .getMulti =
        (do let n ← inFile (fun _ => some content) []
            if 0 < n then (if n * 1000 < 2 ^ 31 then .ok (BitVec.ofInt 32 (n * 1000)) else .ub) else .ok v.getMulti)) := by
  refine ⟨_, _, rfl, rfl, ?_, ?_⟩
  · intro h
    have h12 : "_timeout_get".toUTF8.data.toList.length = 12 := by decide +kernel
    have h27 : "_timeout_get_wildcard_query".toUTF8.data.toList.length = 27 := by decide +kernel
    have := congrArg List.length h
    simp only [List.length_append, h12, h27] at this
    omega
  · intro fs hget _ v
    have hn : fileName prog .getMulti = "/tmp/rbus_".toUTF8.data.toList ++ prog ++ "_timeout_get".toUTF8.data.toList := by
      have h10 : "/tmp/rbus_".toUTF8.data.toList.length = 10 := by decide +kernel
      have hs : suffix .getMulti = "_timeout_get".toUTF8.data.toList ++ "_wildcard_query".toUTF8.data.toList := by decide +kernel
      have h12 : "_timeout_get".toUTF8.data.toList.length = 12 := by decide +kernel
      unfold fileName
      rw [hs, ← List.append_assoc, List.take_append_of_le_length (by simp only [List.length_append, h10, h12]; omega),
        List.take_of_length_le (by simp only [List.length_append, h10, h12]; omega)]
    unfold fetch
    rw [if_neg (by decide), hn]
    unfold inFile
    rw [hget]
    rfl

example : fetch (List.replicate 104 97) (oneFile (text "/tmp/rbus_" ++ List.replicate 104 97 ++ text "_timeout_get") (text "3")) plain .getMulti
    = .ok 3000 := by decide +kernel

/-- A variable of the environment that holds no number makes every call of its kind fail at once, whereas a file without a number
is ignored and 0 configured stands for the built-in time. -/
theorem C107_env_fails (prog : Bytes) : ∃ s,
    run prog start [.open 1 (fun k => if k = .get then some (text "long") else none), .call 1 .get noFiles,
      .call 1 .get (fun _ => some (text "long")), .config 1 .get 0, .call 1 .get noFiles] =
      .ok (s, [.done, .waits 0, .waits 0, .done, .waits 15000]) := ⟨_, rfl⟩

/-- Configuring 0 gives the built-in time, not the one the environment had given when the handle was opened. -/
theorem C107_reset_fails (prog : Bytes) : ∃ s,
    run prog start [.open 1 (fun k => if k = .set then some (text "7000") else none), .call 1 .set noFiles,
      .config 1 .set 0, .call 1 .set noFiles] = .ok (s, [.done, .waits 7000, .done, .waits 15000]) := ⟨_, rfl⟩

/-- A time for subscribing of 2³¹ ms or more, which can be configured, is below zero when it is used: the search for a provider is
given up at once (rbus.c:5067, 5101). -/
theorem C107_subscribe_fails (prog : Bytes) (t : BitVec 32) (ht : 2 ^ 31 ≤ t.toNat) : ∃ s ms,
    run prog start [.open 1 noEnv, .config 1 .subscribe t, .call 1 (.subscribe (-1)) noFiles] = .ok (s, [.done, .done, .waits ms]) ∧
      ms < 0 := by
  have hz : t ≠ 0 := by
    intro h
    rw [h] at ht
    exact absurd ht (by decide)
  have hc : config plain .subscribe t = ⟨15000, 15000, 120000, 60000, t⟩ := by
    unfold config
    rw [if_pos hz]
    rfl
  have h1 : step prog start (.open 1 noEnv) = .ok (start.put 1 (some plain), .done) := rfl
  have h2 : step prog (start.put 1 (some plain)) (.config 1 .subscribe t) =
      .ok ((start.put 1 (some plain)).put 1 (some ⟨15000, 15000, 120000, 60000, t⟩), .done) := by
    rw [← hc]; rfl
  have h3 : step prog ((start.put 1 (some plain)).put 1 (some ⟨15000, 15000, 120000, 60000, t⟩)) (.call 1 (.subscribe (-1)) noFiles) =
      .ok ((start.put 1 (some plain)).put 1 (some ⟨15000, 15000, 120000, 60000, t⟩), .waits t.toInt) := rfl
  refine ⟨(start.put 1 (some plain)).put 1 (some ⟨15000, 15000, 120000, 60000, t⟩), t.toInt, ?_, ?_⟩
  · simp only [run, h1, h2, h3, Res.ok_bind, Res.pure_eq]
  · rw [BitVec.toInt_eq_toNat_cond]
    split <;> omega

example : (2 : Nat) ^ 31 ≤ (3000000000 : BitVec 32).toNat := by decide

/-- A time in seconds given for an asynchronous call whose milliseconds are no `int` makes the call undefined (rbus.c:6193). -/
theorem C107_async_fails (prog : Bytes) (t : BitVec 32) (ht : 2147484 ≤ t.toInt) :
    run prog start [.open 1 noEnv, .call 1 (.invokeAsync t) noFiles] = .ub := by
  rw [one_get prog noEnv _ _ plain rfl]
  unfold wait millis
  simp only []
  rw [if_pos (by omega), if_neg (by omega)]
  rfl

example : (2147484 : Int) ≤ (2147484 : BitVec 32).toInt := by decide

/-- A handle that was closed is used when it is configured; other calls refuse it. -/
theorem C107_closed_fails (prog : Bytes) (k : Kind) (t : BitVec 32) :
    run prog start [.open 1 noEnv, .close 1, .config 1 k t] = .ub ∧
      ∃ s, run prog start [.open 1 noEnv, .close 1, .call 1 .get noFiles] = .ok (s, [.done, .done, .refused]) :=
  ⟨rfl, _, rfl⟩

end Verif.Props
