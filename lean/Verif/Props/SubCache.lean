import Verif.Proof.SubCache
import Verif.Model.Restart

/-!
# C30, C31: the subscription cache file

`save rs`: the file a provider leaves behind (`none`: no file). `load env file`: the subscriptions a new process
starts with and the file afterwards; `.ub` stands for reading outside what was read from the file.
`Alive env r`: the process and the component that made the subscription still run. `Ordinary r`: a subscription
as consumers make them; see Spec/SubCache.
-/

namespace Verif.Props

open Verif Verif.SubCache Verif.Filter Verif.Value
open Verif.Spec.SubCache

/-! ## Subscriptions for the examples -/

/-- Process 7 runs, with component 1; process 8 does not. -/
def seven : SubCache.Env := { running := fun p => p = 7, present := fun p c => p = 7 && c = 1 }

/-- A subscription to `e` by the process with the given digit, with a filter. -/
def kept (digit : UInt8) (f : Filter) : Rec :=
  ⟨[97, 46, digit], [101], 1, 5, 0, true, 9, false, f⟩

theorem kept_ordinary (digit : UInt8) (f : Filter) (h : digit = 55 ∨ digit = 56) (hf : f = .null ∨ Storable f) :
    Ordinary (kept digit f) := by
  refine ⟨?_, by simp [kept], by simp [kept], by simp [kept], hf⟩
  rcases h with rfl | rfl
  · exact ⟨7, by decide, by simp [kept], [97], [55], rfl, by decide, by decide⟩
  · exact ⟨8, by decide, by simp [kept], [97], [56], rfl, by decide, by decide⟩

theorem kept_alive (f : Filter) : Alive seven (kept 55 f) :=
  ⟨7, ⟨by decide, by simp [kept], [97], [55], rfl, by decide, by decide⟩, by decide, by simp [seven, kept]⟩

theorem kept_dead (f : Filter) : ¬ Alive seven (kept 56 f) := by
  rintro ⟨p, hp, hr, _⟩
  have h8 : Inbox (kept 56 f).listener 8 := ⟨by decide, by simp [kept], [97], [56], rfl, by decide, by decide⟩
  have := inbox_unique hp h8
  subst this
  simp [seven] at hr

/-! ## C30: what a new process finds -/

/-- C30 (partial: subscriptions whose names are shorter than 255 characters, whose listener ends with a process
number, and whose filters are built without NOT and with values that can be stored). A new process gets exactly
the subscriptions whose consumers still run, in the order they had and with all their attributes, and leaves
the file as if it had saved these. -/
theorem C30_restored_partial (env : SubCache.Env) [DecidablePred (Alive env)] (rs : List Rec)
    (h : ∀ r ∈ rs, Ordinary r) :
    ∃ f f', save rs = .ok f ∧ load env f = .ok (rs.filter (Alive env ·), f') ∧
      save (rs.filter (Alive env ·)) = .ok f' :=
  ⟨_, _, save_ok fun r hr => (h r hr).writable, load_whole h, save_ok (Alive.ordinary_filter h)⟩

example : ∃ f f', save [kept 55 (.relation opGT (.int32 3)), kept 56 .null, kept 55 .null] = .ok f ∧
    load seven f = .ok ([kept 55 (.relation opGT (.int32 3)), kept 55 .null], f') := by
  classical
  obtain ⟨f, f', h1, h2, _⟩ := C30_restored_partial seven
    [kept 55 (.relation opGT (.int32 3)), kept 56 .null, kept 55 .null] (by
      intro r hr
      simp only [List.mem_cons, List.not_mem_nil, or_false] at hr
      rcases hr with rfl | rfl | rfl
      · exact kept_ordinary _ _ (Or.inl rfl) (Or.inr ⟨by decide, trivial⟩)
      · exact kept_ordinary _ _ (Or.inr rfl) (Or.inl rfl)
      · exact kept_ordinary _ _ (Or.inl rfl) (Or.inl rfl))
  refine ⟨f, f', h1, ?_⟩
  rw [h2]
  simp [kept_alive, kept_dead]

/-- C30 fails for names of 255 characters and more. Such a subscription, the ones saved after it and the file are
lost. -/
theorem C30_long_name_fails (env : SubCache.Env) [DecidablePred (Alive env)] (a c : List Rec) (r : Rec)
    (ha : ∀ x ∈ a, Ordinary x) (hc : ∀ x ∈ c, Ordinary x) (hf : r.filter = .null) (h0 : r.listener.length < 255)
    (h1 : 255 ≤ r.eventName.length) (h2 : r.eventName.length < 65535) :
    ∃ f, save (a ++ r :: c) = .ok f ∧ load env f = .ok (a.filter (Alive env ·), none) := by
  have hw : ∀ x ∈ a ++ r :: c, Writable x := by
    intro x hx
    simp only [List.mem_append, List.mem_cons] at hx
    rcases hx with hx | rfl | hx
    · exact (ha x hx).writable
    · exact ⟨by omega, h2, Or.inl hf⟩
    · exact (hc x hx).writable
  have hgt := recImage_gt r
  refine ⟨_, save_ok hw, ?_⟩
  rw [fileOf, if_neg (by simp), List.flatMap_append]
  have hbig : 64 < (a.flatMap recImage ++ (r :: c).flatMap recImage).length := by
    simp only [List.flatMap_cons, List.length_append]; omega
  refine load_stops ha (by simp only [List.flatMap_cons, List.length_append]; omega) ?_
  exact readRec_long (pre := a.flatMap recImage) (post := c.flatMap recImage)
    (Or.inr ⟨h0, h1, h2⟩) (by simp [fileBuf]) rfl (fileBuf_alloc _ hbig)

example : ∃ f, save [kept 55 .null, { kept 55 .null with eventName := List.replicate 255 101 }, kept 55 .null]
    = .ok f ∧ load seven f = .ok ([kept 55 .null], none) := by
  classical
  obtain ⟨f, h1, h2⟩ := C30_long_name_fails seven [kept 55 .null] [kept 55 .null]
    { kept 55 .null with eventName := List.replicate 255 101 }
    (by simpa using kept_ordinary 55 .null (Or.inl rfl) (Or.inl rfl))
    (by simpa using kept_ordinary 55 .null (Or.inl rfl) (Or.inl rfl)) rfl (by simp [kept])
    (by rw [List.length_replicate]; omega) (by rw [List.length_replicate]; omega)
  exact ⟨f, h1, by rw [h2]; simp [kept_alive]⟩

/-- C30 fails for filters with NOT. A subscription with such a filter, the ones saved after it and the file are
lost. -/
theorem C30_not_filter_fails (env : SubCache.Env) [DecidablePred (Alive env)] (a c : List Rec) (r x : Rec)
    (e : Filter) (ha : ∀ y ∈ a, Ordinary y) (hc : ∀ y ∈ x :: c, Ordinary y) (he : Storable e)
    (hf : r.filter = .logic opNOT e .null) (h1 : r.listener.length < 255) (h2 : r.eventName.length < 255) :
    ∃ f, save (a ++ r :: x :: c) = .ok f ∧ load env f = .ok (a.filter (Alive env ·), none) := by
  have hw : ∀ y ∈ a ++ r :: x :: c, Writable y := by
    intro y hy
    rw [List.mem_append, List.mem_cons] at hy
    rcases hy with hy | rfl | hy
    · exact (ha y hy).writable
    · exact ⟨by omega, by omega, Or.inr (Or.inr ⟨_, _, hf, he⟩)⟩
    · exact (hc y hy).writable
  have hgt := recImage_gt r
  refine ⟨_, save_ok hw, ?_⟩
  rw [fileOf, if_neg (by simp), List.flatMap_append]
  have hbig : 64 < (a.flatMap recImage ++ (r :: x :: c).flatMap recImage).length := by
    simp only [List.flatMap_cons, List.length_append]; omega
  refine load_stops ha (by simp only [List.flatMap_cons, List.length_append]; omega) ?_
  exact readRec_not (pre := a.flatMap recImage) (r := r) (x := x) (post := c.flatMap recImage)
    (op := opNOT) (by decide) he hf h1 h2 (by simp [fileBuf]) rfl (fileBuf_alloc _ hbig)

example : ∃ f, save [kept 55 (.logic opNOT (.relation opEQ (.int32 3)) .null), kept 55 .null] = .ok f ∧
    load seven f = .ok ([], none) := by
  classical
  exact C30_not_filter_fails seven [] [] (kept 55 (.logic opNOT (.relation opEQ (.int32 3)) .null)) (kept 55 .null)
    (.relation opEQ (.int32 3)) (by simp) (by simpa using kept_ordinary 55 .null (Or.inl rfl) (Or.inl rfl))
    ⟨by decide, trivial⟩ rfl (by simp [kept]) (by simp [kept])

/-- A raw-data subscription to `A.e` with the given number. -/
def rawKept (id : BitVec 32) : Rec := ⟨[97, 46, 55], [65, 46, 101], 1, 0, 0, false, id, true, .null⟩

/-- What is seen of a provider's subscriptions: listener, event and number of each. -/
def rememberedBy : Res (Subs.State × List (Option Nat)) → Option (List (Bytes × Bytes × Nat))
  | .ok (s, _) => some (s.subs.map (fun x => (x.key.listener, x.key.eventName, x.subscriptionId)))
  | _ => none

/-- C30 fails for the number of a subscription, under which raw data is sent to the consumer: when the new
process registers the event, a restored subscription with number 9 goes on with number 3. -/
theorem C30_number_fails :
    ∃ f s, save [rawKept 9] = .ok f ∧ load seven f = .ok ([rawKept 9], f) ∧ (rawKept 9).subscriptionId = 9 ∧
      rememberedBy (.ok (Restart.start [rawKept 9], [])) = some [([97, 46, 55], [65, 46, 101], 9)] ∧
      Subs.run false (Restart.start [rawKept 9])
        [(.register [65, 46, 101] Element.tEvent {}, ⟨fun _ _ auto => (0, auto), fun _ => true⟩)] = .ok (s, [none]) ∧
      rememberedBy (.ok (s, [none])) = some [([97, 46, 55], [65, 46, 101], 3)] := by
  have h1 : save [rawKept 9] = .ok (some [14, 5, 4, 0, 97, 46, 55, 0, 14, 5, 4, 0, 65, 46, 101, 0, 7, 5, 4, 0, 1, 0, 0, 0,
      7, 5, 4, 0, 0, 0, 0, 0, 7, 5, 4, 0, 0, 0, 0, 0, 7, 5, 4, 0, 0, 0, 0, 0, 7, 5, 4, 0, 9, 0, 0, 0,
      7, 5, 4, 0, 1, 0, 0, 0, 7, 5, 4, 0, 0, 0, 0, 0]) := by decide +kernel
  have h2 : rememberedBy (Subs.run false (Restart.start [rawKept 9])
      [(.register [65, 46, 101] Element.tEvent {}, ⟨fun _ _ auto => (0, auto), fun _ => true⟩)]) =
      some [([97, 46, 55], [65, 46, 101], 3)] := by decide +kernel
  cases hr : Subs.run false (Restart.start [rawKept 9])
      [(.register [65, 46, 101] Element.tEvent {}, ⟨fun _ _ auto => (0, auto), fun _ => true⟩)] with
  | fail => rw [hr] at h2; cases h2
  | ub => rw [hr] at h2; cases h2
  | ok p =>
    obtain ⟨s, o⟩ := p
    rw [hr] at h2
    have ho : o = [none] := by
      obtain ⟨⟨s1, o1⟩, e1, hr⟩ := res_bind_ok hr
      obtain ⟨⟨s2, o2⟩, e2, hr⟩ := res_bind_ok hr
      obtain ⟨s3, _, e1⟩ := res_bind_ok e1
      cases hr; cases e1; cases e2; rfl
    subst ho
    exact ⟨_, s, h1, by decide +kernel, rfl, by decide +kernel, rfl, h2⟩

/-! ## C31: damaged files -/

/-- C31 (partial: loads that stay within the file; the failures below show that not all do). Whatever bytes the
file holds, the names and numbers of every restored subscription stand in it in full, one after the other. -/
theorem C31_whole_partial (env : SubCache.Env) (file : Bytes) (rs : List Rec) (f' : Option Bytes)
    (h : load env (some file) = .ok (rs, f')) : ∀ r ∈ rs, Stands file r :=
  load_stands h

/-- The file with one subscription, as the examples use it. -/
def oneFile : Bytes :=
  [14, 5, 4, 0, 97, 46, 55, 0, 14, 5, 2, 0, 101, 0, 7, 5, 4, 0, 1, 0, 0, 0, 7, 5, 4, 0, 5, 0, 0, 0,
   7, 5, 4, 0, 0, 0, 0, 0, 7, 5, 4, 0, 1, 0, 0, 0, 7, 5, 4, 0, 9, 0, 0, 0, 7, 5, 4, 0, 0, 0, 0, 0,
   7, 5, 4, 0, 0, 0, 0, 0]

example : save [kept 55 .null] = .ok (some oneFile) ∧
    load seven (some (oneFile ++ [14, 5, 255, 255])) = .ok ([kept 55 .null], none) := by decide +kernel

/-- C31 (partial: loads that stay within the file). A saved file that was cut anywhere gives exactly the
subscriptions that are complete in it and whose consumers still run; the file is then gone or as saved for
these. -/
theorem C31_cut_partial (env : SubCache.Env) [DecidablePred (Alive env)] (rs : List Rec)
    (h : ∀ r ∈ rs, Ordinary r) (f : Bytes) (hs : save rs = .ok (some f)) (n : Nat) (got : List Rec)
    (f' : Option Bytes) (hl : load env (some (f.take n)) = .ok (got, f')) :
    ∃ k fk, save (rs.take k) = .ok fk ∧ (fk.getD []).length ≤ (f.take n).length ∧
      (k < rs.length → ∃ g, save (rs.take (k + 1)) = .ok (some g) ∧ (f.take n).length < g.length) ∧
      got = (rs.take k).filter (Alive env ·) ∧ (f' = none ∨ save got = .ok f') := by
  rw [save_ok fun r hr => (h r hr).writable] at hs
  have hne : rs ≠ [] := by rintro rfl; cases hs
  rw [fileOf, if_neg hne] at hs
  simp only [Res.ok.injEq, Option.some.injEq] at hs
  subst hs
  rcases load_cut (env := env) h (List.take_prefix n _) with hub | ⟨k, g, e, h0, h1, h2, h3, _⟩
  · rw [hub] at hl; cases hl
  · rw [e] at hl
    simp only [Res.ok.injEq, Prod.mk.injEq] at hl
    obtain ⟨rfl, rfl⟩ := hl
    have ht : ∀ j, ∀ r ∈ rs.take j, Ordinary r := fun j r hr => h r (List.mem_of_mem_take hr)
    refine ⟨k, _, save_ok fun r hr => (ht k r hr).writable, ?_, ?_, rfl, ?_⟩
    · simp only [fileOf]
      split
      · simp
      · simpa using h1
    · intro hk
      refine ⟨_, ?_, h2 hk⟩
      rw [save_ok fun r hr => (ht (k + 1) r hr).writable, fileOf, if_neg]
      intro hc
      have := congrArg List.length hc
      rw [List.length_take, List.length_nil] at this
      omega
    · rcases h3 with h3 | h3
      · exact Or.inl h3
      · right
        rw [h3, save_ok (Alive.ordinary_filter (ht k))]

example : save [kept 55 .null, kept 55 .null] = .ok (some (oneFile ++ oneFile)) ∧
    load seven (some ((oneFile ++ oneFile).take 127)) = .ok ([kept 55 .null], none) := by decide +kernel

/-- C31 fails for files that end within the name of a listener: loading them reads beyond the end. -/
theorem C31_cut_fails (env : SubCache.Env) [DecidablePred (Alive env)] (a c : List Rec) (r : Rec)
    (h : ∀ x ∈ a ++ r :: c, Ordinary x) (f : Bytes) (fa : Option Bytes)
    (hs : save (a ++ r :: c) = .ok (some f)) (hsa : save a = .ok fa) (m : Nat) (h4 : 4 ≤ m)
    (hm : m < 5 + r.listener.length) :
    load env (some (f.take ((fa.getD []).length + m))) = .ub := by
  rw [save_ok fun r hr => (h r hr).writable, fileOf, if_neg (by simp)] at hs
  rw [save_ok fun r hr => (h r (by simp [hr])).writable] at hsa
  simp only [Res.ok.injEq, Option.some.injEq] at hs hsa
  subst hs hsa
  have : ((fileOf a).getD []).length = (a.flatMap recImage).length := by
    simp only [fileOf]
    split
    · rename_i hn; rw [hn]; rfl
    · rfl
  rw [this]
  exact load_short h h4 hm

example : load seven (some (oneFile.take 6)) = .ub ∧ load seven (some ((oneFile ++ oneFile).take 76)) = .ub := by
  decide +kernel

/-- C31 fails for a file with a single wrong byte: without the NUL behind the listener's name, loading reads
beyond the copy of the name. -/
theorem C31_unterminated_fails :
    ∃ r f c, Spec.SubCache.Ordinary r ∧ save [r] = .ok (some f) ∧ load seven (some (f.set 7 c)) = .ub :=
  ⟨kept 55 .null, oneFile, 120, kept_ordinary _ _ (Or.inl rfl) (Or.inl rfl), by decide +kernel, by decide +kernel⟩

end Verif.Props
