import Verif.Spec.Timeout
import Verif.Proof.Exec
/-!
# How long a call waits: proofs
-/

namespace Verif.Proof.Timeout

open Model.Timeout Spec.Timeout

theorem all_bytes {p : UInt8 → Bool} (h : ∀ a : Fin 256, p (UInt8.ofNat a.val) = true) (c : UInt8) : p c = true := by
  have := h ⟨c.toNat, c.toNat_lt⟩
  simpa using this

theorem blank_eq (c : UInt8) : isspace c = blank c := by
  have := all_bytes (p := fun c => isspace c == blank c) (by decide +kernel) c
  simpa using this

theorem digit_eq (c : UInt8) : isdigit c = digit c := by
  have := all_bytes (p := fun c => isdigit c == digit c) (by decide +kernel) c
  simpa using this

theorem digit_not_blank (c : UInt8) (h : digit c = true) : blank c = false := by
  have := all_bytes (p := fun c => !(digit c) || !(blank c)) (by decide +kernel) c
  simp only [h, Bool.not_true, Bool.false_or, Bool.not_eq_true'] at this
  exact this

theorem mem_take {p : UInt8 → Bool} {c : UInt8} : ∀ {t : Bytes}, c ∈ t.takeWhile p → p c = true := by
  intro t
  induction t with
  | nil => intro h; cases h
  | cons x t ih =>
    intro h
    by_cases hx : p x = true
    · simp [hx] at h
      rcases h with rfl | h
      · exact hx
      · exact ih h
    · simp [hx] at h

theorem take_all {p : UInt8 → Bool} : ∀ {b r : Bytes}, (∀ c ∈ b, p c = true) → (∀ c ∈ r.head?, p c = false) →
    (b ++ r).takeWhile p = b ∧ (b ++ r).dropWhile p = r := by
  intro b
  induction b with
  | nil =>
    intro r _ hr
    cases r with
    | nil => exact ⟨rfl, rfl⟩
    | cons c r => have := hr c (by simp); simp [this]
  | cons c b ih =>
    intro r hb hr
    have hc := hb c (by simp)
    have := ih (fun c h => hb c (by simp [h])) hr
    simp [hc, this.1, this.2]

/-- A text cut into blanks, digits and the rest. -/
structure Parts (t b d r : Bytes) : Prop where
  eq : t = b ++ (d ++ r)
  blanks : ∀ c ∈ b, blank c = true
  digits : ∀ c ∈ d, digit c = true
  stop : ∀ c ∈ r.head?, digit c = false ∧ (d = [] → blank c = false)

theorem Parts.facts {t b d r : Bytes} (h : Parts t b d r) :
    t.takeWhile blank = b ∧ t.dropWhile blank = d ++ r ∧ (d ++ r).takeWhile digit = d := by
  have h1 : ∀ c ∈ (d ++ r).head?, blank c = false := by
    intro c hc
    cases d with
    | nil => exact (h.stop c hc).2 rfl
    | cons x d =>
      simp at hc
      subst hc
      exact digit_not_blank _ (h.digits _ (by simp))
  have h2 := take_all h.blanks h1
  have h3 := take_all (p := digit) h.digits (fun c hc => (h.stop c hc).1)
  rw [h.eq]
  exact ⟨h2.1, h2.2, h3.1⟩

theorem head_drop {p : UInt8 → Bool} : ∀ (t : Bytes), ∀ c ∈ (t.dropWhile p).head?, p c = false := by
  intro t
  induction t with
  | nil => simp
  | cons x t ih =>
    intro c hc
    by_cases hx : p x = true
    · simp [hx] at hc; exact ih c hc
    · simp [hx] at hc; subst hc; simpa using hx

theorem parts_of (t : Bytes) : Parts t (t.takeWhile blank) ((t.dropWhile blank).takeWhile digit)
    ((t.dropWhile blank).dropWhile digit) := by
  refine ⟨by simp, ?_, ?_, ?_⟩
  · intro c hc; exact mem_take hc
  · intro c hc; exact mem_take hc
  · intro c hc
    refine ⟨head_drop _ c hc, ?_⟩
    intro hd
    have h1 : (t.dropWhile blank).dropWhile digit = t.dropWhile blank := by
      have := List.takeWhile_append_dropWhile (p := digit) (l := t.dropWhile blank)
      rw [hd] at this
      simpa using this
    rw [h1] at hc
    exact head_drop _ c hc

theorem Parts.number {t b d r : Bytes} (h : Parts t b d r) : Spec.Timeout.number t = valueOf d := by
  unfold Spec.Timeout.number valueOf
  rw [h.facts.2.1, h.facts.2.2]

theorem Parts.ending {t b d r : Bytes} (h : Parts t b d r) : Spec.Timeout.ending t = b.length + d.length := by
  unfold Spec.Timeout.ending
  rw [h.facts.1, h.facts.2.1, h.facts.2.2]

/-- `atoi` of readable bytes that go on behind the number. -/
theorem Parts.atoi {t b d r : Bytes} (h : Parts t b d r) (hr : r ≠ []) (hu : ∀ c ∈ (d ++ r).head?, c.toNat ≠ 43 ∧ c.toNat ≠ 45)
    (hn : valueOf d < 2 ^ 31) : Model.Timeout.atoi t = .ok (valueOf d) := by
  have hsp : isspace = blank := funext blank_eq
  have hdg : isdigit = digit := funext digit_eq
  have key : ∀ s, s = d ++ r → digitsOf false s = .ok (valueOf d : Int) := by
    intro s hs
    unfold digitsOf
    rw [hs, hdg, h.facts.2.2]
    have hl : d.length ≠ (d ++ r).length := by
      have : 0 < r.length := List.length_pos_iff.2 hr
      simp; omega
    rw [if_neg hl]
    have hm : min (valueOf d : Int) (2 ^ 63 - 1) = valueOf d := by omega
    rw [if_neg (by simp), hm, BitVec.toInt_ofInt, Int.bmod_eq_of_le (by omega) (by omega)]
  unfold Model.Timeout.atoi
  rw [hsp, h.facts.2.1]
  cases hs : d ++ r with
  | nil => simp_all
  | cons c s =>
    have hc := hu c (by rw [hs]; simp)
    have h1 : c ≠ 45 := fun e => hc.2 (by rw [e]; rfl)
    have h2 : c ≠ 43 := fun e => hc.1 (by rw [e]; rfl)
    simp only [h1, h2, if_false]
    exact key _ hs.symm

theorem zero_stop : digit 0 = false ∧ blank 0 = false ∧ (0 : UInt8).toNat ≠ 43 ∧ (0 : UInt8).toNat ≠ 45 := by decide

/-- `atoi` of a text followed by something that does not prolong the number. -/
theorem atoi_text {t s : Bytes} {r' : Bytes} (hs : s = t.takeWhile blank ++ ((t.dropWhile blank).takeWhile digit ++ r')) (hne : r' ≠ [])
    (hh : r'.head? = (((t.dropWhile blank).dropWhile digit) ++ [0]).head?)
    (hu : Spec.Timeout.Unsigned t) (hn : Spec.Timeout.number t < 2 ^ 31) : Model.Timeout.atoi s = .ok (Spec.Timeout.number t) := by
  have hp := parts_of t
  have hz := zero_stop
  have hp' : Parts s (t.takeWhile blank) ((t.dropWhile blank).takeWhile digit) r' := by
    refine ⟨hs, hp.blanks, hp.digits, ?_⟩
    intro c hc
    rw [hh] at hc
    cases hr : (t.dropWhile blank).dropWhile digit with
    | nil =>
      rw [hr] at hc
      simp at hc
      subst hc
      exact ⟨hz.1, fun _ => hz.2.1⟩
    | cons x r =>
      rw [hr] at hc
      simp at hc
      subst hc
      exact hp.stop x (by rw [hr]; simp)
  rw [hp.number] at hn ⊢
  refine hp'.atoi hne ?_ hn
  intro c hc
  have he := hp.facts.2.1
  cases hd : (t.dropWhile blank).takeWhile digit with
  | cons x d =>
    rw [hd] at hc he
    simp at hc
    subst hc
    apply hu
    rw [he]; simp
  | nil =>
    rw [hd] at hc he
    simp only [List.nil_append] at hc he
    rw [hh] at hc
    cases hr : (t.dropWhile blank).dropWhile digit with
    | nil => rw [hr] at hc; simp at hc; subst hc; exact hz.2.2
    | cons x r =>
      rw [hr] at hc he
      simp at hc
      subst hc
      apply hu
      rw [he]; simp

theorem atoi_env {t : Bytes} (hu : Spec.Timeout.Unsigned t) (hn : Spec.Timeout.number t < 2 ^ 31) :
    Model.Timeout.atoi (t ++ [0]) = .ok (Spec.Timeout.number t) := by
  refine atoi_text (r' := (t.dropWhile blank).dropWhile digit ++ [0]) ?_ (by simp) rfl hu hn
  rw [← List.append_assoc, ← List.append_assoc, List.append_assoc (t.takeWhile blank), ← (parts_of t).eq]

theorem atoi_buffer {t : Bytes} (hu : Spec.Timeout.Unsigned t) (hn : Spec.Timeout.number t < 2 ^ 31) (he : Spec.Timeout.ending t ≤ 24) :
    Model.Timeout.atoi (buffer t) = .ok (Spec.Timeout.number t) := by
  have hp := parts_of t
  rw [hp.ending] at he
  generalize hb : t.takeWhile blank = b at *
  generalize hd : (t.dropWhile blank).takeWhile digit = d at *
  generalize hr : (t.dropWhile blank).dropWhile digit = r at *
  have hlen : t.length = b.length + (d.length + r.length) := by rw [hp.eq]; simp
  refine atoi_text (r' := r.take (25 - b.length - d.length) ++ List.replicate (25 - t.length) 0) ?_ ?_ ?_ hu hn
  · unfold buffer
    rw [hb, hd]
    conv => lhs; arg 1; rw [hp.eq]
    rw [List.take_append, List.take_append, List.take_of_length_le (by omega : b.length ≤ 25),
      List.take_of_length_le (by omega : d.length ≤ 25 - b.length)]
    simp
  · intro h
    have := congrArg List.length h
    simp only [List.length_append, List.length_take, List.length_replicate, List.length_nil] at this
    omega
  · rw [hr]
    cases r with
    | nil =>
      have : 25 - t.length = (24 - t.length) + 1 := by simp at hlen; omega
      rw [this]; simp [List.replicate_succ]
    | cons x r =>
      have : 25 - b.length - d.length = (24 - b.length - d.length) + 1 := by omega
      rw [this]; simp

theorem default_eq (k : Kind) : (builtIn k).toNat = Spec.Timeout.default k := by cases k <;> rfl

theorem default_pos (k : Kind) : 0 < Spec.Timeout.default k := by cases k <;> decide

theorem ofInt_nat {n : Nat} (h : n < 2 ^ 32) : (BitVec.ofInt 32 (n : Int)).toNat = n := by
  rw [BitVec.ofInt_natCast, BitVec.toNat_ofNat]
  omega

theorem initInt_ok {env : Kind → Option Bytes} (h : GoodEnv env) (k : Kind) :
    ∃ x, initInt (env k) (builtIn k) = .ok x ∧ x.toNat = fromEnv (env k) k ∧ x.toNat ≠ 0 := by
  have hd := default_pos k
  cases he : env k with
  | none => exact ⟨_, rfl, default_eq k, by rw [default_eq]; omega⟩
  | some t =>
    cases t with
    | nil => exact ⟨_, rfl, default_eq k, by rw [default_eq]; omega⟩
    | cons c t =>
      obtain ⟨hu, hp, hl⟩ := h k _ he (by simp)
      refine ⟨BitVec.ofInt 32 (Spec.Timeout.number (c :: t)), ?_, ?_⟩
      · unfold initInt
        simp only []
        rw [atoi_env hu hl]; rfl
      · rw [ofInt_nat (by omega)]
        exact ⟨rfl, by omega⟩

theorem valuesInit_ok {env : Kind → Option Bytes} (h : GoodEnv env) :
    ∃ v, valuesInit env = .ok v ∧ ∀ k, (v.of k).toNat = fromEnv (env k) k ∧ (v.of k).toNat ≠ 0 := by
  obtain ⟨s, h1, h1'⟩ := initInt_ok h .set
  obtain ⟨g, h2, h2'⟩ := initInt_ok h .get
  obtain ⟨sm, h3, h3'⟩ := initInt_ok h .setMulti
  obtain ⟨gm, h4, h4'⟩ := initInt_ok h .getMulti
  obtain ⟨su, h5, h5'⟩ := initInt_ok h .subscribe
  refine ⟨⟨g, s, gm, sm, su⟩, ?_, ?_⟩
  · unfold valuesInit
    rw [h1, h2, h3, h4, h5]; rfl
  · intro k; cases k <;> assumption

theorem store_of (v : Values) (k k' : Kind) (x : BitVec 32) : (v.store k x).of k' = if k = k' then x else v.of k' := by
  cases k <;> cases k' <;> rfl

theorem config_of (v : Values) (k k' : Kind) (x : BitVec 32) :
    ((config v k x).of k').toNat = if k = k' then orDefault x k else (v.of k').toNat := by
  unfold config orDefault
  by_cases hx : x = 0
  · subst hx
    simp only [ne_eq, not_true, if_false, store_of]
    split <;> simp [default_eq]
  · have : x.toNat ≠ 0 := fun h => hx (BitVec.eq_of_toNat_eq (by simpa using h))
    simp only [ne_eq, hx, not_false_eq_true, if_true, store_of, this, if_false]
    split <;> rfl

theorem configAll_of (v w : Values) (k : Kind) : ((configAll v w).of k).toNat = orDefault (w.of k) k := by
  unfold configAll
  cases k <;> simp [config_of] <;> rfl

theorem orDefault_pos (x : BitVec 32) (k : Kind) : orDefault x k ≠ 0 := by
  have := default_pos k
  unfold orDefault
  split <;> omega

/-- The handles as the past has them. -/
structure Rel (s : State) (past : List Event) : Prop where
  value : ∀ i k, (s i).map (fun v => (v.of k).toNat) = inForce i k past
  pos : ∀ i v k, s i = some v → (v.of k).toNat ≠ 0

theorem fileName_eq {prog : Bytes} (hp : prog.length ≤ 89) {k : Kind} (hk : k ≠ .subscribe) :
    Spec.Timeout.file prog k = some (fileName prog k) := by
  unfold fileName
  have h10 : "/tmp/rbus_".toUTF8.data.toList.length = 10 := by decide +kernel
  have hs : (suffix k).length ≤ 27 := by cases k <;> decide +kernel
  rw [List.take_of_length_le (by simp only [List.length_append, h10]; omega)]
  cases k <;> first | rfl | exact absurd rfl hk

theorem inFile_ok {prog : Bytes} (hp : prog.length ≤ 89) {fs : Files} {k : Kind} (hk : k ≠ .subscribe) (hg : GoodFile prog fs k) :
    inFile fs (fileName prog k) = .ok (seconds prog fs k) ∧ seconds prog fs k * 1000 < 2 ^ 31 := by
  have hf := fileName_eq hp hk
  unfold inFile seconds
  rw [hf]
  simp only []
  cases ht : fs (fileName prog k) with
  | none => exact ⟨rfl, by decide⟩
  | some t =>
    obtain ⟨hu, hn, he⟩ := hg _ _ hf ht
    cases t with
    | nil => exact ⟨rfl, hn⟩
    | cons c t => exact ⟨atoi_buffer hu (by omega) he, hn⟩

theorem fetch_ok {prog : Bytes} (hp : prog.length ≤ 89) {fs : Files} {k : Kind} (hk : k ≠ .subscribe) (hg : GoodFile prog fs k) (v : Values) :
    ∃ x, fetch prog fs v k = .ok x ∧
      x.toNat = if 0 < seconds prog fs k then 1000 * seconds prog fs k else (v.of k).toNat := by
  obtain ⟨h1, h2⟩ := inFile_ok hp hk hg
  unfold fetch
  rw [if_neg hk, h1]
  simp only [Res.ok_bind]
  by_cases h0 : 0 < seconds prog fs k
  · have h3 : (0 : Int) < (seconds prog fs k : Int) := by omega
    have h4 : (seconds prog fs k : Int) * 1000 < 2 ^ 31 := by omega
    have h5 : (seconds prog fs k : Int) * 1000 = ((1000 * seconds prog fs k : Nat) : Int) := by omega
    simp only [h3, if_true, h4, h0]
    exact ⟨_, rfl, by rw [h5, ofInt_nat (by omega)]⟩
  · have h3 : ¬ (0 : Int) < (seconds prog fs k : Int) := by omega
    simp only [h3, if_false, h0]
    exact ⟨_, rfl, rfl⟩

/-- What a call waits, from the values. -/
def goal (prog : Bytes) (fs : Files) (v : Values) (a : Api) : Int :=
  match asked a with
  | .own ms => ms
  | .kind k => (if 0 < seconds prog fs k then 1000 * seconds prog fs k else (v.of k).toNat : Nat)

theorem nat_eq_zero {x : BitVec 32} : x.toNat = 0 ↔ x = 0 :=
  ⟨fun h => BitVec.eq_of_toNat_eq (by simpa using h), fun h => by rw [h]; rfl⟩

theorem wait_ok {prog : Bytes} (hp : prog.length ≤ 89) {s : State} {past : List Event} (hr : Rel s past) {i : Nat} {v : Values}
    (hs : s i = some v) {fs : Files} {a : Api} (hg : GoodCall prog past i a fs) :
    wait prog fs v a = .ok (goal prog fs v a) := by
  have simple : ∀ k : Kind, k ≠ .subscribe → GoodFile prog fs k →
      (do return ((← fetch prog fs v k).toNat : Int) : Res Int) =
        .ok (if 0 < seconds prog fs k then 1000 * seconds prog fs k else (v.of k).toNat : Nat) := by
    intro k hk hgk
    obtain ⟨x, hx, hn⟩ := fetch_ok hp hk hgk v
    rw [hx, ← hn]; rfl
  cases a with
  | get => exact simple .get (by decide) hg
  | several => exact simple .get (by decide) hg
  | rowNames => exact simple .get (by decide) hg
  | elementInfo => exact simple .get (by decide) hg
  | wildcard => exact simple .getMulti (by decide) hg
  | set => exact simple .set (by decide) hg
  | commit => exact simple .set (by decide) hg
  | addRow => exact simple .set (by decide) hg
  | removeRow => exact simple .set (by decide) hg
  | invoke => exact simple .set (by decide) hg
  | setMulti n t =>
    have rest : ∀ x : BitVec 32, x ≠ 0 → (if n = 1 then setInternal prog fs v x else .ok x) = .ok x := by
      intro x hx
      unfold setInternal
      rw [if_neg hx]
      split <;> rfl
    unfold wait setMultiInternal goal asked
    simp only []
    by_cases ht : t = 0
    · have ht' : t.toNat = 0 := nat_eq_zero.2 ht
      have hgf : GoodFile prog fs .setMulti := by
        unfold GoodCall asked at hg
        simp only [ht', if_true] at hg
        exact hg
      obtain ⟨x, hx, hn⟩ := fetch_ok hp (by decide) hgf v
      have hx0 : x ≠ 0 := by
        intro h
        have h0 : x.toNat = 0 := nat_eq_zero.2 h
        have := hr.pos i v .setMulti hs
        rw [h0] at hn
        split at hn <;> omega
      subst ht
      simp only [if_true, hx, Res.ok_bind, Res.pure_eq, rest x hx0, ht']
      rw [← hn]
    · have ht' : t.toNat ≠ 0 := fun h => ht (nat_eq_zero.1 h)
      simp only [ht, ht', if_false, Res.ok_bind, Res.pure_eq, rest t ht]
  | invokeAsync t =>
    unfold wait goal asked
    simp only []
    unfold GoodCall at hg
    simp only [] at hg
    by_cases ht : 0 < t.toInt
    · simp only [ht, if_true] at hg ⊢
      unfold millis
      rw [if_pos ⟨by omega, hg⟩]
    · simp only [ht, if_false] at hg ⊢
      exact simple .set (by decide) hg
  | subscribe t =>
    unfold wait goal asked
    simp only []
    unfold GoodCall at hg
    simp only [] at hg
    by_cases ht : t.toInt = -1
    · simp only [ht, if_true] at hg ⊢
      have hv := hr.value i .subscribe
      rw [hs] at hv
      have hlt := hg (v.of .subscribe).toNat (by rw [← hv]; rfl)
      have h0 : seconds prog fs .subscribe = 0 := rfl
      rw [h0]
      simp only [fetch, if_true, Res.ok_bind, Res.pure_eq, Nat.lt_irrefl, if_false]
      congr 1
      rw [BitVec.toInt_eq_toNat_of_lt (by
        have : (v.of .subscribe).toNat = v.subscribe.toNat := rfl
        omega)]
      rfl
    · simp only [ht, if_false] at hg ⊢
      unfold millis
      rw [if_pos hg]

theorem Rel.step {prog : Bytes} (hp : prog.length ≤ 89) {s : State} {past : List Event} (hr : Rel s past) {e : Event}
    (hg : Good prog (e :: past)) :
    ∃ s', Model.Timeout.step prog s e = .ok (s', answer prog past e) ∧ Rel s' (e :: past) := by
  have hopen : ∀ i, (inForce i .get past).isSome → ∃ v, s i = some v := by
    intro i h
    rw [← hr.value i .get] at h
    cases hs : s i with
    | none => rw [hs] at h; cases h
    | some v => exact ⟨v, rfl⟩
  cases e with
  | «open» i env =>
    obtain ⟨v, hv, hk⟩ := valuesInit_ok hg.2
    refine ⟨s.put i (some v), by unfold Model.Timeout.step; simp only [hv]; rfl, ?_, ?_⟩
    · intro j k
      unfold State.put inForce
      by_cases hj : j = i
      · subst hj; simp [(hk k).1]
      · simp [hj, Ne.symm hj, hr.value]
    · intro j w k hw
      unfold State.put at hw
      by_cases hj : j = i
      · subst hj; simp at hw; subst hw; exact (hk k).2
      · simp [hj] at hw; exact hr.pos j w k hw
  | close i =>
    refine ⟨s.put i none, rfl, ?_, ?_⟩
    · intro j k
      unfold State.put inForce
      by_cases hj : j = i
      · subst hj; simp
      · simp [hj, Ne.symm hj, hr.value]
    · intro j w k hw
      unfold State.put at hw
      by_cases hj : j = i
      · subst hj; simp at hw
      · simp [hj] at hw; exact hr.pos j w k hw
  | config i k t =>
    obtain ⟨v, hs⟩ := hopen i hg.2
    refine ⟨s.put i (some (config v k t)), by unfold Model.Timeout.step; simp only [hs]; rfl, ?_, ?_⟩
    · intro j k'
      unfold State.put inForce
      by_cases hj : j = i
      · subst hj
        simp only [if_true, Option.map_some, config_of, true_and]
        have := hr.value j k'
        rw [hs] at this
        by_cases hk : k = k'
        · subst hk; simp
        · simp only [hk, if_false]; exact this
      · simp [hj, Ne.symm hj, hr.value]
    · intro j w k' hw
      unfold State.put at hw
      by_cases hj : j = i
      · subst hj; simp at hw; subst hw
        rw [config_of]
        split
        · exact orDefault_pos _ _
        · exact hr.pos _ _ _ hs
      · simp [hj] at hw; exact hr.pos j w k' hw
  | configAll i t =>
    obtain ⟨v, hs⟩ := hopen i hg.2
    refine ⟨s.put i (some (configAll v t)), by unfold Model.Timeout.step; simp only [hs]; rfl, ?_, ?_⟩
    · intro j k'
      unfold State.put inForce
      by_cases hj : j = i
      · subst hj; simp [configAll_of]
      · simp [hj, Ne.symm hj, hr.value]
    · intro j w k' hw
      unfold State.put at hw
      by_cases hj : j = i
      · subst hj; simp at hw; subst hw
        rw [configAll_of]
        exact orDefault_pos _ _
      · simp [hj] at hw; exact hr.pos j w k' hw
  | call i a fs =>
    refine ⟨s, ?_, ⟨hr.value, hr.pos⟩⟩
    unfold Model.Timeout.step
    simp only []
    cases hs : s i with
    | none =>
      have hn : ∀ k, inForce i k past = none := by intro k; rw [← hr.value i k, hs]; rfl
      unfold answer waits
      cases ha : asked a <;> simp [hn, ha]
    | some v =>
      simp only []
      rw [wait_ok hp hr hs hg.2]
      have hn : ∀ k, inForce i k past = some (v.of k).toNat := by intro k; rw [← hr.value i k, hs]; rfl
      unfold answer waits goal
      cases ha : asked a <;> simp [hn, ha]

theorem good_tail {prog : Bytes} : ∀ {a b : List Event}, Good prog (a ++ b) → Good prog b := by
  intro a
  induction a with
  | nil => intro b h; exact h
  | cons e a ih => intro b h; exact ih h.1

theorem Rel.run {prog : Bytes} (hp : prog.length ≤ 89) : ∀ (es : List Event) {s : State} {past : List Event}, Rel s past →
    Good prog (es.reverse ++ past) → ∃ s', Model.Timeout.run prog s es = .ok (s', answers prog past es) := by
  intro es
  induction es with
  | nil => intro s past _ _; exact ⟨s, rfl⟩
  | cons e es ih =>
    intro s past hr hg
    have hg' : Good prog (es.reverse ++ (e :: past)) := by simpa using hg
    obtain ⟨s1, h1, hr1⟩ := hr.step hp (good_tail hg')
    obtain ⟨s2, h2⟩ := ih hr1 hg'
    refine ⟨s2, ?_⟩
    unfold Model.Timeout.run
    rw [h1]
    simp only [Res.ok_bind, h2, Res.pure_eq]
    rfl

theorem start_rel : Rel start [] := ⟨fun _ _ => rfl, fun _ _ _ h => by cases h⟩

end Verif.Proof.Timeout
