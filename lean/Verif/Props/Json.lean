import Verif.Proof.Json

/-!
# The fields of messages to the router (C87)
-/

namespace Verif.Props

open Verif Verif.Json

private def anyConv : Conv := ⟨fun v => v.setWidth 64, fun v => v.setWidth 32⟩

private def topicKey : Bytes := "topic".toUTF8.data.toList
private def itemsKey : Bytes := "items".toUTF8.data.toList

/-- The calls that build a message never go wrong if the topic is set at most once. -/
theorem C87_builds (c : Conv) (ops : List Json.Op) (h : OneTopic ops) : ∃ m, Json.run c Json.create ops = .ok m :=
  run_ok c ops _ (fun before t after he => ⟨rfl, h before t after he⟩)

example : OneTopic [.setString topicKey (some [65]), .setTopic [66], .addString itemsKey (some [67])] := by
  intro before t after h op hop
  rcases before with _ | ⟨a, _ | ⟨b, before⟩⟩
  · simp at hop
  · simp only [List.cons_append, List.nil_append, List.cons.injEq] at h
    simp only [List.mem_singleton] at hop
    subst hop
    rw [← h.1]
    rintro ⟨k, hk, hs⟩
    simp only [named, Option.isSome_some, if_true, Option.some.injEq] at hk
    subst hk
    exact absurd ((same_iff _ _).mpr hs) (by decide)
  · simp only [List.cons_append, List.cons.injEq] at h
    have := h.2.2
    rcases before with _ | ⟨d, before⟩
    · simp at this
    · simp at this

/-- C87, texts. A text that is set is read back, under the same name apart from capitals, whatever else is done with the
message, if no field of this name was made before. (Missing: fields of other types that are read as text, below.) -/
theorem C87_text_partial (c : Conv) {m : Item} {before after : List Json.Op} {n k s : Bytes} (hk : SameName k n)
    (hb : ∀ op ∈ before, ¬ Concerns k op) (h : Json.run c Json.create (before ++ .setString n (some s) :: after) = .ok m) :
    Json.getString m k = (0, some (some s)) ∧ ∀ size, s.length < size → getStringValue m k size = .ok (0, some s) := by
  obtain ⟨y, h1, h2, _⟩ := run_first (x := ofText s) hb hk (by
    intro m code m' hs
    simp only [Json.step, Res.ok.injEq, Prod.mk.injEq] at hs
    exact hs.1.symm) h
  have ht : y.text = some s := congrArg (·.2.1) h2
  refine ⟨by simp only [Json.getString, h1, ht], fun size hs => ?_⟩
  simp only [getStringValue, h1, ht, show s.length ≤ size by omega, if_true, show ¬ size = 0 by omega, if_false]
  rw [List.take_of_length_le (by omega)]

example : SameName [84, 111, 112] [116, 79, 80] ∧ ¬ SameName [84, 111, 112] [84, 111, 113] ∧
    ¬ Concerns topicKey (.addString itemsKey (some [67])) := by
  refine ⟨by simp [SameName, SameLetter], by simp [SameName, SameLetter], ?_⟩
  rintro ⟨k, hk, hs⟩
  simp only [named, Option.some.injEq] at hk
  subst hk
  exact absurd ((same_iff _ _).mpr hs) (by decide)

/-- C87, numbers and truth values, likewise. The numbers of the library are exact, as integers of 32 bits are as `double`. -/
theorem C87_number_partial (c : Conv) {m : Item} {before after : List Json.Op} {n k : Bytes} (hk : SameName k n)
    (hb : ∀ op ∈ before, ¬ Concerns k op) :
    (∀ v, c.toInt (c.ofInt v) = v → Json.run c Json.create (before ++ .setInt32 n v :: after) = .ok m →
      getInt32 c m k = (0, some v)) ∧
    (∀ d, Json.run c Json.create (before ++ .setDouble n d :: after) = .ok m → getDouble m k = (0, some d)) ∧
    (∀ b, Json.run c Json.create (before ++ .setBool n b :: after) = .ok m → getBool m k = (0, some b)) := by
  refine ⟨fun v hv h => ?_, fun d h => ?_, fun b h => ?_⟩
  · obtain ⟨y, h1, h2, _⟩ := run_first (x := ofNumber (c.ofInt v)) hb hk (by
      intro m code m' hs
      simp only [Json.step, Res.ok.injEq, Prod.mk.injEq] at hs
      exact hs.1.symm) h
    have ht : y.number = c.ofInt v := congrArg (·.2.2) h2
    simp only [getInt32, h1, ht, hv]
  · obtain ⟨y, h1, h2, _⟩ := run_first (x := ofNumber d) hb hk (by
      intro m code m' hs
      simp only [Json.step, Res.ok.injEq, Prod.mk.injEq] at hs
      exact hs.1.symm) h
    have ht : y.number = d := congrArg (·.2.2) h2
    simp only [getDouble, h1, ht]
  · obtain ⟨y, h1, h2, _⟩ := run_first (x := ofBool b) hb hk (by
      intro m code m' hs
      simp only [Json.step, Res.ok.injEq, Prod.mk.injEq] at hs
      exact hs.1.symm) h
    have ht : y.kind = if b then .isTrue else .isFalse := congrArg (·.1) h2
    simp only [getBool, h1, ht]
    cases b <;> rfl

example : ∃ m, Json.run anyConv Json.create ([] ++ .setInt32 [65] 7 :: [.setBool [66] true]) = .ok m ∧
    anyConv.toInt (anyConv.ofInt 7) = 7 := ⟨_, rfl, rfl⟩

/-- C87, messages in messages, if nothing is added to the field afterwards. -/
theorem C87_message_partial (c : Conv) {m : Item} {before after : List Json.Op} {n k : Bytes} {x : Item} (hk : SameName k n)
    (hb : ∀ op ∈ before, ¬ Concerns k op) (ha : ∀ op ∈ after, Adds op → ¬ Concerns k op)
    (h : Json.run c Json.create (before ++ .setMessage n (some x) :: after) = .ok m) : getMessage m k = (0, some x) := by
  obtain ⟨y, h1, _, h3⟩ := run_first (x := x) hb hk (by
    intro m code m' hs
    simp only [Json.step, Res.ok.injEq, Prod.mk.injEq] at hs
    exact hs.1.symm) h
  rw [h3 (fun o ho h' => ha o ho h'.1 h'.2)] at h1
  simp only [getMessage, h1]

example : ∃ m, Json.run anyConv Json.create ([.setInt32 [66] 1] ++ .setMessage [65] (some Json.create) :: [.setBool [65] true]) =
    .ok m := ⟨_, rfl⟩

/-- C87, binary data of 1 to 1026 bytes. -/
theorem C87_binary_partial (c : Conv) {m : Item} {before after : List Json.Op} {n k bs : Bytes} (hk : SameName k n)
    (hb : ∀ op ∈ before, ¬ Concerns k op) (hne : bs ≠ []) (hl : bs.length ≤ 1026)
    (h : Json.run c Json.create (before ++ .addBinary n bs :: after) = .ok m) : getBinary m k = .ok (0, some bs) := by
  obtain ⟨t, size, e1, e2⟩ := C45_round_trip_partial bs hne hl
  obtain ⟨y, h1, h2, _⟩ := run_first (x := ofText t) hb hk (by
    intro m code m' hs
    simp only [Json.step, e1, Res.ok.injEq, Prod.mk.injEq] at hs
    exact hs.1.symm) h
  have ht : y.text = some t := congrArg (·.2.1) h2
  simp only [getBinary, h1, ht, e2]

example : ([1, 2, 3] : Bytes) ≠ [] ∧ ([1, 2, 3] : Bytes).length ≤ 1026 := by decide

/-- C87, lists. A field that is only added to is the list of the texts and messages added, in order: its length is their number,
and each is read at its index; at other indices from 0 on, reading fails and stores nothing. (Missing: negative indices,
below.) -/
theorem C87_list_partial (c : Conv) {m : Item} {ops : List Json.Op} {n : Bytes} (ha : ∀ op ∈ ops, Concerns n op → Adds op)
    (h : Json.run c Json.create ops = .ok m) :
    arrayLength m n = (added n ops).length ∧
    (∀ (i : Nat) s, (added n ops)[i]? = some (.inl s) → stringItem m n i = (0, some (some s))) ∧
    (∀ (i : Nat) x, (added n ops)[i]? = some (.inr x) → messageItem m n i = (0, some (some x))) ∧
    (∀ i : Nat, (added n ops).length ≤ i → (stringItem m n i).1 ≠ 0 ∧ (stringItem m n i).2 = none ∧
      (messageItem m n i).1 ≠ 0 ∧ (messageItem m n i).2 = none) := by
  have hk := run_adds ha h
  rw [show kidsAt Json.create n = [] from rfl, List.nil_append] at hk
  cases hf : Json.find m n with
  | none =>
    have hnil : added n ops = [] := by
      simp only [kidsAt, hf, Option.map_none, Option.getD_none] at hk
      exact List.map_eq_nil_iff.mp hk.symm
    refine ⟨by simp [arrayLength, hf, hnil], by simp [hnil], by simp [hnil], fun i _ => ?_⟩
    simp [stringItem, messageItem, hf]
  | some y =>
    simp only [kidsAt, hf, Option.map_some, Option.getD_some] at hk
    have hlen : y.kids.length = (added n ops).length := by rw [hk, List.length_map]
    have hin : ∀ (i : Nat) a, (added n ops)[i]? = some a → i < y.kids.length ∧ y.kids[i]? = some (none, asItem a) := by
      intro i a hi
      obtain ⟨hlt, _⟩ := List.getElem?_eq_some_iff.mp hi
      exact ⟨by omega, by rw [hk, List.getElem?_map, hi]; rfl⟩
    refine ⟨by simp only [arrayLength, hf, hlen], fun i s hi => ?_, fun i x hi => ?_, fun i hi => ?_⟩
    · obtain ⟨h1, h2⟩ := hin i _ hi
      simp only [stringItem, hf, show ¬ ((y.kids.length : Int) ≤ i) by omega, show ¬ ((i : Int) < 0) by omega, if_false,
        Int.toNat_natCast, h2]
      rfl
    · obtain ⟨h1, h2⟩ := hin i _ hi
      simp only [messageItem, hf, show ¬ ((y.kids.length : Int) ≤ i) by omega, show ¬ ((i : Int) < 0) by omega, if_false,
        Int.toNat_natCast, h2]
      rfl
    · simp only [stringItem, messageItem, hf, show ((y.kids.length : Int) ≤ i) by omega, if_true]
      simp

example : ∃ m, Json.run anyConv Json.create [.addString itemsKey (some [65]), .setInt32 topicKey 4, .addString itemsKey none,
    .addString itemsKey (some [66])] = .ok m ∧ arrayLength m itemsKey = 2 ∧ stringItem m itemsKey 1 = (0, some (some [66])) :=
  ⟨_, rfl, by decide, by decide⟩

/-- C87, fields that no call made: every function fails and stores nothing, and the length is 0. -/
theorem C87_absent (c : Conv) {m : Item} {ops : List Json.Op} {n : Bytes} (hn : ∀ op ∈ ops, ¬ Concerns n op)
    (h : Json.run c Json.create ops = .ok m) :
    ((Json.getString m n).1 ≠ 0 ∧ (Json.getString m n).2 = none) ∧ ((getInt32 c m n).1 ≠ 0 ∧ (getInt32 c m n).2 = none) ∧
    ((getBool m n).1 ≠ 0 ∧ (getBool m n).2 = none) ∧ ((getDouble m n).1 ≠ 0 ∧ (getDouble m n).2 = none) ∧
    ((getMessage m n).1 ≠ 0 ∧ (getMessage m n).2 = none) ∧ (∃ e, e ≠ 0 ∧ getBinary m n = .ok (e, none)) ∧
    (∀ size, ∃ e, e ≠ 0 ∧ getStringValue m n size = .ok (e, none)) ∧ arrayLength m n = 0 ∧
    (∀ i, (stringItem m n i).1 ≠ 0 ∧ (stringItem m n i).2 = none ∧ (messageItem m n i).1 ≠ 0 ∧ (messageItem m n i).2 = none) := by
  have hf : Json.find m n = none := by rw [run_other hn h]; rfl
  refine ⟨by simp [Json.getString, hf], by simp [getInt32, hf], by simp [getBool, hf], by simp [getDouble, hf], by simp [getMessage, hf],
    ⟨1, by decide, by simp [getBinary, hf]⟩, fun _ => ⟨1, by decide, by simp [getStringValue, hf]⟩, by simp [arrayLength, hf],
    fun i => by simp [stringItem, messageItem, hf]⟩

example : ∀ op ∈ ([.setString topicKey none, .setMessage topicKey none, .setInt32 itemsKey 4] : List Json.Op), ¬ Concerns topicKey op := by
  simp only [List.mem_cons, List.not_mem_nil, or_false, forall_eq_or_imp, forall_eq]
  refine ⟨?_, ?_, ?_⟩
  · rintro ⟨k, hk, hs⟩
    simp [named] at hk
  · rintro ⟨k, hk, hs⟩
    simp [named] at hk
  · rintro ⟨k, hk, hs⟩
    simp only [named, Option.some.injEq] at hk
    subst hk
    exact absurd ((same_iff _ _).mpr hs) (by decide)

/-- C87, the topic: it is read back, into a buffer that is large enough. -/
theorem C87_topic_partial (c : Conv) {m : Item} {before after : List Json.Op} {t : Bytes} {size : Nat} (hl : t.length < size)
    (hb : ∀ op ∈ before, ¬ Concerns ("_topic".toUTF8.data.toList) op)
    (h : Json.run c Json.create (before ++ .setTopic t :: after) = .ok m) : getTopic m size = .ok (0, some t) := by
  have hs : SameName topicName topicName := (same_iff _ _).mp (by decide)
  obtain ⟨y, h1, h2, _⟩ := run_first (n := topicName) (x := ofText t) hb hs (by
    intro m code m' hs
    simp only [Json.step] at hs
    split at hs
    · cases hs
    · simp only [Res.ok.injEq, Prod.mk.injEq] at hs
      exact hs.1.symm) h
  have ht : y.text = some t := congrArg (·.2.1) h2
  simp only [getTopic, h1, ht, hl, if_true]

example : ∃ m, Json.run anyConv Json.create ([.setInt32 [65] 1] ++ .setTopic [66, 67] :: []) = .ok m ∧
    getTopic m 3 = .ok (0, some [66, 67]) := ⟨_, rfl, rfl⟩

/-- C87 fails for a field that is set again: reading it gives the old value. -/
theorem C87_set_again_fails (c : Conv) (n a b : Bytes) :
    ∃ m, Json.run c Json.create [.setString n (some a), .setString n (some b)] = .ok m ∧ Json.getString m n = (0, some (some a)) := by
  refine ⟨_, rfl, ?_⟩
  have : same n n = true := by simp [same]
  simp [Json.getString, Json.find, append, Json.create, Item.kids, this, ofText, Item.text]

/-- C87 fails for two fields whose names differ in capitals: the second cannot be read. -/
theorem C87_capitals_fails (c : Conv) :
    ∃ m, Json.run c Json.create [.setInt32 [65] 1, .setInt32 [97] 2] = .ok m ∧
      getInt32 c m [97] = (0, some (c.toInt (c.ofInt 1))) := ⟨_, rfl, rfl⟩

/-- C87 fails for a field of another type: reading a number as a text gives success and NULL, reading a text as a number gives
success and a number, and reading a text as a truth value gives success and false. -/
theorem C87_type_fails (c : Conv) (n s : Bytes) (v : BitVec 32) :
    (∃ m, Json.run c Json.create [.setInt32 n v] = .ok m ∧ Json.getString m n = (0, some none)) ∧
    (∃ m, Json.run c Json.create [.setString n (some s)] = .ok m ∧ getInt32 c m n = (0, some (c.toInt 0)) ∧
      getBool m n = (0, some false)) := by
  have : same n n = true := by simp [same]
  constructor
  · refine ⟨_, rfl, ?_⟩
    simp [Json.getString, Json.find, append, Json.create, Item.kids, this, ofNumber, Item.text]
  · refine ⟨_, rfl, ?_⟩
    simp [getInt32, getBool, Json.find, append, Json.create, Item.kids, Item.number, Item.kind, this, ofText]

/-- C87 fails for a text read into a buffer of its length, with no room for the end: the call gives success, and the last
character is missing. -/
theorem C87_truncated_fails (c : Conv) (n s : Bytes) (x : UInt8) :
    ∃ m, Json.run c Json.create [.setString n (some (s ++ [x]))] = .ok m ∧
      getStringValue m n (s ++ [x]).length = .ok (0, some s) := by
  have : same n n = true := by simp [same]
  refine ⟨_, rfl, ?_⟩
  simp [getStringValue, Json.find, append, Json.create, Item.kids, Item.text, this, ofText]

/-- C87 fails for a topic that is set twice: the first is freed twice. -/
theorem C87_topic_again_fails (c : Conv) (a b : Bytes) : Json.run c Json.create [.setTopic a, .setTopic b] = .ub := rfl

/-- C87 fails for a negative index: a message is given with success, and it has no content. -/
theorem C87_negative_fails (c : Conv) (n s : Bytes) (i : Int) (hi : i < 0) :
    ∃ m, Json.run c Json.create [.addString n (some s)] = .ok m ∧ messageItem m n i = (0, some none) := by
  refine ⟨_, rfl, ?_⟩
  have hs : same n n = true := by simp [same]
  have : Json.find (addTo Json.create n (some (ofText s))) n = some (append newArray none (ofText s)) := by
    rw [find_addTo, if_pos hs]
    rfl
  have hl : ((append newArray none (ofText s)).kids.length : Int) = 1 := rfl
  simp only [messageItem, Option.map_some, this, hl, show ¬ ((1 : Int) ≤ i) by omega, hi, if_false, if_true]

/-- C87 fails for a number read as text into a buffer, as binary data or as topic: this reads through NULL. A topic that is too
long for the buffer is written behind it. -/
theorem C87_null_fails (c : Conv) (v : BitVec 32) (size : Nat) :
    (∃ m, Json.run c Json.create [.setInt32 [65] v] = .ok m ∧ getStringValue m [65] size = .ub ∧ getBinary m [65] = .ub) ∧
    ∀ t : Bytes, size ≤ t.length → ∃ m, Json.run c Json.create [.setTopic t] = .ok m ∧ getTopic m size = .ub := by
  constructor
  · exact ⟨_, rfl, rfl, rfl⟩
  · intro t ht
    refine ⟨_, rfl, ?_⟩
    have : Json.find (append Json.create (some topicName) (ofText t)) topicName = some (ofText t) := rfl
    simp only [getTopic, this, show (ofText t).text = some t from rfl, show ¬ t.length < size by omega, if_false]

end Verif.Props
