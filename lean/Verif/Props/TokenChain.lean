import Verif.Proof.TokenChain

/-!
# C47: event names with wildcards and aliases

Elements are given by what their nodes hold, the element first, then the nodes above it. `path` lists the
steps from the top, telling which ones are rows of a table.
-/

namespace Verif.Props

open Verif Verif.Element Verif.TokenChain
open Verif.Spec.EventName (Part Step addresses written Proper AllProper IsRowNumber number stepsUp path
  belowTable)

/-- C47 (matching). An event name properly written for a registered element makes a chain, and the chain
matches an element exactly when the event name addresses it: as many parts as steps, each part equal to
the step's name, or `*` at a row, or the alias of the row; the element being of the same kinds, step by
step, as the registered one. The chain's memory can be freed.
Partial: if aliases are used, all rows on the way to the element must have an alias (see
`C47_row_without_alias_fails`), the name must have two characters, and must not begin with a dot. -/
theorem C47_match_partial (ps : List Part) (dotAtEnd : Bool) (reg inst : List Info) (hps : ps ≠ [])
    (hw : AllProper ps (path reg)) (hlen : 2 ≤ (written ps dotAtEnd).length)
    (hal : (∃ a, .rowCalled a ∈ ps) → ∀ s ∈ path inst, s.row = true → s.alias ≠ none) :
    ∃ c, TokenChain.create (written ps dotAtEnd) reg = .ok c ∧ c.owned = true ∧
      («match» c inst = .ok true ↔
        reg.map (·.type) = inst.map (·.type) ∧ addresses ps (path inst) = true) ∧
      («match» c inst = .ok true ∨ «match» c inst = .ok false) := by
  have hw' : AllProper ps.reverse (stepsUp reg) := by
    have := allProper_reverse _ _ hw
    rwa [path, List.reverse_reverse] at this
  have hne : ps.reverse ≠ [] := by simpa using hps
  have hback : ∀ d, (written ps d).reverse = (if d then [dot] else []) ++ back ps.reverse := by
    intro d
    rw [← back_eq ps.reverse, List.reverse_reverse]
    cases d <;> simp [written, dot]
  obtain ⟨c, hc, hb⟩ := build_proper reg ps.reverse (written ps dotAtEnd).reverse [] hw' hne
    (by rw [hback]; cases dotAtEnd <;> simp) (by simpa using hlen)
  have hcr : TokenChain.create (written ps dotAtEnd) reg =
      .ok ⟨(toksUp ps.reverse reg).reverse, true⟩ := by
    unfold TokenChain.create
    rw [if_neg (by intro h; rw [h] at hlen; simp at hlen), hb]
    simp [hc]
  refine ⟨_, hcr, rfl, ?_⟩
  have hm := matchFrom_proper reg ps.reverse inst false hw' (by
    rintro ⟨a, ha⟩ s hs
    exact hal ⟨a, by simpa using ha⟩ s (by simpa [path] using hs))
  have hm' : «match» ⟨(toksUp ps.reverse reg).reverse, true⟩ inst =
      matchFrom false (toksUp ps.reverse reg) inst := by
    unfold «match»
    rw [List.reverse_reverse]
  have ha : addresses ps.reverse (stepsUp inst) = addresses ps (path inst) := by
    rw [← addresses_reverse, List.reverse_reverse, path]
  rw [hm', hm, ha]
  refine ⟨?_, ?_⟩
  · simp only [Res.ok.injEq, Bool.and_eq_true, decide_eq_true_eq]
    constructor
    · rintro ⟨⟨⟨h1, -⟩, h2⟩, -⟩
      exact ⟨h1, h2⟩
    · rintro ⟨h1, h2⟩
      refine ⟨⟨⟨h1, ?_⟩, h2⟩, rows_of_types _ _ h1⟩
      have := congrArg List.length h1
      simpa using this
  · simp only [Res.ok.injEq]
    exact (Bool.eq_false_or_eq_true _)

/-- The nodes of `A.T.<row>.x`, a property `x` below a row of a table `A.T`. -/
def cell (row : Bytes) (alias : Option Bytes) : List Info :=
  [⟨[120], [], tProperty, none, {}⟩, ⟨row, [], tObject, alias, {}⟩, ⟨[84], [], tTable, none, {}⟩,
    ⟨[65], [], tObject, none, {}⟩]

/-- `A.T.*.x` -/
def starName : List Part := [.exactly [65], .exactly [84], .anyRow, .exactly [120]]

/-- `A.T.[k].x` -/
def aliasName : List Part := [.exactly [65], .exactly [84], .rowCalled [107], .exactly [120]]

example : AllProper starName (path (cell template none)) ∧ 2 ≤ (written starName false).length ∧
    addresses starName (path (cell [55] none)) = true := by
  refine ⟨?_, by decide, by decide⟩
  simp [starName, cell, path, stepsUp, belowTable, AllProper, Proper, tTable, tObject]

example : AllProper aliasName (path (cell template none)) ∧
    addresses aliasName (path (cell [55] (some [107]))) = true ∧
    addresses aliasName (path (cell [55] (some [108]))) = false ∧
    (∀ s ∈ path (cell [55] (some [107])), s.row = true → s.alias ≠ none) := by
  refine ⟨?_, by decide, by decide, by decide⟩
  simp [aliasName, cell, path, stepsUp, belowTable, AllProper, Proper, tTable, tObject]

/-- C47 (failure). Whatever the alias asked for, an event name `A.T.[alias].x` also matches the property
below every row that has no alias at all: the result of the previous comparison is used. -/
theorem C47_row_without_alias_fails (a : Bytes) (h1 : a ≠ []) (h2 : 46 ∉ a) (h3 : 0 ∉ a) (h4 : 93 ∉ a)
    (row : Bytes) :
    ∃ c, TokenChain.create (written [.exactly [65], .exactly [84], .rowCalled a, .exactly [120]] false)
        (cell template none) = .ok c ∧
      «match» c (cell row none) = .ok true ∧
      addresses [.exactly [65], .exactly [84], .rowCalled a, .exactly [120]] (path (cell row none)) =
        false := by
  have hw : AllProper [.exactly [65], .exactly [84], .rowCalled a, .exactly [120]]
      (path (cell template none)) := by
    simp [cell, path, stepsUp, belowTable, AllProper, Proper, tTable, tObject, h1, h2, h3, h4]
  have hw' := allProper_reverse _ _ hw
  rw [path, List.reverse_reverse] at hw'
  obtain ⟨c, hc, hb⟩ := build_proper (cell template none) _
    (written [.exactly [65], .exactly [84], .rowCalled a, .exactly [120]] false).reverse [] hw'
    (by simp) (.inl (by
      rw [← back_eq, List.reverse_reverse]
      simp [written])) (by simp [written, Spec.EventName.dotted, Part.text])
  refine ⟨_, by
    unfold TokenChain.create
    rw [if_neg (by simp [written, Spec.EventName.dotted, Part.text]), hb]
    rfl, ?_, ?_⟩
  · have htx : (⟨a ++ [0], .alias, tObject, true⟩ : TokenChain.Token).text = a :=
      takeWhile_ne_zero a [] h3
    simp [«match», toksUp, cell, tokOf, parentIsTable, matchFrom, TokenChain.Token.text, tTable, tObject]
  · simp [addresses, Part.fits, cell, path, stepsUp]

/-- C47 (failure). An event name that begins with a dot, otherwise well written, makes a chain whose
memory cannot be freed again: `free` is called with an address inside the block. -/
theorem C47_leading_dot_fails :
    ∃ c, TokenChain.create (46 :: written starName false) (cell template none) = .ok c ∧
      c.owned = false ∧ «match» c (cell [55] none) = .ok true := by
  refine ⟨_, rfl, by decide +kernel, by decide +kernel⟩

/-- C47 (failure). An event name that ends in an opening bracket where a row is expected is read past its
end. -/
theorem C47_open_bracket_fails :
    TokenChain.create [65, 46, 84, 46, 91] (cell template none).tail = .ub := by decide +kernel

/-- C47 (failure). Event names of one character are never accepted. -/
theorem C47_one_character_fails (c : UInt8) (i : Info) : TokenChain.create [c] [i] = .fail := by
  simp [TokenChain.create, build]

end Verif.Props
