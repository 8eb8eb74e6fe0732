import Verif.Spec.Text

/-!
# Specification: facts about the character database that boxes relies on, and a sample database for the examples
-/
namespace Boxes.Spec

/-- What the code relies on about the character database: a space is a blank and not a control character; the
terminating NUL and the other printable ASCII characters are not blanks. -/
structure Sane (db : CharDb) : Prop where
  space_blank : db.ucBlank 0x20 = true
  space_ok : db.cntrl 0x20 = false
  nul_not_blank : db.ucBlank 0 = false
  ascii_not_blank : ∀ c, 0x20 < c → c < 0x7f → db.ucBlank c = false

/-- Every blank character of the text is one column wide (true of all Unicode blanks except U+3000). -/
def NarrowBlanks (db : CharDb) (v : Str) : Prop := ∀ c ∈ v, Blank db c → width db c = 1

/-- A small sample database for the examples: C0/C1 control characters, East Asian wide characters, and the blanks
space, tab, no-break space, U+3000. -/
def sampleDb : CharDb where
  width c := if c < 0x20 ∨ (0x7f ≤ c ∧ c < 0xa0) then -1 else if 0x3000 ≤ c ∧ c ≤ 0x9fff then 2 else 1
  ucBlank c := c == 0x20 || c == 0x09 || c == 0xa0 || c == 0x3000
  cntrl c := decide (c < 0x20) || (decide (0x7f ≤ c) && decide (c < 0xa0))
  white c := c == 0x20 || (decide (0x09 ≤ c) && decide (c ≤ 0x0d)) || c == 0xa0 || c == 0x3000

theorem sampleDb_sane : Sane sampleDb := ⟨rfl, rfl, rfl, by intro c h1 h2; simp [sampleDb]; omega⟩

end Boxes.Spec
