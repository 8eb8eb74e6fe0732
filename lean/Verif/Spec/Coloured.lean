import Verif.Spec.RoundTrip

/-!
# Specification: text in colour
-/
namespace Boxes.Spec

/-- A line of text, parts of which may be in colour: `t`, with the visible characters `v`.  No tabs, line breaks and characters that the
program refuses, no blanks other than spaces; it is empty or shows something; behind its indentation there is at most one escape sequence
(which is no reset) in front of the first character, and behind its last character, which is no white space, there is at most one escape
sequence (which is a reset).  In between there may be any sequences. -/
structure ColouredLine (db : CharDb) (t v : Str) : Prop where
  text : Text t v
  chars : ∀ c ∈ t, c ≠ 0x09 ∧ c ≠ 0x0a ∧ c ≠ 0x0d ∧ ¬ Forbidden db c
  blanks : ∀ c ∈ v, Blank db c → c = 0x20
  begins : t = [] ∨ ∃ k e c r, t = spaces k ++ (e ++ c :: r) ∧ c ≠ 0x1b ∧ ¬ Blank db c ∧ (e = [] ∨ (EscSeq e ∧ ¬ ResetSeq e))
  ends : t = [] ∨ ∃ p x c e, t = p ++ c :: e ∧ Text p x ∧ c ≠ 0x1b ∧ db.white c = false ∧ (e = [] ∨ ResetSeq e)
  shows : t = [] ∨ Seen db v
  short : t.length < 16360

end Boxes.Spec
