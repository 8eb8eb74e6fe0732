import Verif.Spec.RoundTrip
import Verif.Spec.Parse

/-!
# Specification: what is read from what was printed
-/
namespace Boxes.Spec
open ShapeName

/-- The pieces in which a text is read line by line: each one ends with the first line feed in it; there may be none in the last one. -/
structure ReadInLines (text : Str) (pieces : List Str) : Prop where
  all : pieces.flatten = text
  nonempty : ∀ p ∈ pieces, p ≠ []
  inside : ∀ p ∈ pieces, 0x0a ∉ p.dropLast
  ends : ∀ (x : Nat) p, x + 1 < pieces.length → pieces[x]? = some p → p.getLast? = some 0x0a

/-- Shape lines that are shown as they are written: without escape sequences and tabs, and every character is one column wide. -/
def PlainTexts (db : CharDb) (decls : List Decl) : Prop := ∀ s ∈ fileTexts decls, ∀ c ∈ s, c ≠ 0x1b ∧ c ≠ 0x09 ∧ width db c = 1

/-- A design that makes a frame: there is something to see in each line of the corners and of the left and right side; the lines of
the left side begin with the same number of blanks, those of the right side end with the same number of blanks; and one of the left
corners begins without blanks. -/
structure Framed (db : CharDb) (d : Design) : Prop where
  seen : ∀ n ∈ [NW, NE, SE, SW, WNW, W, WSW, ENE, E, ESE], ∀ b ∈ (d.shape n).lines, Seen db b.memory
  left : ∀ n ∈ [WNW, W, WSW], ∀ n' ∈ [WNW, W, WSW], ∀ b ∈ (d.shape n).lines, ∀ b' ∈ (d.shape n').lines,
    leadingBlanks db b.memory = leadingBlanks db b'.memory
  right : ∀ n ∈ [ENE, E, ESE], ∀ n' ∈ [ENE, E, ESE], ∀ b ∈ (d.shape n).lines, ∀ b' ∈ (d.shape n').lines,
    (dropTrailing db b.memory).length = (dropTrailing db b'.memory).length
  flush : ∃ n ∈ [NW, SW], ∃ b ∈ (d.shape n).lines, ∃ c r, b.memory = c :: r ∧ ¬ Blank db c

end Boxes.Spec
