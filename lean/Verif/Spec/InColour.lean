import Verif.Spec.Recoloured
import Verif.Spec.RoundTrip

/-!
# Specification: a design in colour
-/
namespace Boxes.Spec
open ShapeName

/-- `e` is the design `d` in colour, and boxes drawn with it are found again on a terminal that shows the colours.  A line of its left side begins with
blanks, at most one escape sequence (which is no reset), and a visible character that is no blank.  The last visible character of a line of its right
side is no blank.  The lines of the left side have the same number of characters (all of them, not only the visible ones) and begin with the same number of
blanks; those of the right side have the same number of characters.  No line of the two sides has fewer characters than columns. -/
structure InColour (db : CharDb) (d e : Design) : Prop where
  plain : Recognisable db d
  same : Recoloured db d e
  colour : ∃ n, Present (e.shape n) ∧ ∃ b ∈ (e.shape n).lines, 0x1b ∈ b.memory
  clean : ∀ n, Present (e.shape n) → ∀ b ∈ (e.shape n).lines, ∀ c ∈ b.memory, c ≠ 0x09 ∧ c ≠ 0x0a ∧ c ≠ 0x0d ∧ ¬ Forbidden db c
  west : ∀ n ∈ [WNW, W, WSW], Present (e.shape n) → ∀ b ∈ (e.shape n).lines, ∃ p s c r, b.memory = p ++ (s ++ c :: r) ∧
    (∀ x ∈ p, Blank db x) ∧ (s = [] ∨ (EscSeq s ∧ ¬ ResetSeq s)) ∧ c ≠ 0x1b ∧ ¬ Blank db c
  east : ∀ n ∈ [ENE, E, ESE], Present (e.shape n) → ∀ b ∈ (e.shape n).lines, ∃ p v c s, b.memory = p ++ c :: s ∧
    Text p v ∧ c ≠ 0x1b ∧ ¬ Blank db c ∧ Text s []
  westAlike : ∀ n ∈ [WNW, W, WSW], ∀ n' ∈ [WNW, W, WSW], Present (e.shape n) → Present (e.shape n') → ∀ b ∈ (e.shape n).lines,
    ∀ b' ∈ (e.shape n').lines, b.memory.length = b'.memory.length ∧ leadingBlanks db b.memory = leadingBlanks db b'.memory
  eastAlike : ∀ n ∈ [ENE, E, ESE], ∀ n' ∈ [ENE, E, ESE], Present (e.shape n) → Present (e.shape n') → ∀ b ∈ (e.shape n).lines,
    ∀ b' ∈ (e.shape n').lines, b.memory.length = b'.memory.length
  room : ∀ n ∈ [WNW, W, WSW, ENE, E, ESE], Present (e.shape n) → ∀ b ∈ (e.shape n).lines, (e.shape n).width ≤ b.memory.length

/-- The lines are a box indented by `ind` around the texts `ms`, drawn with the design `e`, which is `d` in colour. -/
structure ColouredBox (db : CharDb) (d e : Design) (ind : Nat) (ms : List Str) (lines : List Line) : Prop where
  count : lines.length = (d.shape NE).height + ms.length + (d.shape SE).height
  read : ∀ l ∈ lines, ∃ b, l.text = some b ∧ fromUnicode db b.memory = some b
  allowed : ∀ l ∈ lines, ∀ b, l.text = some b → ∀ c ∈ b.memory, ¬ Forbidden db c
  top : ∀ (y : Nat) l b, y < (d.shape NE).height → lines[y]? = some l → l.text = some b →
    ∃ row, Text b.memory row ∧ EdgeRow db d true ind y row
  body : ∀ (k : Nat) l b m, ms[k]? = some m → lines[(d.shape NE).height + k]? = some l → l.text = some b →
    ∃ n ∈ [WNW, W, WSW], ∃ n' ∈ [ENE, E, ESE], Present (e.shape n) ∧ Present (e.shape n') ∧
      ∃ w ∈ (e.shape n).lines, ∃ x ∈ (e.shape n').lines, b.memory = spaces ind ++ w.memory ++ m ++ x.memory
  bottom : ∀ (y : Nat) l b, y < (d.shape SE).height → lines[(d.shape NE).height + ms.length + y]? = some l → l.text = some b →
    ∃ row, Text b.memory row ∧ EdgeRow db d false ind y row
  padded : ∀ m ∈ ms, e.padding.left ≤ m.length ∧ ∀ c ∈ m.take e.padding.left, Blank db c ∧ c ≠ 0x1b
  texts : ∀ m ∈ ms, ∃ v, Text m v ∧ NarrowBlanks db v

end Boxes.Spec

