import Verif.Spec.Remove
import Verif.Spec.Box

/-!
# Specification: designs and inputs that a box can be removed with

All designs that the parser accepts and all inputs that the program reads are like this, apart from wide blanks (U+3000).
-/
namespace Boxes.Spec

/-- A line of a shape: a generated one of spaces, or an analysed text in which blanks are one column wide. -/
def ReadyLine (db : CharDb) (b : Bxs) : Prop :=
  (∃ w, b = fromAscii (List.replicate w 0x20)) ∨
  ∃ v, Text b.memory v ∧ fromUnicode db b.memory = some b ∧ NarrowBlanks db v

/-- A design as the parser makes it. -/
structure ReadyDesign (db : CharDb) (d : Design) : Prop where
  good : GoodDesign db d
  lines : ∀ n, Present (d.shape n) → ∀ b ∈ (d.shape n).lines, ReadyLine db b

/-- Input lines as they are read. -/
def ReadyInput (db : CharDb) (lines : List Line) : Prop :=
  ∀ l ∈ lines, ∃ b v, l.text = some b ∧ fromUnicode db b.memory = some b ∧ Text b.memory v ∧ NarrowBlanks db v

/-- No line contains a character that is refused, not even inside an escape sequence. -/
def CleanInput (db : CharDb) (lines : List Line) : Prop := ∀ l ∈ lines, ∀ b, l.text = some b → ∀ x ∈ b.memory, ¬ Forbidden db x

/-- In every line of the body, the right side does not begin in front of the end of the left side and its padding. -/
def SidesApart (db : CharDb) (d : Design) (lines : List Line) (ctx : RemoveCtx) : Prop :=
  ∀ (k : Nat) l lc b v, lines[ctx.topEnd + k]? = some l → ctx.body[k]? = some lc → l.text = some b → Text b.memory v →
    keepFrom db d lc (if ctx.compType.skipsInput then v else b.memory) ≤ keepTo lc (if ctx.compType.skipsInput then v else b.memory)

end Boxes.Spec
