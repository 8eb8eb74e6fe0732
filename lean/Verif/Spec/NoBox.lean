import Verif.Spec.RoundTrip

/-! Texts that show nothing of a box (C88). -/

namespace Boxes.Spec
open Boxes ShapeName

/-- Nothing that can be seen in a box of the design occurs in the text. -/
def Foreign (db : CharDb) (d : Design) (v : Str) : Prop :=
  ∀ n, Present (d.shape n) → ∀ b ∈ (d.shape n).lines, ∀ c ∈ b.memory, ¬ Blank db c → c ∉ v

/-- Text in which nothing of a box of the design can be seen: no escape sequences, no refused characters, and all blanks are one column
wide (tabs have been expanded). -/
structure NoBox (db : CharDb) (d : Design) (lines : List Line) : Prop where
  texts : ∀ l ∈ lines, ∃ b, l.text = some b ∧ fromUnicode db b.memory = some b ∧ (∀ c ∈ b.memory, c ≠ 0x1b) ∧ NarrowBlanks db b.memory ∧
    Foreign db d b.memory

/-- Line `k` is not in front of the first and not behind the last line that shows something. -/
def Inside (db : CharDb) (lines : List Line) (k : Nat) : Prop :=
  ∃ a e l l', a ≤ k ∧ k ≤ e ∧ lines[a]? = some l ∧ lines[e]? = some l' ∧ textIsBlank db l.text = false ∧ textIsBlank db l'.text = false

/-- Line `k` of a text is neither in front of the first line that shows something nor behind the last one. -/
def Within (db : CharDb) (vs : List Str) (k : Nat) : Prop :=
  ∃ (a e : Nat) (v v' : Str), a ≤ k ∧ k ≤ e ∧ vs[a]? = some v ∧ vs[e]? = some v' ∧ ¬ BlankText db v ∧ ¬ BlankText db v'

/-- A text that shows nothing of a box of the design: no escape sequences, no refused characters, blanks one column wide. -/
def Unboxed (db : CharDb) (d : Design) (vs : List Str) : Prop :=
  ∀ v ∈ vs, (∀ c ∈ v, c ≠ 0x1b ∧ ¬ Forbidden db c) ∧ NarrowBlanks db v ∧ Foreign db d v

end Boxes.Spec
