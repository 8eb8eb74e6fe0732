import Verif.Spec.Box
import Verif.Model.Main

/-!
# Specification: sizes and padding
-/
namespace Boxes.Spec
open ShapeName

/-- Padding `a`, `b` of two opposite sides when `x` lines or columns must go: half of `x` is taken from either side, the odd one
from the first; what one side does not have is taken from the other; no side goes below zero. -/
def reduced (x a b : Nat) : Nat × Nat := (a - max ((x + 1) / 2) (x - b), b - max (x / 2) (x - a))

/-- `Fitted req need min a b a' b' min'`: padding `a`, `b` of opposite sides, `need` lines or columns for text and corners, the
minimum size `min` and whether the user requested a size become padding `a'`, `b'` and minimum size `min'`. -/
structure Fitted (requested : Prop) (need min a b a' b' min' : Nat) : Prop where
  /-- enough room, or no padding at all: nothing changes -/
  enough : need + (a + b) ≤ min ∨ a + b = 0 → a' = a ∧ b' = b ∧ min' = min
  /-- the box grows unless the user requested its size -/
  grow : min < need + (a + b) → 0 < a + b → ¬ requested → a' = a ∧ b' = b ∧ min' = need + (a + b)
  /-- otherwise, the padding is reduced -/
  shrink : min < need + (a + b) → 0 < a + b → requested → (a', b') = reduced (need + (a + b) - min) a b ∧ min' = min

/-- padding of a side: that of the command line if given there, else that of the design -/
def wanted (o : Int) (p : Nat) : Nat := if 0 ≤ o then o.toNat else p

/-- no forbidden characters, and blanks that are one column wide -/
def Legit (db : CharDb) (v : Str) : Prop := (∀ c ∈ v, ¬ Forbidden db c) ∧ NarrowBlanks db v

/-- An input line that can be handled: visible characters and complete escape sequences, no forbidden characters, blanks one
column wide, and short enough for the buffer once its tabs are expanded. -/
def Readable (db : CharDb) (tabstop : Nat) (s : Str) : Prop :=
  ∃ v t, Text s v ∧ Legit db v ∧ Expand tabstop 0 s t ∧ t.length < 16370

/-- `EndsVisibly db q z`: the text `q`, followed by `z`, does not end in white space: its last visible character, behind which there is one
escape sequence if one follows directly, is no white space. -/
def EndsVisibly (db : CharDb) (q z : Str) : Prop :=
  q = [] ∨ ∃ p x c e, q = p ++ c :: e ∧ Text p x ∧ c ≠ 0x1b ∧ db.white c = false ∧ (EscSeq e ∨ (e = [] ∧ ∀ r, z ≠ 0x1b :: r))

/-- the input, read in pieces, ends with a line break -/
def EndsInBreak (pieces : List Str) : Prop := ∃ a p c, pieces = a ++ [p ++ [c]] ∧ (c = 0x0a ∨ c = 0x0d)

/-- `LeastIndent db vs n`: `n` is the least number of leading blanks of those texts that take columns; more than 16382 are not
counted, and 0 is used if no text takes columns. -/
structure LeastIndent (db : CharDb) (vs : List Str) (n : Nat) : Prop where
  le : ∀ v ∈ vs, 0 < columns db v → n ≤ leadingBlanks db v
  attained : (∃ v ∈ vs, 0 < columns db v) → n = 16382 ∨ ∃ v ∈ vs, 0 < columns db v ∧ leadingBlanks db v = n
  none : (∀ v ∈ vs, columns db v = 0) → n = 0

/-- `Unindented db n p q`: the line `p` (its characters, its visible text) without its first `n` blanks is `q` (see `From` for the escape
sequences behind them); a line without columns may stay as it is; if nothing is to be removed, a line that shows something stays as it is. -/
def Unindented (db : CharDb) (n : Nat) (p q : Str × Str) : Prop :=
  (n ≤ leadingBlanks db p.2 ∧ q.2 = p.2.drop n ∧ q.1 <:+ p.1 ∧ (n = 0 → p.2 ≠ [] → q.1 = p.1) ∧
    (0 < n → From n p.1 p.2 q.1)) ∨
  (columns db p.2 = 0 ∧ 0 < n ∧ q = p)

end Boxes.Spec
