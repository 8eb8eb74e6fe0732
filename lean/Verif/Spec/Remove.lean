import Verif.Model.Remove
import Verif.Spec.Box

/-!
# Specification: what is left when a box is removed
-/
namespace Boxes.Spec

/-- `Piece n s t`: `t` is a contiguous piece of `s` with at most `n` spaces in front. -/
def Piece (n : Nat) (s t : Str) : Prop := ∃ k p m, k ≤ n ∧ t = spaces k ++ (s.drop p).take m

/-- `LinePiece n l l'`: the text of line `l'`, if any, is a piece of the text of line `l`. -/
def LinePiece (n : Nat) (l l' : Line) : Prop :=
  l'.tabpos = l.tabpos ∧ ∀ b', l'.text = some b' → ∃ b, l.text = some b ∧ Piece n b.memory b'.memory

/-- `TakenFrom n src out`: every line of `out` is a piece of its own line of `src`; the order of the lines is kept. -/
def TakenFrom (n : Nat) (src out : List Line) : Prop :=
  ∃ f : Nat → Nat, (∀ k k', k < k' → k' < out.length → f k < f k') ∧
    ∀ (k : Nat) l', out[k]? = some l' → ∃ l, src[f k]? = some l ∧ LinePiece n l l'

/-- `BlanksDropped db limit body k`: the first `k` lines of `body` are dropped because they are blank: no other lines, no more than
the limit allows (`none`: no limit), and no fewer than possible. -/
structure BlanksDropped (db : CharDb) (limit : Option Nat) (body : List Line) (k : Nat) : Prop where
  inside : k ≤ body.length
  blank : ∀ (j : Nat) l, j < k → body[j]? = some l → textIsBlank db l.text = true
  atMost : ∀ m, limit = some m → k ≤ m
  most : k < body.length → limit = some k ∨ ∃ l, body[k]? = some l ∧ textIsBlank db l.text = false

/-- `Outdented db left padding src n`: `n` is the number of blanks to be taken from the front of the lines `src`: none if the box
has a left side; otherwise the padding of the design, but no more than the smallest indentation. -/
structure Outdented (leftOpen : Bool) (padding : Nat) (src : List Line) (n : Nat) : Prop where
  closed : leftOpen = false → n = 0
  atMost : n ≤ padding
  blanks : ∀ l ∈ src, ∃ t, l.text = some t ∧ n ≤ t.indent
  most : leftOpen = true → src ≠ [] → n = padding ∨ ∃ l ∈ src, ∃ t, l.text = some t ∧ t.indent = n

/-- `Measured src maxline indent`: `maxline` is the number of columns of the widest of the lines `src`, `indent` the smallest
indentation among them, blank lines included. -/
structure Measured (src : List Line) (maxline indent : Nat) : Prop where
  bounds : ∀ l ∈ src, ∃ t, l.text = some t ∧ t.cols ≤ maxline ∧ indent ≤ t.indent
  widest : src ≠ [] → ∃ l ∈ src, ∃ t, l.text = some t ∧ t.cols = maxline
  least : src ≠ [] → ∃ l ∈ src, ∃ t, l.text = some t ∧ t.indent = indent
  none : src = [] → maxline = 0 ∧ indent = 2 ^ 64 - 1

/-- Start of what remains of a body line: behind the left side and those blanks behind it that are padding -/
def keepFrom (db : CharDb) (d : Design) (c : LineCtx) (l : Str) : Nat :=
  if 0 < c.westQuality then c.westEnd + leadingBlanks db ((l.drop c.westEnd).take d.padding.left) else 0

/-- End of what remains of a body line: where the right side begins -/
def keepTo (c : LineCtx) (l : Str) : Nat := if 0 < c.eastQuality then c.eastStart else l.length

/-- The spaces put in front of what remains -/
def restored (opt : Opt) (indent : Nat) : Nat := if opt.indentmode = 'b' ∨ opt.indentmode = '\x00' then indent else 0

end Boxes.Spec
