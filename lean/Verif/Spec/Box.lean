import Verif.Spec.Layout
import Verif.Spec.Tools
import Verif.Spec.Db

/-!
# Specification: the drawn box
-/
namespace Boxes.Spec
open ShapeName

/-- `n` spaces -/
def spaces (n : Nat) : Str := List.replicate n 0x20

/-- What drawing needs of the four assembled sides. -/
structure GoodBox (db : CharDb) (d : Design) (box : Sides Shape) : Prop where
  top : GoodShape db box.top
  right : GoodShape db box.right
  bottom : GoodShape db box.bottom
  left : GoodShape db box.left
  sameWidth : box.bottom.width = box.top.width
  sameHeight : box.left.height = box.right.height
  topHeight : box.top.height = (d.shape NW).height
  bottomHeight : box.bottom.height = (d.shape SW).height
  room : box.top.height + box.bottom.height ≤ box.right.height

/-- What drawing needs of the input: its lines are the texts `p.1` with visible part `p.2`; no line is wider than `maxline`; the
common indentation, if it is kept inside of the box, is that of the lines; the recorded tabs do not overlap. -/
structure TextBlock (db : CharDb) (opt : Opt) (d : Design) (input : Input) (ls : List (Str × Str)) : Prop where
  nonempty : ls ≠ []
  texts : input.lines.map Line.text = ls.map (fun p => fromUnicode db p.1)
  good : ∀ p ∈ ls, Text p.1 p.2 ∧ ∀ c ∈ p.2, ¬ Forbidden db c
  narrow : opt.justify ≠ '\x00' → ∀ p ∈ ls, NarrowBlanks db p.2
  fits : ∀ p ∈ ls, columns db p.2 ≤ input.maxline
  indented : d.indentmode = 't' → input.indent ≤ input.maxline ∧
    ∀ p ∈ ls, 0 < columns db p.2 → input.indent ≤ leadingBlanks db p.2
  tabs : opt.tabexp = 'k' → ∀ l ∈ input.lines, l.tabpos.Pairwise (fun a b => a + tabCols opt.tabstop a ≤ b)
  tabstop : 1 ≤ opt.tabstop

/-- The text with its padding fits into the box: `n` lines. -/
structure Room (d : Design) (box : Sides Shape) (maxline n : Nat) : Prop where
  vertical : box.top.height + box.bottom.height + n + (d.padding.top + d.padding.bottom) ≤ box.right.height
  horizontal : maxline + (d.padding.left + d.padding.right) ≤ box.top.width

/-- Share of the spare lines that is above the text: half of them for `c`, all for `b`, none otherwise. -/
def shareAbove (valign : Char) (spare : Nat) : Nat :=
  if valign = 'c' then spare / 2 else if valign = 'b' then spare else 0

/-- Share of the spare columns that is left of the text: half of them for `c`, all for `r`, none otherwise. -/
def shareLeft (halign : Char) (spare : Nat) : Nat :=
  if halign = 'c' then spare / 2 else if halign = 'r' then spare else 0

/-- Number of empty lines above the text -/
def linesAbove (opt : Opt) (d : Design) (box : Sides Shape) (n : Nat) : Nat :=
  d.padding.top + shareAbove opt.valign
    (box.right.height - (box.top.height + box.bottom.height + n + (d.padding.top + d.padding.bottom)))

/-- Number of empty columns left of the text.  A single column that is not text goes to the left of right-aligned text, even if
it is the right padding. -/
def columnsLeft (opt : Opt) (d : Design) (box : Sides Shape) (maxline : Nat) : Nat :=
  if box.top.width = maxline + 1 ∧ opt.halign = 'r' then 1
  else d.padding.left + shareLeft opt.halign (box.top.width - (maxline + (d.padding.left + d.padding.right)))

/-- `Shifted db opt d input v skew k`: the text `v` of a line is to be moved by `k` columns.  `lead` is the number of its leading
blanks, `len` the width of the rest; `base` is the first column of the text block.  Afterwards, the rest begins in column
`base`, ends in the last column, or is centred; an odd column is to the right of it, to the left if `skew` says so. -/
structure Shifted (db : CharDb) (opt : Opt) (d : Design) (input : Input) (v : Str) (skew : Int) (k : Int) : Prop where
  /-- the line stays within the text block -/
  left : 0 ≤ (leadingBlanks db v : Int) + k
  right : (columns db v : Int) + k ≤ input.maxline
  unjustified : opt.justify ∉ ['l', 'c', 'r'] → k = 0
  blank : (∀ c ∈ v, Blank db c ∨ c = 0x0d) → k = 0
  leftJustified : opt.justify = 'l' → (∃ c ∈ v, ¬ Blank db c ∧ c ≠ 0x0d) →
    leadingBlanks db v + k = if d.indentmode = 't' then input.indent else 0
  rightJustified : opt.justify = 'r' → (∃ c ∈ v, ¬ Blank db c ∧ c ≠ 0x0d) → columns db v + k = input.maxline
  centred : opt.justify = 'c' → (∃ c ∈ v, ¬ Blank db c ∧ c ≠ 0x0d) →
    ∃ base len free : Nat, base = (if d.indentmode = 't' then input.indent else 0) ∧
      leadingBlanks db v + len = columns db v ∧ base + len + free = input.maxline ∧
      leadingBlanks db v + k = base + free / 2 + (if free % 2 = 1 ∧ skew - base = 1 then 1 else 0)

/-- `Placed ... v k m`: between the sides, `m` shows the line `s` with visible text `v`, moved by `k` columns: blanks, the text
(less `-k` leading blanks if `k` is negative, complete otherwise; a line of escape sequences only may lose them), blanks. -/
structure Placed (db : CharDb) (maxline lp rp : Nat) (s v : Str) (k : Int) (m : Str) : Prop where
  blanks : ∀ c ∈ v.take (-k).toNat, Blank db c
  cut : columns db (v.take (-k).toNat) = (-k).toNat
  row : ∃ t, t <:+ s ∧ (0 ≤ k → v ≠ [] → t = s) ∧ (k < 0 → From (-k).toNat s v t) ∧ Text t (v.drop (-k).toNat) ∧
    m = spaces (lp + k.toNat) ++ t ++ spaces (rp + ((maxline : Int) - columns db v - k).toNat)

/-- The indentation in front of the box: nothing unless the box is to be indented; spaces, or tabs and spaces for the same
columns; in mode `k` the tabs of a line are restored (see C08). -/
structure IndentOf (opt : Opt) (d : Design) (input : Input) (i : Nat) (ind : Str) : Prop where
  chars : ∀ c ∈ ind, c = 0x20 ∨ c = 0x09
  off : d.indentmode ≠ 'b' → ind = []
  expanded : d.indentmode = 'b' → opt.tabexp ≠ 'u' → opt.tabexp ≠ 'k' → ind = spaces input.indent
  unexpanded : d.indentmode = 'b' → opt.tabexp = 'u' → Expand opt.tabstop 0 ind (spaces input.indent) ∧
    ∃ n k, ind = List.replicate n 0x09 ++ List.replicate k 0x20 ∧ k < opt.tabstop
  kept : d.indentmode = 'b' → opt.tabexp = 'k' → ∀ l, input.lines[i]? = some l →
    (∀ a b c, fitting opt.tabstop input.indent l.tabpos = a ++ b :: c → c ≠ [] → opt.tabstop ∣ b + 1) →
    Expand opt.tabstop 0 ind (spaces input.indent) ∧ ∀ p : Nat, ind[p]? = some 0x09 ↔ p ∈ fitting opt.tabstop input.indent l.tabpos

/-- A shape that is missing or shows nothing but blanks. -/
def BlankShape (db : CharDb) (s : Shape) : Prop :=
  Present s → ∀ b ∈ s.lines, ∀ v, Text b.memory v → ∀ c ∈ v, Blank db c ∨ width db c = 0

/-- A side of the box that shows nothing but blanks. -/
def BlankSide (db : CharDb) (d : Design) (names : List ShapeName) : Prop := ∀ n ∈ names, BlankShape db (d.shape n)

/-- `k` is `n` or 0, depending on `P`. -/
def NumberIf (P : Prop) (n k : Nat) : Prop := (P → k = n) ∧ (¬ P → k = 0)

/-- `RowAt ... y i m`: what row `y` of the box shows between the left and the right side (`m`), and the input line `i` whose
indentation it gets: the lines of the top side, empty lines, the input lines, empty lines, the lines of the bottom side.
`above` and `below` are the numbers of empty lines, `lp` and `rp` the columns left and right of the text block. -/
inductive RowAt (db : CharDb) (opt : Opt) (d : Design) (input : Input) (ls : List (Str × Str)) (box : Sides Shape)
    (above below lp rp : Nat) : Nat → Nat → Str → Prop
  | top (y : Nat) : y < box.top.height → RowAt db opt d input ls box above below lp rp y 0 (lineText box.top y)
  | above (y : Nat) : y < above →
      RowAt db opt d input ls box above below lp rp (box.top.height + y) 0 (spaces box.top.width)
  | text (y : Nat) (p : Str × Str) (k : Int) (m : Str) : ls[y]? = some p →
      Shifted db opt d input p.2 ((rp : Int) - lp) k → Placed db input.maxline lp rp p.1 p.2 k m →
      RowAt db opt d input ls box above below lp rp (box.top.height + above + y) y m
  | below (y : Nat) : y < below →
      RowAt db opt d input ls box above below lp rp (box.top.height + above + ls.length + y) (ls.length - 1)
        (spaces box.top.width)
  | bottom (y : Nat) : y < box.bottom.height →
      RowAt db opt d input ls box above below lp rp (box.top.height + above + ls.length + below + y) (ls.length - 1)
        (lineText box.bottom y)

/-- `Row ... y i m row`: row `y` of the box before its trailing blanks are removed: indentation of input line `i`, left side
(unless it is to be left out), `m`, right side. -/
structure Row (opt : Opt) (d : Design) (input : Input) (box : Sides Shape) (noLeft : Prop) (y i : Nat) (m : Str) (row : Str) :
    Prop where
  parts : ∃ ind left, IndentOf opt d input i ind ∧ (noLeft → left = []) ∧ (¬ noLeft → left = lineText box.left y) ∧
    row = ind ++ left ++ m ++ lineText box.right y

end Boxes.Spec
