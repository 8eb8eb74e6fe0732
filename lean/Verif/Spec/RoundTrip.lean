import Verif.Spec.Ready
import Verif.Spec.Side
import Verif.Spec.Main

/-!
# Specification: removing a box that was drawn

A box around some lines of text, described row by row, and the designs whose boxes are found again with certainty.
-/
namespace Boxes.Spec
open ShapeName

/-- a character that shows on the screen -/
def ShowsChar (db : CharDb) (c : Nat) : Prop := ¬ Blank db c ∧ c ≠ 0x0d ∧ width db c ≠ 0

/-- a text of which something shows on the screen -/
def Seen (db : CharDb) (s : Str) : Prop := ∃ c ∈ s, ShowsChar db c

/-- Designs whose boxes are found again: as the parser makes them, without escape sequences; in every line of the corners and of the
left and right side there is something to see; the lines of the left side have the same number of characters and begin with the same
number of blanks, those of the right side have the same number of characters and end with the same number of blanks. -/
structure Recognisable (db : CharDb) (d : Design) : Prop where
  ready : ReadyDesign db d
  plain : ∀ n, Present (d.shape n) → ∀ b ∈ (d.shape n).lines, ∀ c ∈ b.memory, c ≠ 0x1b
  corners : ∀ n ∈ [NW, NE, SW, SE], ∀ b ∈ (d.shape n).lines, Seen db b.memory
  west : ∀ n ∈ [WNW, W, WSW], Present (d.shape n) → ∀ b ∈ (d.shape n).lines, Seen db b.memory
  east : ∀ n ∈ [ENE, E, ESE], Present (d.shape n) → ∀ b ∈ (d.shape n).lines, Seen db b.memory
  westAlike : ∀ n ∈ [WNW, W, WSW], ∀ n' ∈ [WNW, W, WSW], Present (d.shape n) → Present (d.shape n') → ∀ b ∈ (d.shape n).lines,
    ∀ b' ∈ (d.shape n').lines, b.memory.length = b'.memory.length ∧ leadingBlanks db b.memory = leadingBlanks db b'.memory
  eastAlike : ∀ n ∈ [ENE, E, ESE], ∀ n' ∈ [ENE, E, ESE], Present (d.shape n) → Present (d.shape n') → ∀ b ∈ (d.shape n).lines,
    ∀ b' ∈ (d.shape n').lines, b.memory.length = b'.memory.length ∧ (dropTrailing db b.memory).length = (dropTrailing db b'.memory).length

/-- `n` is how often a shape may occur in the side of a box: as long as it is there, at least once; several times only if elastic. -/
def OccursIn (s : Shape) (n : Nat) : Prop := (¬ Present s → n = 0) ∧ (Present s → 0 < n) ∧ (1 < n → s.elastic = true)

/-- Row `y` of the top (bottom) part of a box indented by `ind`: the left corner, the shapes of the side in order, the right corner;
without trailing blanks. -/
def EdgeRow (db : CharDb) (d : Design) (top : Bool) (ind y : Nat) (row : Str) : Prop :=
  ∃ a b c, OccursIn (d.shape (if top then NNW else SSW)) a ∧ OccursIn (d.shape (if top then N else S)) b ∧
    OccursIn (d.shape (if top then NNE else SSE)) c ∧
    row = dropTrailing db (spaces ind ++ lineText (d.shape (if top then NW else SW)) y ++
      times a (lineText (d.shape (if top then NNW else SSW)) y) ++ times b (lineText (d.shape (if top then N else S)) y) ++
      times c (lineText (d.shape (if top then NNE else SSE)) y) ++ lineText (d.shape (if top then NE else SE)) y)

/-- A row of a box around the text `m`: a line of the left side, the text, a line of the right side; without trailing blanks. -/
def BodyRow (db : CharDb) (d : Design) (ind : Nat) (m row : Str) : Prop :=
  ∃ n ∈ [WNW, W, WSW], ∃ n' ∈ [ENE, E, ESE], Present (d.shape n) ∧ Present (d.shape n') ∧
    ∃ b ∈ (d.shape n).lines, ∃ b' ∈ (d.shape n').lines, row = dropTrailing db (spaces ind ++ b.memory ++ m ++ b'.memory)

/-- The lines are a box indented by `ind` around the texts `ms`, as the program reads it. -/
structure BoxAround (db : CharDb) (d : Design) (ind : Nat) (ms : List Str) (lines : List Line) : Prop where
  count : lines.length = (d.shape NE).height + ms.length + (d.shape SE).height
  read : ∀ l ∈ lines, ∃ b, l.text = some b ∧ fromUnicode db b.memory = some b
  top : ∀ (y : Nat) l b, y < (d.shape NE).height → lines[y]? = some l → l.text = some b → EdgeRow db d true ind y b.memory
  body : ∀ (k : Nat) l b m, ms[k]? = some m → lines[(d.shape NE).height + k]? = some l → l.text = some b → BodyRow db d ind m b.memory
  bottom : ∀ (y : Nat) l b, y < (d.shape SE).height → lines[(d.shape NE).height + ms.length + y]? = some l → l.text = some b →
    EdgeRow db d false ind y b.memory
  /-- the texts begin with the padding -/
  padded : ∀ m ∈ ms, d.padding.left ≤ m.length ∧ ∀ c ∈ m.take d.padding.left, Blank db c ∧ c ≠ 0x1b
  texts : ∀ m ∈ ms, ∃ v, Text m v ∧ NarrowBlanks db v
  allowed : ∀ m ∈ ms, ∀ c ∈ m, ¬ Forbidden db c
  /-- escape sequences (if any) belong to the texts, not to the sides -/
  kept : ∀ m ∈ ms, FrontKept (m.drop d.padding.left) ∧ BackKept m

/-- a text in which nothing shows -/
def BlankText (db : CharDb) (t : Str) : Prop := ∀ c ∈ t, Blank db c ∨ c = 0x0d

/-- `BlankLinesDropped db limit ts k`: of the lines `ts`, the first `k` are dropped because they are blank: no more than the limit allows
(`none`: no limit), and no fewer than possible. -/
structure BlankLinesDropped (db : CharDb) (limit : Option Nat) (ts : List Str) (k : Nat) : Prop where
  inside : k ≤ ts.length
  blank : ∀ (j : Nat) t, j < k → ts[j]? = some t → BlankText db t
  atMost : ∀ m, limit = some m → k ≤ m
  most : k < ts.length → limit = some k ∨ ∃ t, ts[k]? = some t ∧ ¬ BlankText db t

/-- The minimum width has room for every shape of the top and of the bottom (what the parser makes sure). -/
def Roomy (d : Design) : Prop :=
  (d.shape NW).width + ((d.shape NNW).width + (d.shape N).width + (d.shape NNE).width) + (d.shape NE).width ≤ d.minwidth ∧
  (d.shape NW).width + ((d.shape SSE).width + (d.shape S).width + (d.shape SSW).width) + (d.shape NE).width ≤ d.minwidth

/-- A line of plain text: no escape sequences, no blanks other than spaces, no line breaks, no character that the program refuses; it is
empty or shows something, and does not end in white space. -/
structure PlainLine (db : CharDb) (t : Str) : Prop where
  chars : ∀ c ∈ t, c ≠ 0x1b ∧ c ≠ 0x0a ∧ c ≠ 0x0d ∧ ¬ Forbidden db c ∧ (Blank db c → c = 0x20)
  shows : t = [] ∨ Seen db t
  last : ∀ c, t.getLast? = some c → db.white c = false
  short : t.length < 16360

/-- a line terminator, or none (at the end of the input) -/
def LineEnd (e : Str) : Prop := e = [] ∨ e = [0x0a] ∨ e = [0x0d, 0x0a]

/-- Space, line feed and carriage return are white space; line breaks are no blanks (true of the Unicode character database). -/
structure BreaksSane (db : CharDb) : Prop where
  space_white : db.white 0x20 = true
  lf_white : db.white 0x0a = true
  cr_white : db.white 0x0d = true
  lf_not_blank : db.ucBlank 0x0a = false
  cr_not_blank : db.ucBlank 0x0d = false

/-- Designs whose boxes can be drawn and removed again without a trace: their boxes are found again (`Recognisable`), there is room for
every shape, a left corner begins with something to see, and there are no tabs or line breaks in the shapes. -/
structure Restorable (db : CharDb) (d : Design) : Prop where
  recognisable : Recognisable db d
  roomy : Roomy d
  flush : ∃ n ∈ [NW, SW], ∃ b ∈ (d.shape n).lines, ∃ c r, b.memory = c :: r ∧ ¬ Blank db c
  clean : ∀ n, Present (d.shape n) → ∀ b ∈ (d.shape n).lines, ∀ c ∈ b.memory, c ≠ 0x09 ∧ c ≠ 0x0a ∧ c ≠ 0x0d

/-- Options for drawing a box without changing the text: no alignment, no justification, no requested width, tabs (if any) to spaces. -/
structure PlainDrawing (opt : Opt) : Prop where
  draws : opt.r = false
  tabs : opt.tabexp ≠ 'u' ∧ opt.tabexp ≠ 'k'
  justify : opt.justify = '\x00'
  halign : opt.halign ≠ 'c' ∧ opt.halign ≠ 'r'
  reqwidth : opt.reqwidth = 0
  tabstop : 1 ≤ opt.tabstop
  eol : opt.eol = [0x0a] ∨ opt.eol = [0x0d, 0x0a]

/-- Options for removing a box: tabs (if any) to spaces, no requested width. -/
structure PlainRemoving (opt : Opt) : Prop where
  removes : opt.r = true
  tabs : opt.tabexp ≠ 'u' ∧ opt.tabexp ≠ 'k'
  reqwidth : opt.reqwidth = 0
  tabstop : 1 ≤ opt.tabstop
  mend : opt.mend ≤ 0

/-- What comes back of the text `t` when `n` is the common indentation: all of it if the box was indented or the indentation was kept inside
of the box; otherwise it is lost. -/
def comesBack (mode : Char) (n : Nat) (t : Str) : Str := if mode = 'b' ∨ mode = 't' then t else t.drop n

/-- The lines that the program goes on with are the texts that it has printed (or would print). -/
def LeftTexts (db : CharDb) (j : Input) (out : List (Str × Str)) : Prop :=
  j.lines.length = out.length ∧ ∀ (x : Nat) p, out[x]? = some p → ∃ l, j.lines[x]? = some l ∧ l.text = fromUnicode db p.1

end Boxes.Spec
