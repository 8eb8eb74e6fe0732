import Verif.Spec.SameShown
import Verif.Spec.Box

namespace Boxes.Spec

/-- The text shows a character that is no white space and that takes at least one column. -/
def Filled (db : CharDb) (s : Str) : Prop := ∃ v, Text s v ∧ ∃ c ∈ v, db.white c = false ∧ 0 < width db c

/-- The text shows nothing but white space. -/
def AllWhite (db : CharDb) (s : Str) : Prop := ∃ v, Text s v ∧ ∀ c ∈ v, db.white c = true

/-- What is printed for lines: each is followed by a line break, the last one by `last`. -/
def printedLines (eol last : Str) : List Str → Str
  | [] => []
  | [l] => l ++ last
  | l :: l' :: more => l ++ eol ++ printedLines eol last (l' :: more)

/-- `Moved pre s s'`: the line `s'` shows what `s` shows, behind `pre`. -/
def Moved (pre s s' : Str) : Prop := ShowSame (pre ++ s) s'

/-- What comes in front of the lines of a box when its text is moved by `k` columns: nothing unless the box is indented like its text (indentation mode `b`); tabs if leading
spaces are to become tabs (tab mode `u`), where `k` is a multiple of the tab stops; spaces otherwise. -/
def movedBy (mode tabexp : Char) (tabstop k : Nat) : Str :=
  if mode ≠ 'b' then [] else if tabexp = 'u' then List.replicate (k / tabstop) 0x09 else spaces k

end Boxes.Spec
