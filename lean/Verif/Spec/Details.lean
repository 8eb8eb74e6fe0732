import Verif.Spec.Query
import Verif.Spec.Lexer
import Verif.Spec.Box
import Verif.Spec.Db

/-!
# Specification: the detailed description of a design (`-l -d name`)

The description is a heading, its underline, and a table with two columns.
-/
namespace Boxes.Spec
open ShapeName

/-- plain text -/
def say (s : String) : Str := s.toList.map Char.toNat

/-- the text is an analysed line -/
def Analysed (db : CharDb) (b : Bxs) : Prop := ∃ s v, Text s v ∧ fromUnicode db s = some b

/-- A line of a shape is printed with its quotes and backslashes escaped; without its escape sequences unless colours are used. -/
def EscapedShown (color : Bool) (b : Bxs) (out : Str) : Prop :=
  ∃ e v, Escaped b.memory e ∧ Text e v ∧ out = if color then e else v

/-- the numbers from left to right as decimal numerals -/
def number10 (n : Nat) : Str := (Nat.toDigits 10 n).map Char.toNat

/-- Several values under one label: the label stands in front of the first one. -/
def labelled (label : String) : List Str → List (String × Str)
  | [] => []
  | v :: vs => (label, v) :: vs.map (fun w => ("", w))

/-- A row of the table: the label in the first column of 24 characters, the value in the second. -/
def tableRow (r : String × Str) : Str := say r.1 ++ List.replicate (24 - r.1.length) 0x20 ++ r.2

/-- names separated by commas, or the word "none" -/
def namesOrNone (l : List Str) : Str := if l = [] then say "none" else joined (say ", ") l

/-- the names of the shapes, clockwise from the upper left corner -/
def clockwise : List (ShapeName × String) := [(NW, "NW"), (NNW, "NNW"), (N, "N"), (NNE, "NNE"), (NE, "NE"), (ENE, "ENE"), (E, "E"),
  (ESE, "ESE"), (SE, "SE"), (SSE, "SSE"), (S, "S"), (SSW, "SSW"), (SW, "SW"), (WSW, "WSW"), (W, "W"), (WNW, "WNW")]

/-- `l` are the shapes with the property, clockwise. -/
def AllWith (P : ShapeName → Prop) (l : List (ShapeName × String)) : Prop := l.Sublist clockwise ∧ ∀ e ∈ clockwise, e ∈ l ↔ P e.1

/-- the rules, numbered -/
def ruleValues (out : Bxs → Str) (word : String) (rules : List Rule) : List Str :=
  if rules = [] then [say "none"]
  else rules.zipIdx.map (fun x => number10 (x.2 + 1) ++ say (if x.1.mode = 'g' then ". (glob) \"" else ". (once) \"") ++ out x.1.search ++
    say "\" " ++ say word ++ say " \"" ++ out x.1.repstr ++ say "\"")

/-- padding: the sides that have one -/
def paddingValue (p : Sides Nat) : Str :=
  namesOrNone (([("left ", p.left), ("top ", p.top), ("right ", p.right), ("bottom ", p.bottom)].filter (fun x => decide (x.2 ≠ 0))).map
    (fun x => say x.1 ++ number10 x.2))

/-- the lines of a shape: the name in front of the first one, a comma behind all but the last one -/
def shapeValues (esc : Bxs → Str) (name : String) (lines : List Bxs) : List Str :=
  lines.zipIdx.map (fun x =>
    List.replicate (if x.2 = 0 then 3 - name.length else 4) 0x20 ++ (if x.2 = 0 then say name ++ say ":" else []) ++ say " \"" ++
      esc x.1 ++ say "\"" ++ say (if x.2 + 1 = lines.length then " " else ","))

/-- The table.  `out` and `esc` tell how texts and lines of shapes are printed, `elastic` and `visible` are the elastic shapes and
the shapes that are not blank, `kill` tells if removing a box also removes blank lines at its top and bottom. -/
def detailRows (out esc : Bxs → Str) (definedIn : Bxs) (d : DesignDef) (kill : Bool) (elastic visible : List (ShapeName × String))
    (qundoc : Bool) : List (String × Str) :=
  [("Alias Names:", namesOrNone d.aliases),
   ("Author:", d.author.elim (say "(unknown author)") out),
   ("Original Designer:", d.designer.elim (say "(unknown artist)") out),
   ("Configuration File:", out definedIn),
   ("Indentation Mode:", if d.core.indentmode = 'b' then say "box (indent box)"
      else if d.core.indentmode = 't' then say "text (retain indentation inside of box)" else say "none (discard indentation)")] ++
  labelled "Replacement Rules:" (ruleValues out "WITH" d.reprules) ++
  labelled "Reversion Rules:" (ruleValues out "TO" d.revrules) ++
  [("Minimum Box Dimensions:", number10 d.core.minwidth ++ say " x " ++ number10 d.core.minheight ++ say "  (width x height)"),
   ("Default Padding:", paddingValue d.core.padding),
   ("Default Killblank:", say (if kill then "yes" else "no")),
   ("Tags:", namesOrNone d.tags),
   ("Elastic Shapes:", joined (say ", ") (elastic.map (fun e => say e.2)))] ++
  if qundoc then [] else labelled "Defined Shapes:" (visible.flatMap (fun e => shapeValues esc e.2 (d.core.shape e.1).lines))

end Boxes.Spec
