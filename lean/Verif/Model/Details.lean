import Verif.Model.Query
import Verif.Model.Lexer

/-!
# Model of `print_design_details` in src/list.c

What is printed for one design that the user has chosen (options `-l -d name`).  Every function yields the text it prints, or
`none` for an access outside of memory or to a null pointer.  Conversion to the output encoding is not modelled.
-/
namespace Boxes

/-- src/shape.c:35-37 `shape_name` -/
def shapeLabel : ShapeName → Str
  | .NW => lit "NW" | .NNW => lit "NNW" | .N => lit "N" | .NNE => lit "NNE"
  | .NE => lit "NE" | .ENE => lit "ENE" | .E => lit "E" | .ESE => lit "ESE"
  | .SE => lit "SE" | .SSE => lit "SSE" | .S => lit "S" | .SSW => lit "SSW"
  | .SW => lit "SW" | .WSW => lit "WSW" | .W => lit "W" | .WNW => lit "WNW"

/-- `fprintf` with `%-24s` -/
def padRight (n : Nat) (s : Str) : Str := s ++ List.replicate (n - s.length) chSpace

/-- `fprintf` with `%3s` -/
def padLeft (n : Nat) (s : Str) : Str := List.replicate (n - s.length) chSpace ++ s

/-- src/list.c:205-208 and 304-307: the loops over aliases and tags -/
def commaLoop : List Str → Nat → Str
  | [], _ => []
  | a :: rest, idx => (if idx > 0 then lit ", " else []) ++ a ++ commaLoop rest (idx + 1)

/-- src/list.c:203-212 and 302-311: a loop over names, and `none` if there are none -/
def commaNames (l : List Str) : Str := commaLoop l 0 ++ (if l.length = 0 then lit "none" else [])

/-- src/list.c:215, 217: a text that may be missing -/
def creditText (color : Bool) (b : Option Bxs) (unknown : Str) : Option Str :=
  match b with
  | some a => a.toOutput color
  | none => some unknown

/-- src/list.c:221-231 -/
def indentText (mode : Char) : Str :=
  if mode = 'b' then lit "box (indent box)"
  else if mode = 't' then lit "text (retain indentation inside of box)"
  else lit "none (discard indentation)"

/-- src/list.c:235-242 and 250-257: the loops over the rules; `word` is `WITH` or `TO`, `num` is the number of rules -/
def ruleLoop (color : Bool) (eol word : Str) (num : Nat) : List Rule → Nat → Option Str
  | [], _ => some []
  | r :: rest, i => do
    let search ← r.search.toOutput color
    let repstr ← r.repstr.toOutput color
    let more ← ruleLoop color eol word num rest (i + 1)
    some (decimal (i + 1) ++ lit ". (" ++ (if r.mode = 'g' then lit "glob" else lit "once") ++ lit ") \"" ++ search ++ lit "\" " ++
      word ++ lit " \"" ++ repstr ++ lit "\"" ++ eol ++ (if i + 1 < num then List.replicate 24 chSpace else []) ++ more)

/-- src/list.c:234-246 and 249-261 -/
def ruleText (color : Bool) (eol word : Str) (rules : List Rule) : Option Str :=
  if rules.length > 0 then ruleLoop color eol word rules.length rules 0 else some (lit "none" ++ eol)

/-- src/list.c:267-294 -/
def paddingText (p : Sides Nat) : Str :=
  if p.top ≠ 0 ∨ p.right ≠ 0 ∨ p.bottom ≠ 0 ∨ p.left ≠ 0 then
    (if p.left ≠ 0 then lit "left " ++ decimal p.left ++ (if p.top ≠ 0 ∨ p.right ≠ 0 ∨ p.bottom ≠ 0 then lit ", " else []) else []) ++
    (if p.top ≠ 0 then lit "top " ++ decimal p.top ++ (if p.right ≠ 0 ∨ p.bottom ≠ 0 then lit ", " else []) else []) ++
    (if p.right ≠ 0 then lit "right " ++ decimal p.right ++ (if p.bottom ≠ 0 then lit ", " else []) else []) ++
    (if p.bottom ≠ 0 then lit "bottom " ++ decimal p.bottom else [])
  else lit "none"

/-- src/list.c:315-324: the loop over the shapes, with the flag `sstart` -/
def elasticLoop (shape : ShapeName → Shape) : List ShapeName → Bool → Str
  | [], _ => []
  | n :: rest, sstart =>
    if (shape n).isEmpty then elasticLoop shape rest sstart
    else if (shape n).elastic then (if sstart then lit ", " else []) ++ shapeLabel n ++ elasticLoop shape rest true
    else elasticLoop shape rest sstart

/-- src/list.c:338-348: the lines `w .. height - 1` of a shape -/
def shapeTextLoop (db : CharDb) (color : Bool) (eol : Str) (first : Bool) (n : ShapeName) (s : Shape) : Nat → Nat → Option Str
  | 0, _ => some []
  | k + 1, w => do
    let line ← escape db (← s.lines[w]?)
    let text ← line.toOutput color
    let more ← shapeTextLoop db color eol first n s k (w + 1)
    some (padRight 24 (if first && w == 0 then lit "Defined Shapes:" else []) ++ padLeft 3 (if w == 0 then shapeLabel n else []) ++
      (if w == 0 then lit ":" else lit " ") ++ lit " \"" ++ text ++ lit "\"" ++ (if w < s.height - 1 then lit "," else lit " ") ++
      eol ++ more)

/-- src/list.c:334-351: the loop over the shapes, with the flag `first_shape` -/
def shapesText (db : CharDb) (color : Bool) (eol : Str) (shape : ShapeName → Shape) : List ShapeName → Bool → Option Str
  | [], _ => some []
  | n :: rest, first =>
    if (shape n).isDeepEmpty then shapesText db color eol shape rest first
    else do
      let t ← shapeTextLoop db color eol first n (shape n) (shape n).height 0
      let more ← shapesText db color eol shape rest false
      some (t ++ more)

/-- src/list.c:194-353 `print_design_details`; the design is `opt.design` (src/list.c:360), `definedIn` is its `defined_in`. -/
def printDesignDetails (db : CharDb) (color : Bool) (eol : Str) (qundoc : Bool) (definedIn : Bxs) (d : DesignDef) : Option Str := do
  let author ← creditText color d.author (lit "(unknown author)")
  let designer ← creditText color d.designer (lit "(unknown artist)")
  let file ← definedIn.toOutput color
  let reprules ← ruleText color eol (lit "WITH") d.reprules
  let revrules ← ruleText color eol (lit "TO") d.revrules
  let picture ←
    if qundoc then (d.sample.bind (·.toOutput color)).map (fun t => lit "Sample:" ++ eol ++ t ++ eol)
    else shapesText db color eol d.core.shape allShapes true
  some (lit "Complete Design Information for \"" ++ d.name ++ lit "\":" ++ eol ++
    lit "-----------------------------------" ++ List.replicate d.name.length chMinus ++ eol ++
    lit "Alias Names:            " ++ commaNames d.aliases ++ eol ++
    lit "Author:                 " ++ author ++ eol ++
    lit "Original Designer:      " ++ designer ++ eol ++
    lit "Configuration File:     " ++ file ++ eol ++
    lit "Indentation Mode:       " ++ indentText d.core.indentmode ++ eol ++
    lit "Replacement Rules:      " ++ reprules ++
    lit "Reversion Rules:        " ++ revrules ++
    lit "Minimum Box Dimensions: " ++ decimal d.core.minwidth ++ lit " x " ++ decimal d.core.minheight ++ lit "  (width x height)" ++ eol ++
    lit "Default Padding:        " ++ paddingText d.core.padding ++ eol ++
    lit "Default Killblank:      " ++
      (if emptySide d.core.shape northSide && emptySide d.core.shape southSide then lit "no" else lit "yes") ++ eol ++
    lit "Tags:                   " ++ commaNames d.tags ++ eol ++
    lit "Elastic Shapes:         " ++ elasticLoop d.core.shape allShapes false ++ eol ++
    picture)

/-- src/list.c:351-399 `list_designs`; `chosen` is the design chosen by the user (with its `defined_in`), if any -/
def listDesignsOrOne (db : CharDb) (color : Bool) (eol : Str) (qundoc : Bool) (chosen : Option (DesignDef × Bxs)) (first : Bxs)
    (parents : List Bxs) (designs : List DesignDef) : Option Str :=
  match chosen with
  | some d => printDesignDetails db color eol qundoc d.2 d.1
  | none => listDesigns color eol first parents designs

end Boxes
