import Verif.Model.Shape
import Verif.Model.Input

/-!
# Model of `src/parsecode.c` and of the grammar actions in `src/parser.y`: reading the designs of one configuration file

The scanner's tokens are the input: strings are given as the text that the scanner passes to `bxs_from_unicode`
(src/lexer.l:187-188).  Bison's error recovery is modelled by its effect on the parser state: a design with an error is
dropped and the state is reset; that tokens of the dropped design may be taken for something else is not modelled.
-/
namespace Boxes
open ShapeName

/-- src/unicode.c:132-135 `is_allowed_in_kv_string` -/
def isAllowedInKvString (db : CharDb) (c : Nat) : Bool :=
  isAllowedAnywhere db c && c != chCr && c != chNl && c != chEsc

/-- src/bxstring.c:652-671 `bxs_valid_in_context` for a non-NULL string -/
def Bxs.validIn (b : Bxs) (predicate : Nat → Bool) : Bool := b.memory.all predicate

/-- src/bxstring.c:682-685 `bxs_valid_in_shape` for a non-NULL string -/
def Bxs.validInShape (db : CharDb) (b : Bxs) : Bool := decide (b.vis > 0) && b.validIn (isAllowedInShape db)

/-- src/bxstring.c:689-692 `bxs_valid_in_sample` for a non-NULL string -/
def Bxs.validInSample (db : CharDb) (b : Bxs) : Bool := decide (b.vis > 0) && b.validIn (isAllowedInSample db)

/-- src/bxstring.c:696-700 `bxs_valid_in_filename` for a non-NULL string -/
def Bxs.validInFilename (db : CharDb) (b : Bxs) : Bool :=
  decide (b.vis > 0) && decide (b.invis = 0) && b.validIn (isAllowedInFilename db)

/-- src/boxes.in.h:94-100 `reprule_t`, without the compiled expression and the line number -/
structure Rule where
  search : Bxs
  repstr : Bxs
  mode : Char
deriving DecidableEq, Repr

/-- src/boxes.in.h:103-123 `design_t`: the part for drawing (`core`) and the rest.  `defined_in` is not modelled.
The name is never NULL in the designs of a result. -/
structure DesignDef where
  name : Str := []
  aliases : List Str := []
  author : Option Bxs := none
  designer : Option Bxs := none
  sample : Option Bxs := none
  tags : List Str := []
  core : Design := {}
  maxshapeheight : Nat := 0
  reprules : List Rule := []
  revrules : List Rule := []

/-- src/parser.y:26-67 `pass_to_bison`: `designs` are the completed designs (indices 0 .. design_idx-1), `cur` is `curdes`.
The flags `skipping` and `speeding` only influence messages. -/
structure ParseState where
  designs : List DesignDef := []
  cur : DesignDef := {}
  mandatory : Nat := 0
  seChecks : Nat := 0
  shapeSpecs : Nat := 0
  parents : List Bxs := []

/-- What the parser takes from outside: character data, the options (src/boxes.in.h:129-158 `opt_t`; `choice` is the name of
the design chosen by the user), the designs of child configurations, the global configuration file if there is one, which
files can be opened, and the memory behind the array `curdes.shape` that is read by src/parsecode.c:475. -/
structure ParseEnv where
  db : CharDb
  eol : Str := [chNl]
  choice : Option Str := none
  r : Bool := false
  l : Bool := false
  query : Bool := false
  qundoc : Bool := false
  childConfigs : List DesignDef := []
  globalConfig : Option Bxs := none
  canOpen : Bxs → Bool := fun _ => true
  beyond : Shape := emptyShape

/-- RC_ERROR, src/parsecode.h:28 -/
def rcError : Nat := 1
/-- RC_ABORT, src/parsecode.h:29 -/
def rcAbort : Nat := 2

/-! ## Checks -/

/-- src/parsecode.c:68-84 and 90-106: the measures of the shapes of one side that are not zero must be equal -/
def sameMeasure : List Nat → Bool
  | [] => true
  | a :: rest => (a == 0 || rest.all (fun b => b == 0 || a == b)) && sameMeasure rest

/-- src/parsecode.c:48-111 `check_sizes`; `true` is "no problem" -/
def checkSizes (shape : ShapeName → Shape) : Bool :=
  sameMeasure (northSide.map (fun n => (shape n).height)) && sameMeasure (eastSide.map (fun n => (shape n).width)) &&
  sameMeasure (southSide.map (fun n => (shape n).height)) && sameMeasure (westSide.map (fun n => (shape n).width))

/-- src/parsecode.c:115-137 `corner_check`; `true` is "no problem" -/
def cornerCheck (shape : ShapeName → Shape) : Bool := corners.all (fun n => !(shape n).elastic)

/-- src/parsecode.c:141-154 `non_existent_elastics`; `true` is "all elastic shapes exist" -/
def elasticsExist (shape : ShapeName → Shape) : Bool :=
  allShapes.all (fun n => !((shape n).elastic && (shape n).isEmpty))

/-- the shapes of a side between its corners, `sides[i][1]` .. `sides[i][3]` -/
def midShapes (side : List ShapeName) : List ShapeName := (side.drop 1).take 3

/-- src/parsecode.c:158-176 `insufficient_elasticity`; `true` is "no problem" -/
def sufficientElasticity (shape : ShapeName → Shape) : Bool :=
  sideList.all (fun side =>
    let ef := ((midShapes side).filter (fun n => (shape n).elastic)).length
    ef == 1 || ef == 2)

/-- src/parsecode.c:187-203: `ef` says whether the last existing shape was elastic; `true` is "no problem" -/
def adjoiningLoop (shape : ShapeName → Shape) : List ShapeName → Bool → Bool
  | [], _ => true
  | n :: rest, ef =>
    if (shape n).isEmpty then adjoiningLoop shape rest ef
    else if (shape n).elastic then (if ef then false else adjoiningLoop shape rest true)
    else adjoiningLoop shape rest false

/-- src/parsecode.c:180-207 `adjoining_elastics`; `true` is "no problem" -/
def noAdjoiningElastics (shape : ShapeName → Shape) : Bool :=
  sideList.all (fun side => adjoiningLoop shape (midShapes side) false)

/-- src/parsecode.c:211-237 `perform_se_check`; `true` is "no problem" -/
def seCheck (shape : ShapeName → Shape) : Bool :=
  elasticsExist shape && cornerCheck shape && sufficientElasticity shape && noAdjoiningElastics shape

/-! ## Completion of the shapes -/

/-- sides are numbered as in src/boxes.in.h:57-60; this is `sides[side]` -/
def nthSide (side : Nat) : List ShapeName := sideList.getD side []

/-- `side == BLEF || side == BRIG` -/
def isVertical (side : Nat) : Bool := side == 3 || side == 1

/-- The memory from `c` on, seen as an array of shapes: the rest of the array `curdes.shape` and what is behind it. -/
def shapesFrom (shape : ShapeName → Shape) (beyond : Shape) (c : ShapeName) : List Shape :=
  (allShapes.map shape ++ [beyond]).drop c.idx

/-- src/parsecode.c:474-499: generate the corner `c` at the end of a side if it is missing; `fshape` exists on that side -/
def fillCorner (beyond : Shape) (shape : ShapeName → Shape) (side : Nat) (fshape : ShapeName) : Res (ShapeName → Shape) :=
  let c := (nthSide side).getD 4 NW
  if !(shape c).isEmpty then .ok shape
  else
    let five := (shapesFrom shape beyond c).take 5
    let nshape := findShape five
    let next := (five[nshape]?)
    let height := if isVertical side then (match next with | none => 1 | some s => s.height) else (shape fshape).height
    let width := if isVertical side then (shape fshape).width else (match next with | none => 1 | some s => s.width)
    match genShape width height with
    | none => .fail rcAbort
    | some lines =>
      .ok (fun n => if n = c then { shape c with lines := lines, width := width, height := height, elastic := false }
        else shape n)

/-- src/parsecode.c:469-502: loop over the sides, `sc` sides being left -/
def fillCorners (beyond : Shape) : Nat → (ShapeName → Shape) → Nat → ShapeName → Res (ShapeName → Shape)
  | 0, shape, _, _ => .ok shape
  | sc + 1, shape, side, fshape => do
    let shape' ← fillCorner beyond shape side fshape
    fillCorners beyond sc shape' ((side + 1) % 4) ((nthSide side).getD 4 NW)

/-- src/parsecode.c:508-534: body of the loop that generates the middle shape of a side without shapes -/
def fillMiddle (shape : ShapeName → Shape) (side : Nat) : Res (ShapeName → Shape) :=
  if (midShapes (nthSide side)).any (fun n => !(shape n).isEmpty) then .ok shape
  else
    let c := (nthSide side).getD 2 NW
    let first := shape ((nthSide side).getD 0 NW)
    let width := if isVertical side then first.width else 1
    let height := if isVertical side then 1 else first.height
    match genShape width height with
    | none => .fail rcAbort
    | some lines =>
      .ok (fun n => if n = c then { shape c with lines := lines, width := width, height := height, elastic := true }
        else shape n)

/-- src/parsecode.c:508-534 -/
def fillMiddles : List Nat → (ShapeName → Shape) → Res (ShapeName → Shape)
  | [], shape => .ok shape
  | side :: rest, shape => do
    let shape' ← fillMiddle shape side
    fillMiddles rest shape'

/-- src/parsecode.c:551-571: total extent of the shapes of a side -/
def sideSum (shape : ShapeName → Shape) (size : Shape → Nat) (side : List ShapeName) : Nat :=
  side.foldl (fun c n => if (shape n).isEmpty then c else c + size (shape n)) 0

/-- `if (c > m) m = c` -/
def raise (m c : Nat) : Nat := if c > m then c else m

/-- src/parsecode.c:436-596 `action_finalize_shapes` -/
def finalizeShapes (env : ParseEnv) (st : ParseState) : Res ParseState :=
  if st.shapeSpecs < 1 then .fail rcError
  else
    let shape0 := st.cur.core.shape
    match allShapes[findShape (allShapes.map shape0)]? with
    | none => .fail rcAbort
    | some fshape => do
      let shape1 ← fillCorners env.beyond 4 shape0 (onSide fshape 0) fshape
      let shape2 ← fillMiddles [0, 1, 2, 3] shape1
      if !checkSizes shape2 then .fail rcError
      else
        let seChecks := st.seChecks + 1
        if seChecks > 1 && !seCheck shape2 then .fail rcError
        else
          let d := st.cur.core
          let minwidth := raise (raise d.minwidth (sideSum shape2 (·.width) northSide)) (sideSum shape2 (·.width) southSide)
          let minheight := raise (raise d.minheight (sideSum shape2 (·.height) eastSide)) (sideSum shape2 (·.height) westSide)
          let maxh := allShapes.foldl
            (fun m n => if (shape2 n).isEmpty then m else raise m (shape2 n).height) st.cur.maxshapeheight
          .ok { st with
            mandatory := st.mandatory + 1
            seChecks := seChecks
            cur := { st.cur with
              maxshapeheight := maxh
              core := { d with
                minwidth := minwidth
                minheight := minheight
                shape := fun n => { shape2 n with name := n } } } }

/-! ## Shapes and elastic shapes -/

/-- src/parsecode.c:962-1001 `action_first_shape_line`; the scanner yields NULL for a string with a forbidden character,
which is dereferenced (src/bxstring.c:684) -/
def firstShapeLine (db : CharDb) (text : Str) : Res Shape :=
  match fromUnicode db text with
  | none => .ub
  | some line =>
    if !line.validInShape db then .fail rcError
    else .ok { emptyShape with width := line.cols, height := 1, lines := [line] }

/-- src/parsecode.c:1005-1048 `action_add_shape_line` -/
def addShapeLine (db : CharDb) (shape : Shape) (text : Str) : Res Shape :=
  match fromUnicode db text with
  | none => .ub
  | some line =>
    if line.cols != shape.width then .fail rcError
    else if !line.validInShape db then .fail rcError
    else .ok { shape with height := shape.height + 1, lines := shape.lines ++ [line] }

/-- src/parser.y:393-398: further lines of a shape -/
def addShapeLines (db : CharDb) : List Str → Shape → Res Shape
  | [], s => .ok s
  | t :: rest, s => do
    let s' ← addShapeLine db s t
    addShapeLines db rest s'

/-- src/parser.y:377-390 `shape_def`; no lines: `()` -/
def shapeDef (db : CharDb) : List Str → Res Shape
  | [] => .ok emptyShape
  | t :: rest => do
    let s ← firstShapeLine db t
    let s' ← addShapeLines db rest s
    .ok (if s'.width = 0 || s'.height = 0 then emptyShape else s')

/-- src/parser.y:358-373 `slist_entry` -/
def slistEntry (db : CharDb) (st : ParseState) (name : ShapeName) (lines : List Str) : Res ParseState := do
  let s ← shapeDef db lines
  if (st.cur.core.shape name).isEmpty then
    .ok { st with
      cur := { st.cur with core := st.cur.core.setShape name s }
      shapeSpecs := if s.isDeepEmpty then st.shapeSpecs else st.shapeSpecs + 1 }
  else .fail rcError

/-- src/parser.y:355 `slist` -/
def slist (db : CharDb) : List (ShapeName × List Str) → ParseState → Res ParseState
  | [], st => .ok st
  | (n, ls) :: rest, st => do
    let st' ← slistEntry db st n ls
    slist db rest st'

/-- src/parser.y:347-351 `elist_entry` -/
def elistEntry (st : ParseState) (name : ShapeName) : ParseState :=
  { st with cur := { st.cur with core := st.cur.core.setShape name { st.cur.core.shape name with elastic := true } } }

/-- src/parser.y:305-313: the ELASTIC block -/
def elasticBlock (st : ParseState) (names : List ShapeName) : Res ParseState :=
  let st := names.foldl elistEntry st
  if st.seChecks + 1 > 1 && !seCheck st.cur.core.shape then .fail rcError
  else .ok { st with mandatory := st.mandatory + 1, seChecks := st.seChecks + 1 }

/-! ## Names, tags, keywords, padding, sample -/

/-- src/parsecode.c:276-286 `design_has_alias` -/
def DesignDef.hasAlias (d : DesignDef) (alias : Str) : Bool := d.aliases.any (fun a => strCaseEq alias a)

/-- src/parsecode.c:290-300 `design_has_name` -/
def DesignDef.hasName (d : DesignDef) (name : Str) : Bool := strCaseEq name d.name || d.hasAlias name

/-- src/parsecode.c:304-312 `full_parse_required` -/
def fullParseRequired (env : ParseEnv) : Bool :=
  if env.choice.isNone then env.r || env.l || (env.query && !env.qundoc) else false

/-- src/parsecode.c:321-332 `design_needed` -/
def designNeeded (env : ParseEnv) (st : ParseState) : Bool :=
  match env.choice with
  | some name => st.cur.hasName name
  | none => fullParseRequired env || st.designs.isEmpty

/-- src/parsecode.c:336-346 `design_name_exists` -/
def designNameExists (st : ParseState) (name : Str) : Bool := st.designs.any (·.hasName name)

/-- src/parsecode.c:350-360 `alias_exists_in_child_configs` -/
def aliasInChildConfigs (env : ParseEnv) (alias : Str) : Bool := env.childConfigs.any (·.hasAlias alias)

/-- src/parsecode.c:842-858 `action_add_alias` -/
def addAlias (env : ParseEnv) (st : ParseState) (alias : Str) : Res ParseState :=
  if designNameExists st alias then .fail rcError
  else if aliasInChildConfigs env alias then .ok st
  else .ok { st with cur := { st.cur with aliases := st.cur.aliases ++ [alias] } }

/-- src/parser.y:222 `alias_list` -/
def addAliases (env : ParseEnv) : List Str → ParseState → Res ParseState
  | [], st => .ok st
  | a :: rest, st => do
    let st' ← addAlias env st a
    addAliases env rest st'

/-- src/parsecode.c:364-384 `tag_add`, on the design's tags; the return code is discarded by all callers -/
def tagAdd (tags : List Str) (tag : Bxs) : List Str :=
  if isAsciiId tag.memory true then
    if !arrayContains0 tags tag.ascii then tags ++ [tag.ascii] else tags
  else tags

/-- src/parsecode.c:396-398 and 420-422: a part of the string is added as tag; `bxs_trimdup` never fails here -/
def tagAddPart (db : CharDb) (tag : Bxs) (startIdx endIdx : Nat) (tags : List Str) : List Str :=
  match tag.trimdup db startIdx endIdx with
  | some single => tagAdd tags single
  | none => tags

/-- `,` -/
def chComma : Nat := 0x2c

/-- src/parsecode.c:388-405 `tag_split_add`; `fuel` exceeds the number of commas -/
def tagSplitAdd (db : CharDb) (tag : Bxs) : Nat → Nat → List Str → List Str
  | 0, _, tags => tags
  | fuel + 1, visStart, tags =>
    match tag.strchr chComma visStart with
    | some cursor => tagSplitAdd db tag fuel (cursor + 1) (tagAddPart db tag visStart cursor tags)
    | none => tagAddPart db tag visStart tag.vis tags

/-- src/parsecode.c:409-425 `tag_record`, on the design's tags; a NULL string is dereferenced -/
def tagRecord (db : CharDb) (tags : List Str) (text : Str) : Res (List Str) :=
  match fromUnicode db text with
  | none => .ub
  | some tag =>
    if tag.invis > 0 then .ok tags
    else if (tag.strchr chComma 0).isSome then .ok (tagSplitAdd db tag (tag.vis + 1) 0 tags)
    else .ok (tagAddPart db tag 0 tag.vis tags)

/-- src/parser.y:252 `tag_list` -/
def tagList (db : CharDb) : List Str → List Str → Res (List Str)
  | [], tags => .ok tags
  | t :: rest, tags => do
    let tags' ← tagRecord db tags t
    tagList db rest tags'

/-- src/parsecode.c:736-782 `action_record_keyword`.  The scanner only knows the keywords author, designer and indent. -/
def recordKeyword (db : CharDb) (d : DesignDef) (keyword value : Str) : Res DesignDef :=
  match fromUnicode db value with
  | none => .fail rcError
  | some v =>
    if !v.validIn (isAllowedInKvString db) then .fail rcError
    else if strCaseEq keyword (lit "author") then .ok { d with author := some v }
    else if strCaseEq keyword (lit "designer") then .ok { d with designer := some v }
    else if strCaseEq keyword (lit "tags") then do
      let tags ← tagRecord db d.tags value
      .ok { d with tags := tags }
    else if strCaseEq keyword (lit "indent") then
      if strCaseEq v.ascii (lit "text") || strCaseEq v.ascii (lit "box") || strCaseEq v.ascii (lit "none") then
        .ok { d with core := { d.core with indentmode := Char.ofNat (v.ascii.headD 0) } }
      else .fail rcError
    else .fail rcError

/-- `len1 <= strlen(word) && strncasecmp(word, area, len1) == 0` -/
def areaIs (word area : Str) : Bool := decide (area.length ≤ word.length) && strnCaseEq area.length word area

/-- src/parsecode.c:786-824 `action_padding_entry` -/
def paddingEntry (p : Sides Nat) (area : Str) (value : Int) : Sides Nat :=
  if value < 0 then p
  else
    let v := value.toNat
    if areaIs (lit "all") area then ⟨v, v, v, v⟩
    else if areaIs (lit "horizontal") area then { p with right := v, left := v }
    else if areaIs (lit "vertical") area then { p with top := v, bottom := v }
    else if areaIs (lit "top") area then { p with top := v }
    else if areaIs (lit "right") area then { p with right := v }
    else if areaIs (lit "left") area then { p with left := v }
    else if areaIs (lit "bottom") area then { p with bottom := v }
    else p

/-- src/parsecode.c:862-871 `adjust_eols`: `(?:(\r\n?)|(\n))` is replaced by `opt.eol` everywhere -/
def adjustEols (eol : Str) : Str → Str
  | [] => []
  | [c] => if c = chCr ∨ c = chNl then eol else [c]
  | c :: d :: rest =>
    if c = chCr ∧ d = chNl then eol ++ adjustEols eol rest
    else if c = chCr ∨ c = chNl then eol ++ adjustEols eol (d :: rest)
    else c :: adjustEols eol (d :: rest)

/-- src/parsecode.c:875-891 `find_first_nonblank_line`: `result` is the text from the last line start found; the loops run
over the rest of the text -/
def firstNonblankLine (db : CharDb) : Nat → Str → Str → Str
  | 0, result, _ => result
  | fuel + 1, result, p =>
    match p with
    | [] => result
    | _ :: _ =>
      match p.dropWhile (fun c => db.ucBlank c || c == chCr) with
      | c :: rest => if c = chNl then firstNonblankLine db fuel rest rest else result
      | [] => result

/-- src/lexer.l:262-273: the string that the scanner yields for the text of a sample block (without the line that ends it).
`none`: the block is empty and the scanner reports an error, or there is a forbidden character: then the C code goes on with a
sample that consists of a line end only, which is rejected, too. -/
def sampleToken (db : CharDb) (text : Str) : Option Bxs :=
  let t := btrim (text ++ [chNl])
  if t.length > 0 then do
    let b ← fromUnicode db t
    let b2 ← b.rtrim db
    b2.strcat db [chNl]
  else none

/-- src/parsecode.c:895-924 `action_sample_block` -/
def sampleBlock (env : ParseEnv) (st : ParseState) (text : Str) : Res ParseState :=
  match sampleToken env.db text with
  | none => .fail rcError
  | some sample =>
    if st.cur.sample.isSome then .fail rcError
    else
      match fromUnicode env.db (adjustEols env.eol (firstNonblankLine env.db (sample.memory.length + 1) sample.memory sample.memory)) with
      | none => .fail rcAbort
      | some line =>
        if line.isEmpty then .fail rcError
        else if !line.validInSample env.db then .fail rcError
        else .ok { st with cur := { st.cur with sample := some line }, mandatory := st.mandatory + 1 }

/-- src/parsecode.c:928-958 `action_add_regex_rule` on one of the two lists; the strings may be NULL -/
def addRule (db : CharDb) (rules : List Rule) (search replace : Str) (mode : Char) : Res (List Rule) :=
  match fromUnicode db search, fromUnicode db replace with
  | some s, some r => .ok (rules ++ [⟨s, r, mode⟩])
  | _, _ => .fail rcAbort

/-! ## Designs and the configuration file -/

/-- The entries and blocks of a design, src/parser.y:255-330.  `other` is an entry that is ignored; `bad` one that is not
allowed by the grammar.  `flag`: `none` if there is neither GLOBAL nor ONCE. -/
inductive Item where
  | keyword (key value : Str)
  | tags (values : List Str)
  | sample (text : Str)
  | shapes (defs : List (ShapeName × List Str))
  | elastic (names : List ShapeName)
  | replace (flag : Option Char) (search replacement : Str)
  | reverse (flag : Option Char) (search replacement : Str)
  | padding (entries : List (Str × Int))
  | other
  | bad
deriving DecidableEq, Repr

/-- src/parser.y:255-330 `entry` and `block` -/
def parseItem (env : ParseEnv) (st : ParseState) : Item → Res ParseState
  | .keyword k v => do
    let d ← recordKeyword env.db st.cur k v
    .ok { st with cur := d }
  | .tags vs => do
    let tags ← tagList env.db vs st.cur.tags
    .ok { st with cur := { st.cur with tags := tags } }
  | .sample t => sampleBlock env st t
  | .shapes defs => do
    let st' ← slist env.db defs st
    finalizeShapes env st'
  | .elastic names => elasticBlock st names
  | .replace flag s r => do
    let rules ← addRule env.db st.cur.reprules s r (flag.getD 'g')
    .ok { st with cur := { st.cur with reprules := rules } }
  | .reverse flag s r => do
    let rules ← addRule env.db st.cur.revrules s r (flag.getD 'g')
    .ok { st with cur := { st.cur with revrules := rules } }
  | .padding es =>
    .ok { st with cur := { st.cur with core := { st.cur.core with
      padding := es.foldl (fun p e => paddingEntry p e.1 e.2) st.cur.core.padding } } }
  | .other => .ok st
  | .bad => .fail rcError

/-- src/parser.y:244 `layout` -/
def parseItems (env : ParseEnv) : List Item → ParseState → Res ParseState
  | [], st => .ok st
  | i :: rest, st => do
    let st' ← parseItem env st i
    parseItems env rest st'

/-- src/parsecode.c:608-625 `action_start_parsing_design` -/
def startDesign (env : ParseEnv) (st : ParseState) (name : Str) : Res ParseState :=
  let st := { st with cur := { st.cur with name := name } }
  if !designNeeded env st then .fail rcError else .ok st

/-- src/parsecode.c:688-705 `action_add_design`, the checks -/
def addDesign (st : ParseState) (nameAtEnd : Str) : Res DesignDef :=
  if !strCaseEq st.cur.name nameAtEnd then .fail rcError
  else if st.mandatory < 3 then .fail rcError
  else if designNameExists st st.cur.name then .fail rcError
  else .ok st.cur

/-- src/parser.y:233-241 `design`, from BOX to END; `st` is the state between two designs -/
def parseDesign (env : ParseEnv) (st : ParseState) (name : Str) (aliases : List Str) (items : List Item) (nameAtEnd : Str) :
    Res DesignDef := do
  let st1 ← addAliases env aliases st
  let st2 ← startDesign env st1 name
  let st3 ← parseItems env items st2
  addDesign st3 nameAtEnd

/-- What a configuration file consists of, src/parser.y:197 -/
inductive Decl where
  | parent (path : Str)
  | box (name : Str) (aliases : List Str) (items : List Item) (nameAtEnd : Str)
deriving DecidableEq, Repr

/-- src/tools.c:615-627 `array_contains_bxs`: the file names are compared character by character -/
def arrayContainsBxs (a : List Bxs) (s : Bxs) : Bool := a.any (fun b => b.memory == s.memory)

/-- src/parsecode.c:629-684 `action_parent_config` and src/lexer.l:210-221: the resolved path, `none` in case of an error -/
def resolveParent (env : ParseEnv) (path : Str) : Option Bxs := do
  let raw ← fromUnicode env.db path
  let p ← raw.trim env.db
  if p.isEmpty then none
  else if strCaseEq p.ascii (lit ":global:") then env.globalConfig
  else if !p.validInFilename env.db then none
  else if env.canOpen p then some p
  else none

/-- src/parsecode.c:671-677 -/
def recordParent (parents : List Bxs) (p : Bxs) : List Bxs := if arrayContainsBxs parents p then parents else parents ++ [p]

/-- src/parser.y:197 `config_file`: the flag says that the parser accepted early (src/parsecode.c:714-717).  After each design
and after each error the state is as before, src/parsecode.c:707-729 and 256-272, except for the completed designs. -/
def parseDecls (env : ParseEnv) : List Decl → List DesignDef → List Bxs → Res (List DesignDef × List Bxs × Bool)
  | [], ds, ps => .ok (ds, ps, false)
  | .parent path :: rest, ds, ps =>
    parseDecls env rest ds (match resolveParent env path with | none => ps | some p => recordParent ps p)
  | .box name aliases items nameAtEnd :: rest, ds, ps =>
    match parseDesign env { designs := ds, parents := ps } name aliases items nameAtEnd with
    | .ub => .ub
    | .fail code => if code = rcAbort then .fail rcAbort else parseDecls env rest ds ps
    | .ok d => if !fullParseRequired env then .ok (ds ++ [d], ps, true) else parseDecls env rest (ds ++ [d]) ps

/-- src/parser.y:159-190 `first_rule`: the designs and parent configurations of one configuration file; `parents` are those
known before -/
def parseConfig (env : ParseEnv) (decls : List Decl) (parents : List Bxs) : Res (List DesignDef × List Bxs) := do
  let (ds, ps, early) ← parseDecls env decls [] parents
  if early then .ok (ds, ps)
  else if ds.isEmpty && env.choice.isNone && ps.isEmpty then .fail rcAbort
  else .ok (ds, ps)

end Boxes
