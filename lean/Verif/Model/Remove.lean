import Verif.Model.Detect

/-!
# Model of `src/remove.c`

Pointers into a line are positions in the string.
-/
namespace Boxes
open ShapeName

/-- src/remove.h:46-57 `shape_line_ctx_t`.  `text` is meaningless (NULL in the code) if `empty` is set on a horizontal side. -/
structure ShapeLine where
  empty : Bool
  text : Bxs
  elastic : Bool
deriving DecidableEq, Repr

/-- src/remove.h:28-41 `match_result_t` -/
structure MatchResult where
  pIdx : Nat
  len : Nat
  shiftable : Bool
deriving DecidableEq, Repr

/-- src/remove.c:40-63 `line_ctx_t`, without the line used, which serves debugging only -/
structure LineCtx where
  westStart : Nat := 0
  westEnd : Nat := 0
  westQuality : Nat := 0
  eastStart : Nat := 0
  eastEnd : Nat := 0
  eastQuality : Nat := 0
deriving DecidableEq, Repr

/-- src/remove.c:67-101 `remove_ctx_t` -/
structure RemoveCtx where
  emptySide : Sides Bool
  designMono : Bool
  inputMono : Bool
  topStart : Nat := 0
  topEnd : Nat := 0
  bottomStart : Nat := 0
  bottomEnd : Nat := 0
  compType : CompType := .literal
  bodyNum : Nat := 0
  body : List LineCtx := []
deriving DecidableEq, Repr

/-- `bxs_is_blank` of a text that may be NULL (src/bxstring.c:569-591) -/
def textIsBlank (db : CharDb) : Option Bxs → Bool
  | none => true
  | some b => b.isBlankStr db

/-- src/remove.c:172-182 `find_first_line` -/
def findFirstLine (db : CharDb) (lines : List Line) : Nat := lines.findIdx (fun l => !textIsBlank db l.text)

/-- src/remove.c:186-196 `find_last_line`.  (Only called if there is a line that is not blank.) -/
def findLastLine (db : CharDb) (lines : List Line) : Nat :=
  lines.length - 1 - lines.reverse.findIdx (fun l => !textIsBlank db l.text)

/-- src/remove.c:200-206 `is_shape_line_empty` -/
def isShapeLineEmpty (db : CharDb) (shapes : List ShapeLine) (idx : Nat) : Bool :=
  match shapes[idx]? with
  | some sl => sl.empty || sl.text.isBlankStr db
  | none => true

/-- src/remove.c:210-219 `non_empty_shapes_after` -/
def nonEmptyShapesAfter (db : CharDb) (shapes : List ShapeLine) (idx : Nat) : Bool :=
  (List.range' (idx + 1) (4 - (idx + 1))).any (fun i => !isShapeLineEmpty db shapes i)

/-- src/remove.c:223-231 `is_blank_between` on positions of a text -/
def isBlankBetween (db : CharDb) (s : Str) (start stop : Nat) : Bool :=
  ((s.take stop).drop start).all (isBlank db)

/-- src/remove.c:254-275: the loop of `shorten`; `s` and `e` are positions in the shape line -/
def shortenLoop (db : CharDb) (mem : Str) (preferLeft allowLeft allowRight : Bool) : Nat → Nat → Nat → Nat × Nat
  | 0, s, e => (s, e)
  | n + 1, s, e =>
    let left := decide (s < e) && (mem[s]?.elim false (isBlank db))
    let right := decide (e > s) && allowRight && (mem[e - 1]?.elim false (isBlank db))
    if preferLeft then
      if left then shortenLoop db mem preferLeft allowLeft allowRight n (s + 1) e
      else if right then shortenLoop db mem preferLeft allowLeft allowRight n s (e - 1)
      else (s, e)
    else
      if right then shortenLoop db mem preferLeft allowLeft allowRight n s (e - 1)
      else if left && allowLeft then shortenLoop db mem preferLeft allowLeft allowRight n (s + 1) e
      else (s, e)

/-- src/remove.c:244-288 `shorten`: the shortened text and the new quality; `none` is NULL -/
def shorten (db : CharDb) (text : Bxs) (quality : Nat) (preferLeft allowLeft allowRight : Bool) : Option (Str × Nat) :=
  if quality > text.numChars then none
  else
    let q := shortenLoop db text.memory (if allowLeft then preferLeft else false) allowLeft allowRight
      (text.numChars - quality + 1) 0 text.numChars
    if q.2 - q.1 < quality then some ((text.memory.drop q.1).take (q.2 - q.1), q.2 - q.1) else none

/-- src/remove.c:346-379: the `while` loop of `hmm`: the number of characters of the shape line that match at `cur`, if the shape
line can be shortened to match.  First argument: bound on the number of rounds, in each of which `quality` decreases. -/
def hmmFit (db : CharDb) (line : Str) (cur : Nat) (text : Bxs) (anchoredRight : Bool) : Nat → Option Str → Nat → Option Nat
  | 0, _, _ => none
  | _ + 1, none, _ => none
  | fuel + 1, some s, quality =>
    if quality = 0 then none
    else if strnEq quality (line.drop cur) s then some quality
    else if !anchoredRight then
      match shorten db text quality false false true with
      | some (s', q') => hmmFit db line cur text anchoredRight fuel (some s') q'
      | none => none
    else none

/-- src/remove.c:311-385 `hmm` for `anchored_left == 1`.  The first argument bounds the recursion depth: every call moves on in
the line or to the next shape.  `shapes` are the five shape lines of the side. -/
def hmmAnchored (db : CharDb) (shapes : List ShapeLine) (line : Str) (endPos : Nat) (anchoredRight : Bool) : Nat → Nat → Nat → Bool
  | 0, _, _ => false
  | fuel + 1, cur, idx =>
    if cur > endPos then false
    else if cur = endPos then
      (idx == 4 && anchoredRight) || (isShapeLineEmpty db shapes idx && !nonEmptyShapesAfter db shapes idx)
    else if idx ≥ 4 then u32IsBlank db (line.drop cur)
    else match shapes[idx]? with
      | none => false
      | some sl =>
        if sl.empty then hmmAnchored db shapes line endPos anchoredRight fuel cur (idx + 1)
        else match hmmFit db line cur sl.text anchoredRight (sl.text.numChars + 1) (some sl.text.memory) sl.text.numChars with
          | none => false
          | some q =>
            if cur + q = endPos ∧ !nonEmptyShapesAfter db shapes idx then true
            else if sl.elastic && hmmAnchored db shapes line endPos anchoredRight fuel (cur + q) idx then true
            else hmmAnchored db shapes line endPos anchoredRight fuel (cur + q) (idx + 1)

/-- bound on the recursion depth of `hmm` -/
def hmmFuel (line : Str) : Nat := line.length + 6

/-- src/remove.c:402-419: the `while` loop of `hmm_shiftable`: position and length of the (shortened) shape line -/
def shiftFit (db : CharDb) (line : Str) (cur endPos : Nat) (text : Bxs) (canShortenRight : Bool) :
    Nat → Option Str → Nat → Option (Nat × Nat)
  | 0, _, _ => none
  | _ + 1, none, _ => none
  | fuel + 1, some s, quality =>
    match (strstr (line.drop cur) s).map (· + cur) with
    | some p =>
      if p < endPos ∧ isBlankBetween db line cur p then some (p, quality)
      else match shorten db text quality false true canShortenRight with
        | some (s', q') => shiftFit db line cur endPos text canShortenRight fuel (some s') q'
        | none => none
    | none =>
      match shorten db text quality false true canShortenRight with
      | some (s', q') => shiftFit db line cur endPos text canShortenRight fuel (some s') q'
      | none => none

/-- src/remove.c:389-425 `hmm_shiftable` -/
def hmmShiftable (db : CharDb) (shapes : List ShapeLine) (line : Str) (cur idx endPos : Nat) (anchoredRight : Bool) : Bool :=
  match (List.range' idx (4 - idx)).find? (fun i => !isShapeLineEmpty db shapes i) with
  | none => isBlankBetween db line cur endPos
  | some i =>
    match shapes[i]? with
    | none => false
    | some sl =>
      let canShortenRight := !(nonEmptyShapesAfter db shapes i || !isShapeLineEmpty db shapes 4)
      match shiftFit db line cur endPos sl.text canShortenRight (sl.text.numChars + 2) (some sl.text.memory) sl.text.numChars with
      | none => false
      | some (p, q) =>
        if hmmAnchored db shapes line endPos anchoredRight (hmmFuel line) (p + q) (i + (if sl.elastic then 0 else 1)) then true
        else sl.elastic && hmmAnchored db shapes line endPos anchoredRight (hmmFuel line) (p + q) (i + 1)

/-- src/remove.c:311-385 `hmm` -/
def hmm (db : CharDb) (shapes : List ShapeLine) (line : Str) (cur idx endPos : Nat) (anchoredLeft anchoredRight : Bool) : Bool :=
  if anchoredLeft then hmmAnchored db shapes line endPos anchoredRight (hmmFuel line) cur idx
  else hmmShiftable db shapes line cur idx endPos anchoredRight

/-- src/remove.c:434-445: the loop of `prepare_comp_shapes_horiz`; a NULL text, dereferenced later, is flagged here -/
def compShapesHoriz (db : CharDb) (d : Design) (c : CompType) (idx : Nat) : List ShapeName → Res (List ShapeLine)
  | [] => .ok []
  | n :: r => do
    let t ← (if (d.shape n).isEmpty then .ok emptyBxs else do
      let s ← prepareCompShape d n idx c false (r.length == 0)
      Res.get (fromUnicode db s))
    let more ← compShapesHoriz db d c idx r
    .ok ({ empty := (d.shape n).isEmpty, text := t, elastic := (d.shape n).elastic } :: more)

/-- src/remove.c:429-446 `prepare_comp_shapes_horiz` -/
def prepareCompShapesHoriz (db : CharDb) (d : Design) (top : Bool) (c : CompType) (idx : Nat) : Res (List ShapeLine) :=
  compShapesHoriz db d c idx (if top then northSide else southSideRev)

/-- src/remove.c:481-488: the loop of `match_outer_shape` on the left, from position `s` of the shape line; `maxPos` is
`first_char[indent]` -/
def matchLeftLoop (db : CharDb) (input shape : Str) (maxPos : Nat) : Nat → Nat → Option MatchResult
  | 0, _ => none
  | fuel + 1, s =>
    if s = 0 ∨ (shape[s]?.elim false (isBlank db)) = true then
      match strstr input (shape.drop s) with
      | some p =>
        if p > maxPos then matchLeftLoop db input shape maxPos fuel (s + 1)
        else some { pIdx := p, len := shape.length - s, shiftable := false }
      | none => matchLeftLoop db input shape maxPos fuel (s + 1)
    else none

/-- src/remove.c:496-509: the loop of `match_outer_shape` on the right, with the first `slen` characters of the shape line;
`minEnd` is `first_char[num_chars_visible - trailing]`.  First argument: bound on the number of rounds. -/
def matchRightLoop (db : CharDb) (input shape : Str) (minEnd : Nat) : Nat → Nat → Option MatchResult
  | 0, _ => none
  | fuel + 1, slen =>
    if slen = shape.length ∨ (shape[slen]?.elim false (isBlank db)) = true then
      match strnrstr input (shape.take slen) slen with
      | some p =>
        if p + slen < minEnd then matchRightLoop db input shape minEnd fuel (slen - 1)
        else some { pIdx := p, len := slen, shiftable := false }
      | none => matchRightLoop db input shape minEnd fuel (slen - 1)
    else none

/-- src/remove.c:471-512 `match_outer_shape`; `ub` is an index outside of `first_char` -/
def matchOuterShape (db : CharDb) (left : Bool) (input shape : Bxs) : Res (Option MatchResult) :=
  if input.numChars = 0 ∨ shape.numChars = 0 then .ok none
  else if left then
    if shape.isBlankStr db then .ok (some { pIdx := 0, len := 0, shiftable := true })
    else do
      let m ← Res.get input.firstChar[input.indent]?
      .ok (matchLeftLoop db input.memory shape.memory m (shape.numChars + 1) 0)
  else
    if shape.isBlankStr db then do
      let p ← Res.get input.firstChar[input.vis]?
      .ok (some { pIdx := p, len := 0, shiftable := true })
    else do
      let x ← Res.sub input.vis input.trailing
      let m ← Res.get input.firstChar[x]?
      .ok (matchRightLoop db input.memory shape.memory m (shape.numChars + 1) shape.numChars)

/-- src/remove.c:526-579: `match_horiz_line` for one comparison type -/
def matchHorizLineWith (db : CharDb) (d : Design) (lines : List Line) (empty : Sides Bool) (top : Bool) (inputIdx shapeIdx : Nat)
    (c : CompType) : Res Bool := do
  let shapes ← prepareCompShapesHoriz db d top c shapeIdx
  let s ← prepareCompInput lines inputIdx false c
  let b1 ← Res.get (fromUnicode db s)
  let b2 ← Res.get (b1.rtrim db)
  let b := b2.appendSpaces ((d.shape NW).width + (d.shape NE).width)
  let first ← Res.get shapes[0]?
  let last ← Res.get shapes[4]?
  let mrl ← (if empty.left then .ok none else matchOuterShape db true b first.text)
  let cur := match mrl with
    | some m => m.pIdx + m.len
    | none => 0
  let e ← Res.get b.firstChar[b.vis]?
  let mrr ← (if empty.right then .ok none else matchOuterShape db false b last.text)
  let endPos := match mrr with
    | some m => m.pIdx
    | none => e
  .ok (hmm db shapes b.memory cur 1 endPos (mrl.elim false (fun m => !m.shiftable)) (mrr.elim false (fun m => !m.shiftable)))

/-- src/remove.c:522-585: the loop of `match_horiz_line`: result and the last comparison type set -/
def matchHorizLoop (db : CharDb) (d : Design) (lines : List Line) (ctx : RemoveCtx) (top : Bool) (inputIdx shapeIdx : Nat) :
    List CompType → CompType → Res (Bool × CompType)
  | [], cur => .ok (false, cur)
  | c :: r, cur =>
    if !compTypeIsViable c ctx.inputMono ctx.designMono then matchHorizLoop db d lines ctx top inputIdx shapeIdx r cur
    else do
      let m ← matchHorizLineWith db d lines ctx.emptySide top inputIdx shapeIdx c
      if m then .ok (true, c) else matchHorizLoop db d lines ctx top inputIdx shapeIdx r c

/-- src/remove.c:516-588 `match_horiz_line` -/
def matchHorizLine (db : CharDb) (d : Design) (lines : List Line) (ctx : RemoveCtx) (top : Bool) (inputIdx shapeIdx : Nat) :
    Res (Bool × RemoveCtx) := do
  let q ← matchHorizLoop db d lines ctx top inputIdx shapeIdx compTypes ctx.compType
  .ok (q.1, { ctx with compType := q.2 })

/-- src/remove.c:602-610 and 631-640: the inner loops of `find_top_side` and `find_bottom_side` over the given shape lines -/
def matchAnyShapeLine (db : CharDb) (d : Design) (lines : List Line) (top : Bool) (inputIdx : Nat) :
    List Nat → RemoveCtx → Res (Bool × RemoveCtx)
  | [], ctx => .ok (false, ctx)
  | i :: r, ctx => do
    let q ← matchHorizLine db d lines ctx top inputIdx i
    if q.1 then .ok (true, q.2) else matchAnyShapeLine db d lines top inputIdx r q.2

/-- src/remove.c:603-605: the shape lines in the order in which they are tried: `start`, `start + 1`, ... modulo `h` -/
def topOrder (h start : Nat) : List Nat := (List.range h).map (fun i => (start + i) % h)

/-- src/remove.c:632-635: the shape lines in the order in which they are tried: `start`, `start - 1`, ..., 0, `h - 1`, ... -/
def bottomOrder (h start : Nat) : List Nat := (List.range h).map (fun i => (start + h - i) % h)

/-- src/remove.c:596-615: the loop of `find_top_side`, `n` more lines; `k` lines matched so far -/
def topLoop (db : CharDb) (d : Design) (lines : List Line) : Nat → Nat → RemoveCtx → Res (Nat × RemoveCtx)
  | 0, k, ctx => .ok (k, ctx)
  | n + 1, k, ctx =>
    if ctx.topStart + k < lines.length then do
      let q ← matchAnyShapeLine db d lines true (ctx.topStart + k) (topOrder (d.shape NE).height (k % (d.shape NE).height)) ctx
      if q.1 then topLoop db d lines n (k + 1) q.2 else .ok (k, q.2)
    else .ok (k, ctx)

/-- src/remove.c:592-617 `find_top_side`: number of lines of the top side -/
def findTopSide (db : CharDb) (d : Design) (lines : List Line) (ctx : RemoveCtx) : Res (Nat × RemoveCtx) :=
  topLoop db d lines (d.shape NE).height 0 ctx

/-- src/remove.c:625-645: the loop of `find_bottom_side`, `n` more lines; `k` lines matched so far, counted from the end -/
def bottomLoop (db : CharDb) (d : Design) (lines : List Line) : Nat → Nat → RemoveCtx → Res (Nat × RemoveCtx)
  | 0, k, ctx => .ok (k, ctx)
  | n + 1, k, ctx =>
    if k + 1 ≤ ctx.bottomEnd then do
      let q ← matchAnyShapeLine db d lines false (ctx.bottomEnd - 1 - k)
        (bottomOrder (d.shape SE).height ((d.shape SE).height - (k + 1))) ctx
      if q.1 then bottomLoop db d lines n (k + 1) q.2 else .ok (k, q.2)
    else .ok (k, ctx)

/-- src/remove.c:621-647 `find_bottom_side`: number of lines of the bottom side -/
def findBottomSide (db : CharDb) (d : Design) (lines : List Line) (ctx : RemoveCtx) : Res (Nat × RemoveCtx) :=
  bottomLoop db d lines (d.shape SE).height 0 ctx

/-- src/remove.c:684-690: the shape lines `i`, ..., `i + n - 1` of one shape -/
def compShapeLines (db : CharDb) (d : Design) (c : CompType) (s : ShapeName) : Nat → Nat → Res (List ShapeLine)
  | 0, _ => .ok []
  | n + 1, i => do
    let t ← prepareCompShape d s i c false false
    let b ← Res.get (fromUnicode db t)
    let more ← compShapeLines db d c s n (i + 1)
    .ok ({ empty := (d.shape s).isDeepEmpty, text := b, elastic := (d.shape s).elastic } :: more)

/-- src/remove.c:681-693: the loop of `prepare_comp_shapes_vert` over the shapes -/
def compShapesVert (db : CharDb) (d : Design) (c : CompType) : List ShapeName → Res (List ShapeLine)
  | [] => .ok []
  | s :: r =>
    if (d.shape s).isEmpty then compShapesVert db d c r
    else do
      let ls ← compShapeLines db d c s (d.shape s).height 0
      let more ← compShapesVert db d c r
      .ok (ls ++ more)

/-- src/remove.c:663-696 `prepare_comp_shapes_vert` -/
def prepareCompShapesVert (db : CharDb) (d : Design) (left : Bool) (c : CompType) : Res (List ShapeLine) :=
  compShapesVert db d c (if left then [WNW, W, WSW] else [ENE, E, ESE])

/-- src/remove.c:727-764: the `while` loop of `match_vertical_side` for one shape line: position and length of the match.
`ilen`, `indent`, `trailing` describe the input line.  (The unsigned difference in line 741 wraps around if it is negative; the
position is smaller then.) -/
def vertFit (db : CharDb) (left : Bool) (input : Str) (indent trailing : Nat) (text : Bxs) :
    Nat → Option Str → Nat → Option (Nat × Nat)
  | 0, _, _ => none
  | _ + 1, none, _ => none
  | fuel + 1, some s, quality =>
    match (if left then strstr input s else strnrstr input s quality) with
    | some p =>
      if (left = true ∧ p > indent + (text.numChars - quality))
          ∨ (left = false ∧ (input.length < trailing + quality ∨ p < input.length - trailing - quality)) then
        match shorten db text quality left true true with
        | some (s', q') => vertFit db left input indent trailing text fuel (some s') q'
        | none => none
      else some (p, quality)
    | none =>
      match shorten db text quality left true true with
      | some (s', q') => vertFit db left input indent trailing text fuel (some s') q'
      | none => none

/-- src/remove.c:746-763: record a match if it is longer than the previous one -/
def recordMatch (left : Bool) (p q : Nat) (l : LineCtx) : LineCtx :=
  if left then
    if q > l.westQuality then { l with westStart := p, westEnd := p + q, westQuality := q } else l
  else
    if q > l.eastQuality then { l with eastStart := p, eastEnd := p + q, eastQuality := q } else l

/-- src/remove.c:713-766 `match_vertical_side` -/
def matchVerticalSide (db : CharDb) (left : Bool) (input : Str) (indent trailing : Nat) : List ShapeLine → LineCtx → LineCtx
  | [], l => l
  | sl :: r, l =>
    if sl.empty then matchVerticalSide db left input indent trailing r l
    else match vertFit db left input indent trailing sl.text (sl.text.numChars + 2) (some sl.text.memory) sl.text.numChars with
      | some (p, q) => matchVerticalSide db left input indent trailing r (recordMatch left p q l)
      | none => matchVerticalSide db left input indent trailing r l

/-- src/remove.c:770-796 `sufficient_body_quality` -/
def sufficientBodyQuality (d : Design) (ctx : RemoveCtx) (body : List LineCtx) : Bool :=
  let total := (body.map (fun l => l.eastQuality + l.westQuality)).sum
  let max := ((if ctx.emptySide.left then 0 else (d.shape NW).width) + (if ctx.emptySide.right then 0 else (d.shape NE).width))
    * body.length
  (max = 0 ∧ total = 0) ∨ (max > 0 ∧ 2 * total > max)

/-- src/remove.c:836-850: the loop of `find_vertical_shapes` over `n` input lines beginning with line `i` -/
def vertLines (db : CharDb) (lines : List Line) (ctx : RemoveCtx) (c : CompType) (west east : List ShapeLine) :
    Nat → Nat → Res (List LineCtx)
  | 0, _ => .ok []
  | n + 1, i => do
    let s ← prepareCompInput lines i false c
    let l ← Res.get lines[i]?
    let b ← Res.get l.text
    let m ← compInputMargins b c
    let l1 := if ctx.emptySide.left then {} else matchVerticalSide db true s m.1 m.2 west {}
    let l2 := if ctx.emptySide.right then l1 else matchVerticalSide db false s m.1 m.2 east l1
    let more ← vertLines db lines ctx c west east n (i + 1)
    .ok (l2 :: more)

/-- src/remove.c:820-859: the loop of `find_vertical_shapes` over the comparison types -/
def vertRounds (db : CharDb) (d : Design) (lines : List Line) (ctx : RemoveCtx) : List CompType → CompType → List LineCtx →
    Res (CompType × List LineCtx)
  | [], c, body => .ok (c, body)
  | c :: r, cur, body =>
    if !compTypeIsViable c ctx.inputMono ctx.designMono then vertRounds db d lines ctx r cur body
    else do
      let west ← (if ctx.emptySide.left then .ok [] else prepareCompShapesVert db d true c)
      let east ← (if ctx.emptySide.right then .ok [] else prepareCompShapesVert db d false c)
      let body' ← vertLines db lines ctx c west east (ctx.bottomStart - ctx.topEnd) ctx.topEnd
      if sufficientBodyQuality d ctx body' then .ok (c, body') else vertRounds db d lines ctx r c body'

/-- src/remove.c:812-860 `find_vertical_shapes` -/
def findVerticalShapes (db : CharDb) (d : Design) (lines : List Line) (ctx : RemoveCtx) : Res RemoveCtx :=
  if ctx.emptySide.left ∧ ctx.emptySide.right then .ok ctx
  else do
    let q ← vertRounds db d lines ctx compTypes ctx.compType ctx.body
    .ok { ctx with compType := q.1, body := q.2 }

/-- src/remove.c:909, 921: `max_lines_removable`; `none` is SIZE_MAX -/
def maxRemovable (opt : Opt) (padding : Nat) : Option Nat :=
  if opt.mend ≠ 0 ∧ opt.killblank = 0 then some padding else none

/-- is there a limit and has it been reached? -/
def limitReached (limit : Option Nat) (n : Nat) : Bool :=
  match limit with
  | some m => decide (n ≥ m)
  | none => false

/-- src/remove.c:910-917: number of blank lines taken from the front of the body lines -/
def killCount (db : CharDb) (limit : Option Nat) : Nat → List Line → Nat
  | n, l :: r => if !limitReached limit n && textIsBlank db l.text then killCount db limit (n + 1) r else n
  | n, [] => n

/-- src/remove.c:906-929 `killblank` on the lines as they are after removal of the vertical sides -/
def killBlank (db : CharDb) (opt : Opt) (d : Design) (lines : List Line) (ctx : RemoveCtx) : RemoveCtx :=
  let body := (lines.take ctx.bottomStart).drop ctx.topEnd
  let k := killCount db (maxRemovable opt d.padding.top) 0 body
  let k' := killCount db (maxRemovable opt d.padding.bottom) 0 (body.drop k).reverse
  { ctx with topEnd := ctx.topEnd + k, bottomStart := ctx.bottomStart - k', bodyNum := ctx.bodyNum - k - k' }

/-- src/remove.c:933-939 `org_is_not_blank` -/
def orgIsNotBlank (db : CharDb) (b : Bxs) (c : CompType) (idx : Nat) : Res Bool :=
  if c = .literal ∨ c = .ignoreShape then do
    let x ← Res.get b.memory[idx]?
    .ok (!isBlank db x)
  else do
    let p ← Res.get b.visChar[idx]?
    let x ← Res.get b.memory[p]?
    .ok (!isBlank db x)

/-- src/remove.c:943-947 `max_chars_line` -/
def maxCharsLine (b : Bxs) (c : CompType) : Nat := if c = .literal ∨ c = .ignoreShape then b.numChars else b.vis

/-- src/remove.c:955-960: the loop of `confirmed_padding` over `n` positions beginning with `i` -/
def paddingLoop (db : CharDb) (b : Bxs) (c : CompType) : Nat → Nat → Res Nat
  | 0, _ => .ok 0
  | n + 1, i => do
    let x ← orgIsNotBlank db b c i
    if x then .ok 0
    else do
      let m ← paddingLoop db b c n (i + 1)
      .ok (m + 1)

/-- src/remove.c:951-962 `confirmed_padding` -/
def confirmedPadding (db : CharDb) (b : Bxs) (c : CompType) (start num : Nat) : Res Nat :=
  paddingLoop db b c (min (maxCharsLine b c) (start + num) - start) start

/-- src/remove.c:980-995 `calculate_start_idx` -/
def calculateStartIdx (db : CharDb) (d : Design) (c : CompType) (b : Bxs) (l : LineCtx) : Res Nat := do
  let s ← (if l.westQuality > 0 then do
      let p ← confirmedPadding db b c l.westEnd d.padding.left
      .ok (l.westEnd + p)
    else .ok 0)
  if c.skipsInput then Res.get b.firstChar[s]? else .ok s

/-- src/remove.c:999-1010 `calculate_end_idx` -/
def calculateEndIdx (c : CompType) (b : Bxs) (l : LineCtx) : Res Nat :=
  let e := if l.eastQuality > 0 then l.eastStart else maxCharsLine b c
  if c.skipsInput then Res.get b.firstChar[e]? else .ok e

/-- `bxs_prepend_spaces` of a text that may be NULL (src/bxstring.c:472-483) -/
def prependSpacesOpt (db : CharDb) (t : Option Bxs) (n : Nat) : Option Bxs :=
  match t with
  | some b => some (b.prependSpaces n)
  | none => if n = 0 then none else fromUnicode db (nspaces n)

/-- src/remove.c:1016-1037: one body line of `remove_vertical_from_input` -/
def removeVerticalLine (db : CharDb) (opt : Opt) (d : Design) (inputIndent : Nat) (c : CompType) (line : Line) (l : LineCtx) :
    Res Line := do
  let b ← Res.get line.text
  let s ← calculateStartIdx db d c b l
  let e ← calculateEndIdx c b l
  let t := b.substr db s e
  if opt.indentmode = 'b' ∨ opt.indentmode = '\x00' then .ok { line with text := prependSpacesOpt db t inputIndent }
  else .ok { line with text := t }

/-- src/remove.c:1016-1037: the body lines with their contexts -/
def removeVerticalLines (db : CharDb) (opt : Opt) (d : Design) (inputIndent : Nat) (c : CompType) :
    List LineCtx → List Line → Res (List Line)
  | [], rest => .ok rest
  | _ :: _, [] => .ub
  | l :: ls, line :: rest => do
    let x ← removeVerticalLine db opt d inputIndent c line l
    let more ← removeVerticalLines db opt d inputIndent c ls rest
    .ok (x :: more)

/-- src/remove.c:1014-1039 `remove_vertical_from_input` -/
def removeVertical (db : CharDb) (opt : Opt) (d : Design) (i : Input) (ctx : RemoveCtx) : Res (List Line) := do
  let ls ← removeVerticalLines db opt d i.indent ctx.compType (ctx.body.take ctx.bodyNum) (i.lines.drop ctx.topEnd)
  .ok (i.lines.take ctx.topEnd ++ ls)

/-- src/remove.c:1043-1055 `remove_bottom_from_input` -/
def removeBottom (lines : List Line) (ctx : RemoveCtx) : Res (List Line) :=
  if ctx.bottomEnd > ctx.bottomStart then
    if ctx.bottomEnd ≤ lines.length then .ok (lines.take ctx.bottomStart ++ lines.drop ctx.bottomEnd) else .ub
  else .ok lines

/-- src/remove.c:966-976 `remove_top_from_input`; the size in line 972 wraps around if the top part ends behind the last line -/
def removeTop (lines : List Line) (ctx : RemoveCtx) : Res (List Line) :=
  if ctx.topEnd > ctx.topStart then
    if ctx.topEnd ≤ lines.length then .ok (lines.take ctx.topStart ++ lines.drop ctx.topEnd) else .ub
  else .ok lines

/-- src/remove.c:1086-1093: longest line and smallest indentation; `none` is SIZE_MAX -/
def measureLines : List Line → Res (Nat × Option Nat)
  | [] => .ok (0, none)
  | l :: r => do
    let t ← Res.get l.text
    let m ← measureLines r
    .ok (max t.cols m.1, some (match m.2 with
      | some i => min t.indent i
      | none => t.indent))

/-- SIZE_MAX -/
def sizeMax : Nat := 18446744073709551615

/-- src/remove.c:1062-1067: cut `n` characters from the given lines -/
def cutLines (db : CharDb) (n : Nat) : List Line → Res (List Line)
  | [] => .ok []
  | l :: r => do
    let t ← Res.get l.text
    let more ← cutLines db n r
    .ok ({ l with text := t.cutFront db n } :: more)

/-- src/remove.c:1059-1071 `remove_default_padding` -/
def removeDefaultPadding (db : CharDb) (i : Input) (ctx : RemoveCtx) (n : Nat) : Res Input :=
  if n > 0 then
    if ctx.topStart + ctx.bodyNum ≤ i.lines.length then do
      let ls ← cutLines db n ((i.lines.drop ctx.topStart).take ctx.bodyNum)
      let ind ← Res.sub i.indent n
      let m ← Res.sub i.maxline n
      .ok { i with lines := i.lines.take ctx.topStart ++ ls ++ i.lines.drop (ctx.topStart + ctx.bodyNum),
                   indent := ind, maxline := m }
    else .ub
  else .ok i

/-- src/remove.c:1075-1108 `apply_results_to_input`.  (The conversion of `input.indent` to `int` gives -1 for SIZE_MAX; smaller
values are assumed to fit.) -/
def applyResults (db : CharDb) (opt : Opt) (d : Design) (i : Input) (ctx : RemoveCtx) : Res Input := do
  let ls ← removeVertical db opt d i ctx
  let ctx := if opt.killblank ≠ 0 ∨ opt.mend ≠ 0 then killBlank db opt d ls ctx else ctx
  let ls ← removeBottom ls ctx
  let ls ← removeTop ls ctx
  let m ← measureLines ls
  let j := { i with lines := ls, maxline := m.1, indent := m.2.getD sizeMax }
  if ctx.emptySide.left then
    removeDefaultPadding db j ctx (match m.2 with
      | some ind => min ind d.padding.left
      | none => 0)
  else .ok j

/-- src/remove.c:1116-1157: everything in `remove_box` before `apply_results_to_input`, for a known design; `none`: all lines are
blank -/
def findBox (db : CharDb) (d : Design) (i : Input) : Res (Option RemoveCtx) := do
  let dm ← designIsMono d
  let im ← inputIsMono i.lines
  let first := findFirstLine db i.lines
  if first ≥ i.lines.length then .ok none
  else
    let ctx : RemoveCtx := { emptySide := determineEmptySides d, designMono := dm, inputMono := im, topStart := first }
    let q ← (if ctx.emptySide.top then .ok (0, ctx) else findTopSide db d i.lines ctx)
    let bottomEnd := findLastLine db i.lines + 1
    let ctx := { q.2 with topEnd := first + q.1, bottomEnd := bottomEnd }
    let q' ← (if ctx.emptySide.bottom then .ok (0, ctx) else findBottomSide db d i.lines ctx)
    let bottomStart := bottomEnd - q'.1
    let num := if bottomStart > ctx.topEnd then bottomStart - ctx.topEnd else 0
    let ctx := { q'.2 with bottomStart := bottomStart, bodyNum := num, body := List.replicate num {} }
    if num > 0 then do
      let ctx ← findVerticalShapes db d i.lines ctx
      .ok (some ctx)
    else .ok (some ctx)

/-- src/remove.c:1112-1170 `remove_box` for a known design -/
def removeBox (db : CharDb) (opt : Opt) (d : Design) (i : Input) : Res Input := do
  let q ← findBox db d i
  match q with
  | none => .ok i
  | some ctx => applyResults db opt d i ctx

/-- src/remove.c:868-887 `detect_design_if_needed`: the index of the design to use; failure ends the program -/
def detectDesignIfNeeded (db : CharDb) (ds : List Design) (lines : List Line) (chosen : Option Nat) : Res (Nat × List Design) :=
  match chosen with
  | some k => .ok (k, ds)
  | none => do
    let q ← autodetectDesign db ds lines
    match q.1 with
    | some k => .ok (k, q.2)
    | none => .fail 1

/-- src/remove.c:1181-1189: trimming all lines -/
def rtrimLines (db : CharDb) : List Line → Res (List Line)
  | [] => .ok []
  | l :: r => do
    let more ← rtrimLines db r
    match l.text with
    | none => .ok (l :: more)
    | some t => do
      let t' ← Res.get (t.rtrim db)
      .ok ({ l with text := some t' } :: more)

/-- src/bxstring.c:381-390 `bxs_first_char_ptr`: the text from visible character `n` on -/
def Bxs.fromChar (b : Bxs) (n : Nat) : Res Str := do
  let p ← Res.get b.firstChar[if n ≥ b.vis then b.vis else n]?
  .ok (b.memory.drop p)

/-- src/remove.c:1191-1219: what is printed for a trimmed line, without the line terminator -/
def outputLine (opt : Opt) (inputIndent : Nat) (l : Line) (t : Bxs) : Res Str :=
  if opt.tabexp = 'u' then do
    if opt.tabstop = 0 then .ub
    else
      let s ← t.fromChar t.indent
      .ok (unexpandIndent opt.tabstop t.indent ++ s)
  else if opt.tabexp = 'k' then do
    let sp ← Res.get (tabbifyIndent opt.tabstop inputIndent l.tabpos inputIndent)
    let s ← t.fromChar inputIndent
    .ok (sp ++ s)
  else do
    let s ← t.fromChar 0
    .ok s

/-- src/remove.c:1181-1221: the printed lines with their terminators; `n` is the number of lines still to come -/
def outputLines (opt : Opt) (finalNewline : Bool) (inputIndent : Nat) : List Line → Res (List (Str × Str))
  | [] => .ok []
  | l :: r => do
    let more ← outputLines opt finalNewline inputIndent r
    match l.text with
    | none => .ok more
    | some t => do
      let s ← outputLine opt inputIndent l t
      .ok ((s, if finalNewline ∨ r ≠ [] then opt.eol else []) :: more)

/-- src/remove.c:1174-1223 `output_input`: the trimmed input and the printed lines -/
def outputInput (db : CharDb) (opt : Opt) (trimOnly : Bool) (i : Input) : Res (Input × List (Str × Str)) := do
  let ls ← rtrimLines db i.lines
  let j := { i with lines := ls }
  if trimOnly then .ok (j, [])
  else do
    let out ← outputLines opt i.finalNewline i.indent ls
    .ok (j, out)

/-- src/boxes.c:383-403 `handle_remove_box` for a known design: blank-line default, removal, replacement rules, output.
`mend` is the value of `opt.mend` at this point. -/
def handleRemoveBox (db : CharDb) (opt : Opt) (d : Design) (rules : List Subst) (i : Input) : Res (Input × List (Str × Str)) := do
  let kb : Int := if opt.killblank = -1 then
      (if emptySide d.shape northSide ∧ emptySide d.shape southSide then 0 else 1) else opt.killblank
  let opt := { opt with killblank := kb }
  let j ← removeBox db opt d i
  let k ← applySubstitutions db d rules j
  outputInput db opt (opt.mend > 0) k

end Boxes
