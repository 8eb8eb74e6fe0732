import Verif.Model.Input
import Verif.Model.Shape

/-!
# Model of `src/detect.c`
-/
namespace Boxes
open ShapeName

/-- src/detect.h:31-43 `comparison_t` -/
inductive CompType where
  | literal | ignoreInput | ignoreShape | ignoreAll
deriving DecidableEq, Repr

/-- all comparison types in the order in which they are tried -/
def compTypes : List CompType := [.literal, .ignoreInput, .ignoreShape, .ignoreAll]

/-- `comp_type == ignore_invisible_input || comp_type == ignore_invisible_all` -/
def CompType.skipsInput (c : CompType) : Bool := c == .ignoreInput || c == .ignoreAll

/-- `comp_type == ignore_invisible_shape || comp_type == ignore_invisible_all` -/
def CompType.skipsShape (c : CompType) : Bool := c == .ignoreShape || c == .ignoreAll

/-- src/detect.c:62-73 `input_is_mono` on the lines -/
def inputIsMono : List Line → Res Bool
  | [] => .ok true
  | l :: r => do
    let t ← Res.get l.text
    if t.invis > 0 then .ok false else inputIsMono r

/-- src/detect.c:83-89: lines `i`, ..., `i + n - 1` of a shape -/
def shapeIsMono (lines : List Bxs) : Nat → Nat → Res Bool
  | 0, _ => .ok true
  | n + 1, i => do
    let b ← Res.get lines[i]?
    if b.invis > 0 then .ok false else shapeIsMono lines n (i + 1)

/-- src/detect.c:79-91: loop over the shapes -/
def shapesAreMono (d : Design) : List ShapeName → Res Bool
  | [] => .ok true
  | n :: r =>
    if (d.shape n).isEmpty then shapesAreMono d r
    else do
      let m ← shapeIsMono (d.shape n).lines (d.shape n).height 0
      if m then shapesAreMono d r else .ok false

/-- src/detect.c:77-93 `design_is_mono` -/
def designIsMono (d : Design) : Res Bool := shapesAreMono d allShapes

/-- src/detect.c:97-108 `comp_type_is_viable` -/
def compTypeIsViable (c : CompType) (monoInput monoDesign : Bool) : Bool :=
  if (c = .literal ∧ monoInput ≠ monoDesign)
      ∨ (c = .ignoreInput ∧ (monoInput = true ∨ monoDesign = false))
      ∨ (c = .ignoreShape ∧ (monoInput = false ∨ monoDesign = true))
      ∨ (c = .ignoreAll ∧ (monoInput = true ∨ monoDesign = true))
  then false else true

/-- src/detect.c:112-122 `determine_empty_sides` -/
def determineEmptySides (d : Design) : Sides Bool :=
  { top := emptySide d.shape northSide, right := emptySide d.shape eastSide,
    bottom := emptySide d.shape southSide, left := emptySide d.shape westSide }

/-- writing a NUL at position `i` of a string of length `s.length` (src/unicode.c:66-69 `set_char_at`) -/
def cutAt (s : Str) (i : Nat) : Res Str := if i ≤ s.length then .ok (s.take i) else .ub

/-- src/detect.c:140-174 `prepare_comp_shape`; an index that is too large gives NULL, which all callers use without a check -/
def prepareCompShape (d : Design) (n : ShapeName) (idx : Nat) (c : CompType) (trimLeft trimRight : Bool) : Res Str :=
  if idx ≥ (d.shape n).height then .ub
  else do
    let b ← Res.get (d.shape n).lines[idx]?
    if c.skipsShape ∧ b.invis > 0 then
      let ltrim := if trimLeft then b.indent else 0
      let v ← Res.get b.filterVisible
      if ltrim > v.length then .ub
      else if trimRight ∧ b.trailing > 0 then
        let x ← Res.sub b.vis ltrim
        let y ← Res.sub x b.trailing
        cutAt (v.drop ltrim) y
      else .ok (v.drop ltrim)
    else do
      let p ← (if trimLeft then Res.get b.firstChar[b.indent]? else .ok 0)
      let r := b.memory.drop p
      if trimRight ∧ b.trailing > 0 then
        let x ← Res.sub b.vis (if trimLeft then b.indent else 0)
        let y ← Res.sub x b.trailing
        let q ← Res.get b.firstChar[y]?
        cutAt r q
      else .ok r

/-- src/detect.c:178-244 `prepare_comp_input` with `offset_right == 0`: the text.  A wrong index gives NULL, which the callers
use without a check.  The cache of the visible text (126-136 `get_visible_text`) is not modelled: `free_line_text` drops it
whenever the text changes. -/
def prepareCompInput (lines : List Line) (idx : Nat) (trimLeft : Bool) (c : CompType) : Res Str :=
  if idx ≥ lines.length then .ub
  else do
    let l ← Res.get lines[idx]?
    let b ← Res.get l.text
    if c.skipsInput then
      let v ← Res.get b.filterVisible
      let ltrim := if trimLeft then b.indent else 0
      if ltrim > v.length then .ub else .ok (v.drop ltrim)
    else if trimLeft then do
      let p ← Res.get b.firstChar[b.indent]?
      .ok (b.memory.drop p)
    else .ok b.memory

/-- src/detect.c:206-211, 224-234: `*out_indent` and `*out_trailing` of `prepare_comp_input` for `trim_left == 0` and
`offset_right == 0` -/
def compInputMargins (b : Bxs) (c : CompType) : Res (Nat × Nat) :=
  if c.skipsInput then .ok (b.indent, b.trailing)
  else do
    let p ← Res.get b.firstChar[b.indent]?
    let x ← Res.sub b.vis b.trailing
    let q ← Res.get b.firstChar[x]?
    let t ← Res.sub b.numChars q
    .ok (p, t)

/-- src/detect.c:178-244 `prepare_comp_input` with `offset_right > 0`: the text, `none` being NULL.  (The code compares
pointers or signed numbers to find out that the offset is too large.) -/
def prepareCompInputRight (lines : List Line) (idx : Nat) (c : CompType) (offset : Nat) : Res (Option Str) :=
  if idx ≥ lines.length then .ok none
  else do
    let l ← Res.get lines[idx]?
    let b ← Res.get l.text
    let x ← Res.sub b.vis b.trailing
    if c.skipsInput then
      let v ← Res.get b.filterVisible
      .ok (if offset ≤ x then some (v.drop (x - offset)) else none)
    else do
      let q ← Res.get b.firstChar[x]?
      .ok (if offset ≤ q then some (b.memory.drop (q - offset)) else none)

/-- `u32_strstr`: position of the first occurrence -/
def strstr (h n : Str) : Option Nat := (List.range (h.length + 1)).find? fun i => strnEq n.length (h.drop i) n

/-- src/detect.c:274-277, 323-326, 377-380: the input line that line `k` of a shape of height `h` is compared with; `none`
ends the loop (`k + num_lines - h` wraps around to a huge number if it is negative) -/
def cornerLine (bottom : Bool) (numLines h k : Nat) : Option Nat :=
  if bottom then
    if k + numLines < h then none
    else if k + numLines - h ≥ numLines then none else some (k + numLines - h)
  else if k ≥ numLines then none else some k

/-- src/detect.c:272-287: inner loop of `find_west_corner` for `n` more lines beginning with `k` -/
def westCornerHits (lines : List Line) (c : CompType) (bottom : Bool) (h : Nat) (shape : Str) : Nat → Nat → Res Nat
  | 0, _ => .ok 0
  | n + 1, k =>
    match cornerLine bottom lines.length h k with
    | none => .ok 0
    | some a => do
      let p ← prepareCompInput lines a true c
      let more ← westCornerHits lines c bottom h shape n (k + 1)
      .ok ((if strnEq shape.length p shape then 1 else 0) + more)

/-- src/detect.c:264-289: outer loop of `find_west_corner` for `n` more shape lines beginning with `j` -/
def westCornerLoop (db : CharDb) (d : Design) (lines : List Line) (c : CompType) (corner : ShapeName) : Nat → Nat → Res Nat
  | 0, _ => .ok 0
  | n + 1, j => do
    let b ← Res.get (d.shape corner).lines[j]?
    if b.isBlankStr db then westCornerLoop db d lines c corner n (j + 1)
    else
      let s ← prepareCompShape d corner j c true false
      let hits ← westCornerHits lines c (corner = SW) (d.shape corner).height s (d.shape corner).height 0
      let more ← westCornerLoop db d lines c corner n (j + 1)
      .ok (hits + more)

/-- src/detect.c:257-293 `find_west_corner` -/
def findWestCorner (db : CharDb) (d : Design) (lines : List Line) (c : CompType) (empty : Sides Bool) (corner : ShapeName) :
    Res Nat :=
  if empty.left ∨ (empty.top ∧ corner = NW) ∨ (empty.bottom ∧ corner = SW) then .ok 0
  else westCornerLoop db d lines c corner (d.shape corner).height 0

/-- src/detect.c:321-336: inner loop of `find_east_corner` -/
def eastCornerHits (lines : List Line) (c : CompType) (bottom : Bool) (h : Nat) (shape : Str) : Nat → Nat → Res Nat
  | 0, _ => .ok 0
  | n + 1, k =>
    match cornerLine bottom lines.length h k with
    | none => .ok 0
    | some a => do
      let p ← prepareCompInputRight lines a c shape.length
      let more ← eastCornerHits lines c bottom h shape n (k + 1)
      .ok ((match p with
        | some s => if strnEq shape.length s shape then 1 else 0
        | none => 0) + more)

/-- src/detect.c:313-338: outer loop of `find_east_corner` -/
def eastCornerLoop (db : CharDb) (d : Design) (lines : List Line) (c : CompType) (corner : ShapeName) : Nat → Nat → Res Nat
  | 0, _ => .ok 0
  | n + 1, j => do
    let b ← Res.get (d.shape corner).lines[j]?
    if b.isBlankStr db then eastCornerLoop db d lines c corner n (j + 1)
    else
      let s ← prepareCompShape d corner j c false true
      let hits ← eastCornerHits lines c (corner = SE) (d.shape corner).height s (d.shape corner).height 0
      let more ← eastCornerLoop db d lines c corner n (j + 1)
      .ok (hits + more)

/-- src/detect.c:305-342 `find_east_corner` -/
def findEastCorner (db : CharDb) (d : Design) (lines : List Line) (c : CompType) (empty : Sides Bool) (corner : ShapeName) :
    Res Nat :=
  if empty.right ∨ (empty.top ∧ corner = NE) ∨ (empty.bottom ∧ corner = SE) then .ok 0
  else eastCornerLoop db d lines c corner (d.shape corner).height 0

/-- src/detect.c:385-398: does the shape line occur (twice in a row if it is elastic)? -/
def horizHit (elastic : Bool) (input shape : Str) : Bool :=
  match strstr input shape with
  | none => false
  | some p =>
    if elastic then
      if p + shape.length ≥ input.length then false else strnEq shape.length (input.drop (p + shape.length)) shape
    else true

/-- src/detect.c:375-399: inner loop of `find_horizontal_shape` -/
def horizHits (lines : List Line) (c : CompType) (bottom elastic : Bool) (h : Nat) (shape : Str) : Nat → Nat → Res Nat
  | 0, _ => .ok 0
  | n + 1, k =>
    match cornerLine bottom lines.length h k with
    | none => .ok 0
    | some a => do
      let p ← prepareCompInput lines a true c
      let more ← horizHits lines c bottom elastic h shape n (k + 1)
      .ok ((if horizHit elastic p shape then 1 else 0) + more)

/-- src/detect.c:363-401: outer loop of `find_horizontal_shape`; the design is passed on with its blankward caches -/
def horizLoop (db : CharDb) (lines : List Line) (c : CompType) (hshape : ShapeName) : Nat → Nat → Design → Res (Nat × Design)
  | 0, _, d => .ok (0, d)
  | n + 1, j, d => do
    let b ← Res.get (d.shape hshape).lines[j]?
    if b.isBlankStr db then horizLoop db lines c hshape n (j + 1) d
    else
      let q ← isBlankward db d hshape j true
      let q' ← isBlankward db q.2 hshape j false
      let s ← prepareCompShape q'.2 hshape j c q.1 q'.1
      let hits ← horizHits lines c (decide (SSE.idx ≤ hshape.idx) && decide (hshape.idx ≤ SSW.idx)) (d.shape hshape).elastic
        (d.shape hshape).height s (d.shape hshape).height 0
      let more ← horizLoop db lines c hshape n (j + 1) q'.2
      .ok (hits + more.1, more.2)

/-- src/detect.c:354-405 `find_horizontal_shape` -/
def findHorizontalShape (db : CharDb) (d : Design) (lines : List Line) (c : CompType) (empty : Sides Bool) (hshape : ShapeName) :
    Res (Nat × Design) :=
  if empty.top ∨ empty.bottom then .ok (0, d)
  else horizLoop db lines c hshape (d.shape hshape).height 0 d

/-- src/detect.c:434-448: shape lines `j`, ... of a west shape against one input line -/
def westLineHit (db : CharDb) (d : Design) (c : CompType) (vshape : ShapeName) (input : Str) : Nat → Nat → Res Bool
  | 0, _ => .ok false
  | n + 1, j => do
    let b ← Res.get (d.shape vshape).lines[j]?
    if b.isBlankStr db then westLineHit db d c vshape input n (j + 1)
    else
      let s ← prepareCompShape d vshape j c true false
      if strnEq s.length input s then .ok true else westLineHit db d c vshape input n (j + 1)

/-- src/detect.c:429-449: loop of `find_vertical_west` over `n` input lines beginning with `k` -/
def westLoop (db : CharDb) (d : Design) (lines : List Line) (c : CompType) (vshape : ShapeName) : Nat → Nat → Res Nat
  | 0, _ => .ok 0
  | n + 1, k => do
    let p ← prepareCompInput lines k true c
    let hit ← westLineHit db d c vshape p (d.shape vshape).height 0
    let more ← westLoop db d lines c vshape n (k + 1)
    .ok ((if hit then 1 else 0) + more)

/-- src/detect.c:421-422, 429-430: lines of the top and bottom part that are left out -/
def outerLines (d : Design) (empty : Sides Bool) : Nat × Nat :=
  (if empty.top then 0 else (d.shape NW).height, if empty.bottom then 0 else (d.shape SW).height)

/-- src/detect.c:418-454 `find_vertical_west` -/
def findVerticalWest (db : CharDb) (d : Design) (lines : List Line) (c : CompType) (empty : Sides Bool) (vshape : ShapeName) :
    Res Nat :=
  let o := outerLines d empty
  if o.1 + o.2 ≥ lines.length then .ok 0
  else if (d.shape vshape).isEmpty then .ok 0
  else westLoop db d lines c vshape (lines.length - o.2 - o.1) o.1

/-- src/detect.c:487-495: one shape line of an east shape against `n` input lines beginning with `k`; the first hit counts -/
def eastLineHit (lines : List Line) (c : CompType) (shape : Str) : Nat → Nat → Res Bool
  | 0, _ => .ok false
  | n + 1, k => do
    let p ← prepareCompInputRight lines k c shape.length
    match p with
    | some s => if strnEq shape.length s shape then .ok true else eastLineHit lines c shape n (k + 1)
    | none => eastLineHit lines c shape n (k + 1)

/-- src/detect.c:478-497: loop of `find_vertical_east` over `n` shape lines beginning with `j` -/
def eastLoop (db : CharDb) (d : Design) (lines : List Line) (c : CompType) (vshape : ShapeName) (first count : Nat) :
    Nat → Nat → Res Nat
  | 0, _ => .ok 0
  | n + 1, j => do
    let b ← Res.get (d.shape vshape).lines[j]?
    if b.isBlankStr db then eastLoop db d lines c vshape first count n (j + 1)
    else
      let s ← prepareCompShape d vshape j c true true
      let hit ← eastLineHit lines c s count first
      let more ← eastLoop db d lines c vshape first count n (j + 1)
      .ok ((if hit then 1 else 0) + more)

/-- src/detect.c:467-502 `find_vertical_east` -/
def findVerticalEast (db : CharDb) (d : Design) (lines : List Line) (c : CompType) (empty : Sides Bool) (vshape : ShapeName) :
    Res Nat :=
  let o := outerLines d empty
  if o.1 + o.2 ≥ lines.length then .ok 0
  else if (d.shape vshape).isEmpty then .ok 0
  else eastLoop db d lines c vshape o.1 (lines.length - o.2 - o.1) (d.shape vshape).height 0

/-- src/detect.c:512-539: the `switch` of `match_design` for one shape -/
def matchShape (db : CharDb) (d : Design) (lines : List Line) (c : CompType) (empty : Sides Bool) (n : ShapeName) :
    Res (Nat × Design) :=
  match n with
  | NW | SW => do .ok (← findWestCorner db d lines c empty n, d)
  | NE | SE => do .ok (← findEastCorner db d lines c empty n, d)
  | NNW | N | NNE | SSE | S | SSW => findHorizontalShape db d lines c empty n
  | ENE | E | ESE => do .ok (← findVerticalEast db d lines c empty n, d)
  | WSW | W | WNW => do .ok (← findVerticalWest db d lines c empty n, d)

/-- src/detect.c:511-540: the loop of `match_design` -/
def matchShapes (db : CharDb) (lines : List Line) (c : CompType) (empty : Sides Bool) : List ShapeName → Design → Res (Nat × Design)
  | [], d => .ok (0, d)
  | n :: r, d => do
    let q ← matchShape db d lines c empty n
    let q' ← matchShapes db lines c empty r q.2
    .ok (q.1 + q'.1, q'.2)

/-- src/detect.c:506-544 `match_design`: number of hits, and the design with its caches -/
def matchDesign (db : CharDb) (d : Design) (lines : List Line) (c : CompType) : Res (Nat × Design) :=
  matchShapes db lines c (determineEmptySides d) allShapes d

/-- src/detect.c:558-580: the loop over the designs, for one comparison type.  `score` is `match_design`, which also updates the
caches of the design; `viable` is the test before it; `best` is `result` (the index) with `maxhits`, `i` the index of the first
design of the list.  Result: the best design so far and the designs with their caches. -/
def detectRound {D : Type} (score : D → Res (Nat × D)) (viable : D → Res Bool) :
    List D → Nat → Option Nat × Nat → Res ((Option Nat × Nat) × List D)
  | [], _, best => .ok (best, [])
  | d :: r, i, best => do
    let v ← viable d
    if v then
      let q ← score d
      let best' := if q.1 > best.2 then (some i, q.1) else best
      let rest ← detectRound score viable r (i + 1) best'
      .ok (rest.1, q.2 :: rest.2)
    else
      let rest ← detectRound score viable r (i + 1) best
      .ok (rest.1, d :: rest.2)

/-- src/detect.c:557-584: the loop over the comparison types -/
def detectRounds {D : Type} (score : CompType → D → Res (Nat × D)) (viable : CompType → D → Res Bool) :
    List CompType → List D → Option Nat × Nat → Res ((Option Nat × Nat) × List D)
  | [], ds, best => .ok (best, ds)
  | c :: r, ds, best => do
    let q ← detectRound (score c) (viable c) ds 0 best
    if q.1.2 > 2 then .ok q else detectRounds score viable r q.2 q.1

/-- src/detect.c:548-590 `autodetect_design`: index of the design (`none` is NULL), and the designs with their caches -/
def autodetectDesign (db : CharDb) (ds : List Design) (lines : List Line) : Res (Option Nat × List Design) := do
  let mono ← inputIsMono lines
  let q ← detectRounds (fun c d => matchDesign db d lines c)
    (fun c d => do .ok (compTypeIsViable c mono (← designIsMono d))) compTypes ds (none, 0)
  .ok (q.1.1, q.2)

end Boxes
