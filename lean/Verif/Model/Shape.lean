import Verif.Model.Types
import Verif.Model.Tools

/-!
# Model of `src/shape.c`
-/
namespace Boxes
open ShapeName

/-- src/shape.c:40 `north_side` -/
def northSide : List ShapeName := [NW, NNW, N, NNE, NE]
/-- src/shape.c:42 `east_side` -/
def eastSide : List ShapeName := [NE, ENE, E, ESE, SE]
/-- src/shape.c:44 `south_side` -/
def southSide : List ShapeName := [SE, SSE, S, SSW, SW]
/-- src/shape.c:45 `south_side_rev` -/
def southSideRev : List ShapeName := [SW, SSW, S, SSE, SE]
/-- src/shape.c:47 `west_side` -/
def westSide : List ShapeName := [SW, WSW, W, WNW, NW]
/-- src/shape.c:49 `corners` -/
def corners : List ShapeName := [NW, NE, SE, SW]
/-- src/shape.c:51 `sides` -/
def sideList : List (List ShapeName) := [northSide, eastSide, southSide, westSide]

/-- src/shape.c:188-204 `isempty`.  (`shape == NULL` does not occur.) -/
def Shape.isEmpty (s : Shape) : Bool :=
  if s.lines.isEmpty then true
  else if s.width = 0 || s.height = 0 then true
  else false

/-- src/shape.c:55-79 `findshape`: index of the first non-empty shape, or the number of shapes -/
def findShape (sarr : List Shape) : Nat := sarr.findIdx (fun s => !s.isEmpty)

/-- src/shape.c:92-102: the loops of `on_side` over (side number, shape) pairs -/
def onSideLoop (s : ShapeName) (idx : Nat) : List (Nat × ShapeName) → Nat → Nat
  | [], _ => 4
  | (side, t) :: rest, found =>
    if t = s then (if found = idx then side else onSideLoop s idx rest (found + 1))
    else onSideLoop s idx rest found

/-- src/shape.c:83-113 `on_side`: number of the side that the shape is on (first or second occurrence), or 4 -/
def onSide (s : ShapeName) (idx : Nat) : Nat :=
  onSideLoop s idx (sideList.zipIdx.flatMap (fun p => p.1.map (fun t => (p.2, t)))) 0

/-- src/shape.c:117-160 `genshape`: a shape of spaces; `none` is the "internal error".  (Out of memory is not modelled.) -/
def genShape (width height : Nat) : Option (List Bxs) :=
  if width = 0 || height = 0 || width > lineMaxBytes then none
  else some (List.replicate height (fromAscii (nspaces width)))

/-- `strspn(s, " \t")` -/
def spnSpTab (s : Str) : Nat := (s.takeWhile isSpTab).length

/-- src/shape.c:208-231 `isdeepempty` -/
def Shape.isDeepEmpty (s : Shape) : Bool :=
  if s.isEmpty then true
  else (s.lines.take s.height).all (fun b => spnSpTab b.ascii == s.width)

/-- src/shape.c:235-266 `highest` -/
def highest (sarr : ShapeName → Shape) : List ShapeName → Nat
  | l => l.foldl (fun m r => if (sarr r).isEmpty then m else if (sarr r).height > m then (sarr r).height else m) 0

/-- src/shape.c:270-301 `widest` -/
def widest (sarr : ShapeName → Shape) : List ShapeName → Nat
  | l => l.foldl (fun m r => if (sarr r).isEmpty then m else if (sarr r).width > m then (sarr r).width else m) 0

/-- src/shape.c:314-327 `empty_side`; the side is one of the four lists -/
def emptySide (sarr : ShapeName → Shape) (side : List ShapeName) : Bool :=
  side.all (fun r => (sarr r).isDeepEmpty)

/-- src/shape.c:331-340 `is_west`, on the shape's name -/
def isWest (name : ShapeName) (corners : Bool) : Bool :=
  (if corners then westSide else (westSide.drop 1).take 3).contains name

/-- src/shape.c:344-353 `is_east`, on the shape's name -/
def isEast (name : ShapeName) (corners : Bool) : Bool :=
  (if corners then eastSide else (eastSide.drop 1).take 3).contains name

/-- src/shape.c:357-367 `find_in_horiz`; `none` is -1 -/
def findInHoriz (side : List ShapeName) (s : ShapeName) : Option Nat := side.idxOf? s

/-- src/shape.c:421-427: the loop of `is_blankward_calc` over the shapes on one hand of the shape.
`ub`: `mbcs[shape_line_idx]` outside the array. -/
def allBlankAt (db : CharDb) (sarr : ShapeName → Shape) (idx : Nat) : List ShapeName → Res Bool
  | [] => .ok true
  | t :: more =>
    if (sarr t).lines.isEmpty then allBlankAt db sarr idx more
    else do
      let b ← Res.get (sarr t).lines[idx]?
      if !b.isBlankStr db then .ok false else allBlankAt db sarr idx more

/-- src/shape.c:396-430 `is_blankward_calc` -/
def isBlankwardCalc (db : CharDb) (d : Design) (shape : ShapeName) (idx : Nat) (leftward : Bool) : Res Bool :=
  let name := (d.shape shape).name
  if isWest name leftward then .ok leftward
  else if isEast name (!leftward) then .ok (!leftward)
  else
    let (side, pos) := match findInHoriz northSide shape with
      | some p => (northSide, some p)
      | none => (southSideRev, findInHoriz southSideRev shape)
    match pos with
    | none => .ub
    | some p => allBlankAt db d.shape idx (if leftward then side.take p else side.drop (p + 1))

/-- the blankward cache of a shape for one direction -/
def Shape.cache (s : Shape) (leftward : Bool) : Option (List (Option Bool)) :=
  if leftward then s.blankLeft else s.blankRight

/-- a shape with the given blankward cache for one direction -/
def Shape.setCache (s : Shape) (leftward : Bool) (c : List (Option Bool)) : Shape :=
  if leftward then { s with blankLeft := some c } else { s with blankRight := some c }

/-- a design with one shape replaced -/
def Design.setShape (d : Design) (name : ShapeName) (s : Shape) : Design :=
  { d with shape := fun n => if n = name then s else d.shape n }

/-- src/shape.c:434-460 `is_blankward`: the answer and the design with the updated cache.
(`current_design == NULL` does not occur.) -/
def isBlankward (db : CharDb) (d : Design) (shape : ShapeName) (idx : Nat) (leftward : Bool) : Res (Bool × Design) :=
  let s := d.shape shape
  if idx ≥ s.height then .ok (false, d)
  else
    match (s.cache leftward).bind (fun c => c[idx]?.join) with
    | some b => .ok (b, d)
    | none => do
      let cache := (s.cache leftward).getD (List.replicate s.height none)
      let r ← isBlankwardCalc db d shape idx leftward
      if idx < cache.length then
        .ok (r, d.setShape shape (s.setCache leftward (cache.set idx (some r))))
      else .ub

end Boxes
