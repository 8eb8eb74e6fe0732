import Verif.Model.Shape

/-!
# Model of `src/generate.c`

`size_t` values are natural numbers: additions do not overflow (not modelled), subtractions below zero are `Res.ub`.
-/
namespace Boxes
open ShapeName

/-! ## Precalculation -/

/-- One of the three shapes between the corners of a side, as the precalculation sees it: `exist` is `!isempty`, `size` is
the width (horizontal sides) or height (vertical sides), `fill` is the entry of `iltf`. -/
structure Cell where
  exist : Bool
  elastic : Bool
  size : Nat
  fill : Nat
deriving DecidableEq, Repr

/-- State of one side in the precalculation: the cells, the length so far (`twidth` etc.), and the toggle (1 or 3). -/
structure SideSt where
  cells : List Cell
  len : Nat
  toggle : Nat
deriving DecidableEq, Repr

/-- src/generate.c:140-150 and similar loops: the first cell with property `p` is enlarged if it meets `c`; then `break`.
Returns the cells and the added length. -/
def addFirst (p c : Cell → Bool) : List Cell → List Cell × Nat
  | [] => ([], 0)
  | x :: xs =>
    if p x then (if c x then ({ x with fill := x.fill + x.size } :: xs, x.size) else (x :: xs, 0))
    else (x :: (addFirst p c xs).1, (addFirst p c xs).2)

/-- src/generate.c:186-191 (350-355): every cell with property `p` is enlarged. -/
def addAll (p : Cell → Bool) : List Cell → List Cell × Nat
  | [] => ([], 0)
  | x :: xs =>
    if p x then ({ x with fill := x.fill + x.size } :: (addAll p xs).1, x.size + (addAll p xs).2)
    else (x :: (addAll p xs).1, (addAll p xs).2)

/-- src/generate.c:142-144 and similar conditions: still nothing of the cell, or the side is too short, or the sides differ.
(`len` and `other` are `twidth` and `bwidth` at this time.) -/
def needMore (target len other : Nat) (x : Cell) : Bool := x.fill == 0 || len < target || len != other

/-- src/generate.c:193-199 (357-363): enlarge cell number `k` (1..3) if it meets the condition. -/
def addAt (c : Cell → Bool) : Nat → List Cell → List Cell × Nat
  | _, [] => ([], 0)
  | 0, xs => (xs, 0)
  | 1, x :: xs => if c x then ({ x with fill := x.fill + x.size } :: xs, x.size) else (x :: xs, 0)
  | k + 2, x :: xs => (x :: (addAt c (k + 1) xs).1, (addAt c (k + 1) xs).2)

/-- src/generate.c:135-217 (and, with heights, 299-381): one step of the precalculation on the side that is behind.
`none` is the "internal error". -/
def advance (target other : Nat) (s : SideSt) : Option SideSt :=
  match s.cells.countP (·.exist) with
  | 1 =>
    let r := addFirst (·.exist) (needMore target s.len other) s.cells
    some { s with cells := r.1, len := s.len + r.2 }
  | 2 =>
    let r1 := addFirst (fun x => x.exist && !x.elastic && x.fill == 0) (fun _ => true) s.cells
    let r2 := addFirst (fun x => x.exist && x.elastic) (needMore target (s.len + r1.2) other) r1.1
    some { s with cells := r2.1, len := s.len + r1.2 + r2.2 }
  | 3 =>
    let r1 := addAll (fun x => !x.elastic && x.fill == 0) s.cells
    if (s.cells[0]?.any (·.elastic)) && (s.cells[2]?.any (·.elastic)) then
      let r2 := addAt (needMore target (s.len + r1.2) other) s.toggle r1.1
      some { cells := r2.1, len := s.len + r1.2 + r2.2, toggle := if s.toggle = 1 then 3 else 1 }
    else
      let r2 := addFirst (·.elastic) (needMore target (s.len + r1.2) other) r1.1
      some { s with cells := r2.1, len := s.len + r1.2 + r2.2 }
  | _ => none

/-- src/generate.c:110-218 (274-382): the do-while loop.  `none`: not finished after `fuel` rounds; `some (.fail 1)`: error
return.  The sides are top and bottom, or left and right. -/
def precalcLoop (target : Nat) : Nat → SideSt → SideSt → Option (Res (SideSt × SideSt))
  | 0, _, _ => none
  | fuel + 1, t, b =>
    match (if t.len > b.len then (advance target t.len b).map (fun b' => (t, b'))
           else (advance target b.len t).map (fun t' => (t', b))) with
    | none => some (.fail 1)
    | some (t', b') =>
      if t'.len ≠ b'.len ∨ t'.len < target ∨ b'.len < target then precalcLoop target fuel t' b'
      else some (.ok (t', b'))

/-- src/generate.c:63-64, 87-95, 104-108 (254-255, 270-276): initial state of a side. -/
def initSide (size : Shape → Nat) (shapes : List Shape) : SideSt :=
  { cells := shapes.map (fun s => { exist := !s.isEmpty, elastic := s.elastic, size := size s, fill := 0 }),
    len := 0, toggle := 1 }

/-- src/generate.c:71-79 (259-267): length that the sides must reach: the text's extent, or what the minimum box size leaves
between the corners. -/
def targetLen (text min c1 c2 : Nat) : Res Nat := do
  let m ← Res.sub min c1
  let m ← Res.sub m c2
  .ok (if text ≥ m then text else m)

/-- the three shapes between the corners of a side -/
def middle (d : Design) (side : List ShapeName) : List Shape := ((side.drop 1).take 3).map d.shape

/-- src/generate.c:37-224 `horiz_precalc`: columns to fill by the top and bottom shapes, and their sum -/
def horizPrecalc (d : Design) (maxline fuel : Nat) : Option (Res (List Nat × List Nat × Nat)) :=
  match targetLen maxline d.minwidth (d.shape NW).width (d.shape NE).width with
  | .ok target =>
    (precalcLoop target fuel (initSide (·.width) (middle d northSide)) (initSide (·.width) (middle d southSide))).map
      (fun r => do
        let (t, b) ← r
        .ok (t.cells.map (·.fill), b.cells.map (·.fill), t.len))
  | .fail n => some (.fail n)
  | .ub => some .ub

/-- src/generate.c:228-408 `vert_precalc`: lines to fill by the left and right shapes, and their sum -/
def vertPrecalc (d : Design) (numLines fuel : Nat) : Option (Res (List Nat × List Nat × Nat)) :=
  match targetLen numLines d.minheight (d.shape SW).height (d.shape NW).height with
  | .ok target =>
    (precalcLoop target fuel (initSide (·.height) (middle d westSide)) (initSide (·.height) (middle d eastSide))).map
      (fun r => do
        let (t, b) ← r
        .ok (t.cells.map (·.fill), b.cells.map (·.fill), t.len))
  | .fail n => some (.fail n)
  | .ub => some .ub

/-! ## Assembling the sides -/

/-- the first `n` lines of a shape; `ub` if it has fewer -/
def firstLines (s : Shape) (n : Nat) : Res (List Bxs) := if n ≤ s.lines.length then .ok (s.lines.take n) else .ub

/-- src/generate.c:431-439 and 488-498: the order in which shapes are taken until the width is reached.  The pairs are the
shapes between the corners with their columns to fill, in the order in which `cshape` visits them (west to east).
`ub`: no shape left, or `iltf` underflows.  `fuel` is the number of rounds; the width suffices if no shape has width 0. -/
def shapeSeq (width : Nat) : Nat → Nat → List (Shape × Nat) → Res (List Shape)
  | 0, j, _ => if j ≥ width then .ok [] else .ub
  | fuel + 1, j, cells =>
    if j ≥ width then .ok []
    else match cells.dropWhile (fun p => p.2 == 0) with
      | [] => .ub
      | (s, f) :: rest => do
        let f' ← Res.sub f s.width
        let more ← shapeSeq width fuel (j + s.width) ((s, f') :: rest)
        .ok (s :: more)

/-- lines number `i` of all the shapes -/
def lineOf (i : Nat) : List Shape → Res (List Bxs)
  | [] => .ok []
  | s :: more => do
    let b ← Res.get s.lines[i]?
    let bs ← lineOf i more
    .ok (b :: bs)

/-- src/generate.c:436-448: `num_chars` summed up per line, and the maximum of the sums -/
def charsRequired (shapes : List Shape) : List Nat → Res Nat
  | [] => .ok 0
  | i :: more => do
    let bs ← lineOf i shapes
    let r ← charsRequired shapes more
    .ok (max (bs.map (·.numChars)).sum r)

/-- src/generate.c:494-503: the lines of a horizontal side.  `maxChars` and `width` are the sizes of the buffers for the
line and for its ASCII form; writing more is `ub`. -/
def assembleLines (db : CharDb) (shapes : List Shape) (maxChars width : Nat) : List Nat → Res (List Bxs)
  | [] => .ok []
  | i :: more => do
    let bs ← lineOf i shapes
    let mem := (bs.map (·.memory)).flatten
    if mem.length > maxChars ∨ (bs.map (·.ascii)).flatten.length > width then .ub
    else do
      let b ← Res.get (fromUnicode db mem)
      let r ← assembleLines db shapes maxChars width more
      .ok (b :: r)

/-- src/generate.c:423-453 `horiz_chars_required` and 457-508 `vert_assemble`.  `cells` are the shapes with their columns to
fill from west to east: `north_side` is visited forwards (lines 430, 434, 486, 490), `south_side` backwards. -/
def vertAssemble (db : CharDb) (width height : Nat) (cells : List (Shape × Nat)) : Res (List Bxs) := do
  let shapes ← shapeSeq width width 0 cells
  let maxChars ← charsRequired shapes (List.range height)
  assembleLines db shapes maxChars width (List.range height)

/-- src/generate.c:541-557: the lines between the corners of a vertical side, `n` of them.  The pairs are visited from top to
bottom, `sc` is the line within the shape. -/
def sideLines : Nat → List (Shape × Nat) → Nat → Res (List Bxs)
  | 0, _, _ => .ok []
  | n + 1, cells, sc =>
    let rest := cells.dropWhile (fun p => p.2 == 0)
    let sc := if rest.length = cells.length then sc else 0
    match rest with
    | [] => .ub
    | (s, f) :: more => do
      let sc := if sc = s.height then 0 else sc
      let b ← Res.get s.lines[sc]?
      let r ← sideLines n ((s, f - 1) :: more) (sc + 1)
      .ok (b :: r)

/-- src/generate.c:512-558 `horiz_assemble`.  The C code writes the top corner's lines at the beginning of the array, the
bottom corner's at its end, and the others between them; the three index ranges are disjoint and cover the array. -/
def horizAssemble (height : Nat) (ctop cbottom : Shape) (cells : List (Shape × Nat)) : Res (List Bxs) := do
  let top ← firstLines ctop ctop.height
  let bot ← firstLines cbottom cbottom.height
  let n ← Res.sub height cbottom.height
  let n ← Res.sub n ctop.height
  let mid ← sideLines n cells 0
  .ok (top ++ mid ++ bot)

/-- src/generate.c:562-638 `horiz_generate`: top and bottom side, without corners -/
def horizGenerate (db : CharDb) (d : Design) (maxline fuel : Nat) : Option (Res (Shape × Shape)) :=
  let th := highest d.shape [NW, NNW, N, NNE, NE]
  let bh := highest d.shape [SW, SSW, S, SSE, SE]
  (horizPrecalc d maxline fuel).map (fun r => do
    let (tiltf, biltf, w) ← r
    let t ← vertAssemble db w th ((middle d northSide).zip tiltf)
    let b ← vertAssemble db w bh ((middle d southSide).zip biltf).reverse
    .ok ({ lines := t, width := w, height := th }, { lines := b, width := w, height := bh }))

/-- src/generate.c:642-726 `vert_generate`: left and right side, with corners -/
def vertGenerate (d : Design) (numLines fuel : Nat) : Option (Res (Shape × Shape)) :=
  let lw := widest d.shape [SW, WSW, W, WNW, NW]
  let rw := widest d.shape [SE, ESE, E, ENE, NE]
  (vertPrecalc d numLines fuel).map (fun r => do
    let (liltf, riltf, vspace) ← r
    let lh := vspace + (d.shape NW).height + (d.shape SW).height
    let rh := vspace + (d.shape NE).height + (d.shape SE).height
    let l ← horizAssemble lh (d.shape NW) (d.shape SW) ((middle d westSide).zip liltf).reverse
    let r ← horizAssemble rh (d.shape NE) (d.shape SE) ((middle d eastSide).zip riltf)
    .ok ({ lines := l, width := lw, height := lh }, { lines := r, width := rw, height := rh }))

/-- src/generate.c:730-768 `generate_box`.  `none`: a precalculation is not finished after `fuel` rounds. -/
def generateBox (db : CharDb) (d : Design) (input : Input) (fuel : Nat) : Option (Res (Sides Shape)) :=
  match horizGenerate db d input.maxline fuel with
  | none => none
  | some (.fail n) => some (.fail n)
  | some .ub => some .ub
  | some (.ok (t, b)) =>
    (vertGenerate d input.lines.length fuel).map (fun r => do
      let (l, r) ← r
      .ok { top := t, right := r, bottom := b, left := l })

/-! ## Output -/

/-- src/generate.c:772-851 `justify_line`.  `skew` is the difference of the spaces right and left of the text block. -/
def justifyLine (db : CharDb) (opt : Opt) (d : Design) (input : Input) (text : Bxs) (skew : Int) : Res Int :=
  if text.isBlankStr db then .ok 0
  else if opt.justify = '\x00' then .ok 0
  else do
    let newlen ← Res.sub text.cols text.indent
    if opt.justify = 'l' then
      if d.indentmode = 't' then .ok ((input.indent : Int) - text.indent) else .ok (-(text.indent : Int))
    else if opt.justify = 'c' then
      if d.indentmode = 't' then do
        let x ← Res.sub input.maxline input.indent
        let x ← Res.sub x newlen
        let shift := x / 2 + input.indent
        let skew := skew - input.indent
        let shift := if x % 2 ≠ 0 ∧ skew = 1 then shift + 1 else shift
        .ok ((shift : Int) - text.indent)
      else do
        let x ← Res.sub input.maxline newlen
        let shift := x / 2
        let shift := if x % 2 ≠ 0 ∧ skew = 1 then shift + 1 else shift
        .ok ((shift : Int) - text.indent)
    else if opt.justify = 'r' then do
      let shift ← Res.sub input.maxline newlen
      .ok ((shift : Int) - text.indent)
    else .ok 0

/-- src/generate.c:884-922: the indentation in front of the box -/
def indentSpc (opt : Opt) (d : Design) (indent : Nat) : Str :=
  if d.indentmode = 'b' then
    if opt.tabexp = 'u' then unexpandIndent opt.tabstop indent else nspaces indent
  else []

/-- src/tools.c:363-400 `tabbify_indent` in all modes; `.ok none` is NULL -/
def restoreIndent (opt : Opt) (input : Input) (lineno : Nat) (indentspc : Str) : Res (Option Str) :=
  if opt.tabexp ≠ 'k' then .ok (some indentspc)
  else if lineno ≥ input.lines.length then .ok none
  else do
    let l ← Res.get input.lines[lineno]?
    let s ← Res.get (tabbifyIndent opt.tabstop input.indent l.tabpos indentspc.length)
    .ok (some s)

/-- src/generate.c:927-944: empty lines in the box: in total, above the text, below the text -/
def vertFill (opt : Opt) (d : Design) (box : Sides Shape) (numLines : Nat) : Res (Nat × Nat × Nat) := do
  let v ← Res.sub box.right.height box.top.height
  let v ← Res.sub v box.bottom.height
  let v ← Res.sub v numLines
  let v ← Res.sub v (d.padding.top + d.padding.bottom)
  let (v1, v2) :=
    if opt.valign = 'c' then (v / 2, v / 2 + v % 2)
    else if opt.valign = 'b' then (v, 0)
    else (0, v)
  .ok (v + (d.padding.top + d.padding.bottom), v1 + d.padding.top, v2 + d.padding.bottom)

/-- src/generate.c:949-993: columns left and right of the text block -/
def horizFill (opt : Opt) (d : Design) (box : Sides Shape) (maxline : Nat) : Res (Nat × Nat) := do
  let h ← Res.sub box.top.width maxline
  if h = 1 then
    if opt.halign = 'r' ∨ d.padding.left > d.padding.right then .ok (1, 0) else .ok (0, 1)
  else do
    let h ← Res.sub h (d.padding.left + d.padding.right)
    if opt.halign = 'c' then .ok (h / 2 + d.padding.left, h / 2 + d.padding.right + h % 2)
    else if opt.halign = 'r' then .ok (h + d.padding.left, d.padding.right)
    else .ok (d.padding.left, h + d.padding.right)

/-- What `output_box` computes before its loop. -/
structure Layout where
  indentspc : Str
  vfill : Nat
  vfill2 : Nat
  hpl : Nat
  hpr : Nat
  skipLeft : Bool

/-- `thebox[..].mbcs[j]->memory` -/
def sideMem (s : Shape) (j : Nat) : Res Str := do
  let b ← Res.get s.lines[j]?
  .ok b.memory

/-- `skip_left ? empty_string : thebox[BLEF].mbcs[j]->memory` -/
def leftMem (lay : Layout) (box : Sides Shape) (j : Nat) : Res Str :=
  if lay.skipLeft then .ok [] else sideMem box.left j

/-- src/generate.c:1047-1070: a line with text -/
def textRow (db : CharDb) (opt : Opt) (d : Design) (input : Input) (box : Sides Shape) (lay : Layout) (j ti : Nat) :
    Res Bxs := do
  let line ← Res.get input.lines[ti]?
  let text ← Res.get line.text
  let shift ← justifyLine db opt d input text ((lay.hpr : Int) - lay.hpl)
  let ind ← restoreIndent opt input ti lay.indentspc
  let shifted ← Res.get (text.cutFront db (if shift < 0 then (-shift).toNat else 0))
  let spc1 := if shift > 0 then nspaces shift.toNat else []
  let room : Int := (input.maxline : Int) - text.cols - shift
  if room < 0 then .ub
  else do
    let left ← leftMem lay box j
    let right ← sideMem box.right j
    Res.get (bxsConcat db [ind, some left, some (nspaces lay.hpl), some spc1, some shifted.memory,
      some (nspaces lay.hpr), some (nspaces room.toNat), some right])

/-- src/generate.c:1023-1043, 1072-1092: a line without text: indentation of line `lineno`, left side, `mid`, right side -/
def plainRow (db : CharDb) (opt : Opt) (input : Input) (box : Sides Shape) (lay : Layout) (j lineno : Nat) (mid : Str) :
    Res Bxs := do
  let ind ← restoreIndent opt input lineno lay.indentspc
  let left ← leftMem lay box j
  let right ← sideMem box.right j
  Res.get (bxsConcat db [ind, some left, some mid, some right])

/-- src/generate.c:1020-1092: output line `j`; also the new value of `vfill1` -/
def outputRow (db : CharDb) (opt : Opt) (d : Design) (input : Input) (box : Sides Shape) (lay : Layout) (j vfill1 : Nat) :
    Res (Bxs × Nat) := do
  if j < box.top.height then do
    let mid ← sideMem box.top j
    let r ← plainRow db opt input box lay j 0 mid
    .ok (r, vfill1)
  else if vfill1 ≠ 0 then do
    let r ← plainRow db opt input box lay j 0 (nspaces box.top.width)
    .ok (r, vfill1 - 1)
  else do
    let nolBot ← Res.sub box.right.height box.bottom.height
    let last ← Res.sub input.lines.length 1
    if j < nolBot then do
      let ti : Int := (j : Int) - box.top.height - ((lay.vfill : Int) - lay.vfill2)
      if ti < 0 then .ub
      else if ti < input.lines.length then do
        let r ← textRow db opt d input box lay j ti.toNat
        .ok (r, vfill1)
      else do
        let r ← plainRow db opt input box lay j last (nspaces box.top.width)
        .ok (r, vfill1)
    else do
      let mid ← sideMem box.bottom (j - nolBot)
      let r ← plainRow db opt input box lay j last mid
      .ok (r, vfill1)

/-- src/generate.c:1018-1103: the loop over the output lines: `n` lines from line `j` on, each trimmed, with its line end.
The last of them (`j == nol - skip_end - 1`) gets a line end only if the input had a final newline. -/
def outputLoop (db : CharDb) (opt : Opt) (d : Design) (input : Input) (box : Sides Shape) (lay : Layout) :
    Nat → Nat → Nat → Res (List (Bxs × Str))
  | 0, _, _ => .ok []
  | n + 1, j, vfill1 => do
    let (row, vf) ← outputRow db opt d input box lay j vfill1
    let trimmed ← Res.get (row.rtrim db)
    let more ← outputLoop db opt d input box lay n (j + 1) vf
    .ok ((trimmed, if input.finalNewline ∨ n ≠ 0 then opt.eol else []) :: more)

/-- src/generate.c:855-1104 `output_box`: the printed lines with their line ends -/
def outputBox (db : CharDb) (opt : Opt) (d : Design) (input : Input) (box : Sides Shape) : Res (List (Bxs × Str)) := do
  let (vfill, vfill1, vfill2) ← vertFill opt d box input.lines.length
  let (hpl, hpr) ← horizFill opt d box input.maxline
  let skipStart := if emptySide d.shape northSide then (d.shape NW).height else 0
  let skipEnd := if emptySide d.shape southSide then (d.shape SW).height else 0
  let skipLeft := if emptySide d.shape westSide then (d.shape NW).width else 0
  let stop ← Res.sub box.right.height skipEnd
  outputLoop db opt d input box
    { indentspc := indentSpc opt d input.indent, vfill, vfill2, hpl, hpr, skipLeft := skipLeft ≠ 0 }
    (stop - skipStart) skipStart vfill1

/-- src/generate.c:1094-1095: what is written to the output file (before conversion to the output encoding) -/
def renderBox (color : Bool) : List (Bxs × Str) → Res Str
  | [] => .ok []
  | (b, eol) :: more => do
    let s ← Res.get (b.toOutput color)
    let r ← renderBox color more
    .ok (s ++ eol ++ r)

end Boxes
