import Verif.Model.Parse

/-!
# Model: src/boxes.c, the design that the `-c` option defines
-/
namespace Boxes
open ShapeName

/-- number of bytes of a character in UTF-8 (the standard, RFC 3629); the C code sees `cld` in this encoding -/
def utf8Len (c : Nat) : Nat := if c < 0x80 then 1 else if c < 0x800 then 2 else if c < 0x10000 then 3 else 4

/-- `strlen(cld)` for the argument whose characters are `s` -/
def utf8Bytes (s : Str) : Nat := (s.map utf8Len).sum

/-- src/boxes.c:129-156: width and elasticity of the shapes made by the loop, `w` being the width of the W shape; `none`: the
shapes that are skipped (line 132) -/
def builtSize (w : Nat) : ShapeName → Option (Nat × Bool)
  | .NNW | .NNE | .WNW | .ENE | .W | .WSW | .ESE | .SSW | .SSE => none
  | .NW | .SW => some (w, false)
  | .NE | .SE => some (1, false)
  | .N | .S | .E => some (1, true)

/-- src/boxes.c:129-166: the loop over the shapes.  `genshape` failing ends `build_design`. -/
def buildLoop (w : Nat) : List ShapeName → (ShapeName → Shape) → Res (ShapeName → Shape)
  | [], sh => .ok sh
  | n :: r, sh =>
    match builtSize w n with
    | none => buildLoop w r sh
    | some (wd, el) =>
      match genShape wd 1 with
      | none => .fail 1
      | some lines => buildLoop w r (fun m => if m = n then { name := n, lines := lines, height := 1, width := wd, elastic := el } else sh m)

/-- src/boxes.c:72-175 `build_design`.  `cld` is the argument of `-c` after conversion from UTF-8 (an invalid encoding and running
out of memory are not modelled).  `ub`: the NULL pointer returned by `bxs_from_unicode` is dereferenced in line 116, or the
`strcpy` of line 124 writes behind the buffer of `genshape`, which has room for as many bytes as the shape has columns.  The copy
of `cld` in `chars` is represented by the ASCII form of the line; the two differ in tabs only, which no reader of `chars` tells
from spaces (`isdeepempty`).  `defined_in` is not modelled. -/
def buildDesign (db : CharDb) (cld : Str) : Res DesignDef := do
  let w ← Res.get (fromUnicode db cld)
  match genShape w.cols 1 with
  | none => .fail 1
  | some _ =>
    if w.cols < utf8Bytes cld then .ub
    else do
      let shapes ← buildLoop w.cols allShapes
        (fun m => if m = W then { name := W, lines := [w], height := 1, width := w.cols, elastic := true } else emptyShape)
      .ok { name := lit "<Command Line Definition>", aliases := [], sample := some (fromAscii (lit "n/a")),
            tags := [lit "transient"], maxshapeheight := 1
            core := { indentmode := 'b', padding := ⟨0, 0, 0, 1⟩, shape := shapes, minwidth := w.cols + 2, minheight := 3 } }

end Boxes
