import Verif.Model.Shape
import Verif.Spec.Db

/-!
# A sample design for the examples
-/
namespace Boxes.Spec
open ShapeName

/-- a shape from lines of ASCII text -/
def mkShape (name : ShapeName) (lines : List String) (elastic : Bool := false) : Shape :=
  let ls := lines.map (fun l => fromAscii (lit l))
  { name, lines := ls, height := ls.length, width := (ls.head?.map (·.cols)).getD 0, elastic }

/-- A box design with two elastic shapes at the top, one at the other sides, shapes of height 2 on the right. -/
def sampleDesign : Design where
  indentmode := 'b'
  shape := fun
    | .NW => mkShape .NW [".."]
    | .NNW => mkShape .NNW ["-="] true
    | .N => mkShape .N ["<>"]
    | .NNE => mkShape .NNE ["=-"] true
    | .NE => mkShape .NE ["."]
    | .E => mkShape .E [")", "("] true
    | .SE => mkShape .SE ["'"]
    | .S => mkShape .S ["#"] true
    | .SW => mkShape .SW ["`'"]
    | .W => mkShape .W ["||"] true
    | .WNW => mkShape .WNW ["O|"]
    | n => { emptyShape with name := n }
  minwidth := 9
  minheight := 4
  padding := ⟨0, 1, 1, 1⟩

/-- a line of plain text -/
def mkLine (s : String) : Line := { text := some (fromAscii (lit s)) }

/-- an input of plain text -/
def mkInput (lines : List String) (indent : Nat := 0) : Input :=
  { lines := lines.map mkLine, maxline := ((lines.map (·.length)).max?).getD 0, indent, finalNewline := true }

/-- A box made of asterisks. -/
def starDesign : Design where
  indentmode := 'b'
  shape := fun
    | .NW => mkShape .NW ["*"]
    | .N => mkShape .N ["*"] true
    | .NE => mkShape .NE ["*"]
    | .E => mkShape .E ["*"] true
    | .SE => mkShape .SE ["*"]
    | .S => mkShape .S ["*"] true
    | .SW => mkShape .SW ["*"]
    | .W => mkShape .W ["*"] true
    | n => { emptyShape with name := n }
  minwidth := 3
  minheight := 3
  padding := ⟨0, 0, 0, 0⟩

/-- Lines above and below the text, nothing on the left and on the right. -/
def rulesDesign : Design where
  indentmode := 'b'
  shape := fun
    | .NW => mkShape .NW [" "]
    | .N => mkShape .N ["="] true
    | .NE => mkShape .NE [" "]
    | .E => mkShape .E [" "] true
    | .SE => mkShape .SE [" "]
    | .S => mkShape .S ["="] true
    | .SW => mkShape .SW [" "]
    | .W => mkShape .W [" "] true
    | n => { emptyShape with name := n }
  minwidth := 3
  minheight := 3
  padding := ⟨0, 0, 0, 0⟩

end Boxes.Spec
