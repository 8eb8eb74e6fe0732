import Verif.Spec.Box
import Verif.Spec.Main

/-!
# Specification: the design defined on the command line
-/
namespace Boxes.Spec
open ShapeName

/-- The shapes of the design that `-c` defines, each of one line: the argument `cld`, `w` columns wide, is the elastic left side;
the corners and the other sides are spaces. -/
def marginShape (cld : Str) (w : Nat) : ShapeName → Option (Str × Bool)
  | .W => some (cld, true)
  | .NW => some (spaces w, false)
  | .SW => some (spaces w, false)
  | .NE => some (spaces 1, false)
  | .SE => some (spaces 1, false)
  | .N => some (spaces 1, true)
  | .S => some (spaces 1, true)
  | .E => some (spaces 1, true)
  | _ => none

/-- Number of bytes in UTF-8 -/
def bytes (s : Str) : Nat := (s.map (fun c => if c < 0x80 then 1 else if c < 0x800 then 2 else if c < 0x10000 then 3 else 4)).sum

end Boxes.Spec
