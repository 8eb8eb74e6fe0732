import Verif.Spec.Layout

/-!
# Specification for C76: designs with which a box can be closed
-/
namespace Boxes.Spec
open ShapeName

/-- Top and bottom can be filled to the same width, left and right to the same height. -/
structure SidesMeet (d : Design) : Prop where
  horizontal : ∃ n, Common (slots (·.width) d [NNW, N, NNE]) (slots (·.width) d [SSE, S, SSW]) 0 n
  vertical : ∃ n, Common (slots (·.height) d [WSW, W, WNW]) (slots (·.height) d [ENE, E, ESE]) 0 n

end Boxes.Spec
