import Verif.Spec.Main

/-!
# Specification: the size of a box
-/
namespace Boxes.Spec
open ShapeName

/-- No beginning of the line `s` takes more than `n` columns once its tabs are expanded. -/
def FitsIn (db : CharDb) (tabstop n : Nat) (s : Str) : Prop :=
  ∀ q z t v, s = q ++ z → Expand tabstop 0 q t → Text t v → columns db v ≤ n

/-- The left and the right side can both be made `n` lines high, without their corners. -/
def CanBeHigh (d : Design) (n : Nat) : Prop := Common (slots (·.height) d [WSW, W, WNW]) (slots (·.height) d [ENE, E, ESE]) 0 n

/-- The top and the bottom side can both be made `n` columns wide, without their corners. -/
def CanBeWide (d : Design) (n : Nat) : Prop := Common (slots (·.width) d [NNW, N, NNE]) (slots (·.width) d [SSE, S, SSW]) 0 n

/-- `line` is a row of `n` columns behind an indentation, without the blanks at its end; there is no indentation unless the box is indented
(`mode` is `b`). -/
def RowOf (db : CharDb) (mode : Char) (n : Nat) (line : Bxs) : Prop :=
  ∃ ind rest v b, (∀ c ∈ ind, c = 0x20 ∨ c = 0x09) ∧ (mode ≠ 'b' → ind = []) ∧
    Text rest v ∧ columns db v = n ∧ fromUnicode db (ind ++ rest) = some b ∧ b.rtrim db = some line

end Boxes.Spec
