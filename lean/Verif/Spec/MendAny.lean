/-!
# Specification: mending a box without naming its design (C93)
-/
namespace Boxes.Spec

/-- On one axis, it makes no difference whether a box has to have the size `least` of its own design or the size `other` of another design: the sizes are equal, or the box is
larger than both because of its text, its padding and its corners.  (If the design has no padding, `other` must leave room for the corners: the program subtracts them from it.) -/
def SameSize (least other padding corners text : Nat) : Prop :=
  other = least ∨ (least ≤ text + padding + corners ∧ other ≤ text + padding + corners ∧ (0 < padding ∨ corners ≤ other))

end Boxes.Spec
