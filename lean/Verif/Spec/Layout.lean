import Verif.Model.Types
import Verif.Spec.Text

/-!
# Specification: sides of a box and how they are filled
-/
namespace Boxes.Spec

/-- A shape that is really there: it has lines and an extent. -/
def Present (s : Shape) : Prop := s.lines ≠ [] ∧ 0 < s.width ∧ 0 < s.height

instance (s : Shape) : Decidable (Present s) := by unfold Present; infer_instance

/-- A place between the corners of a side: empty, or a shape of some extent along the side, elastic or not. -/
abbrev Slot := Option (Nat × Bool)

/-- The slot that a shape fills. -/
def slotOf (size : Shape → Nat) (s : Shape) : Slot := if Present s then some (size s, s.elastic) else none

/-- The three slots of a side, named by their shapes. -/
def slots (size : Shape → Nat) (d : Design) (names : List ShapeName) : List Slot := names.map (fun n => slotOf size (d.shape n))

/-- Extent of a slot's shape -/
def Slot.size : Slot → Nat
  | none => 0
  | some (n, _) => n

/-- The slot holds an elastic shape. -/
def Slot.Elastic : Slot → Prop
  | some (_, true) => True
  | _ => False

instance : (s : Slot) → Decidable s.Elastic
  | none => .isFalse id
  | some (_, true) => .isTrue trivial
  | some (_, false) => .isFalse id

/-- The sides that box designs may have (see C28): shapes have a positive extent; either one shape is elastic, or there are
three shapes of which the two outer ones are elastic. -/
inductive GoodSide : List Slot → Prop
  | left (n : Nat) (b c : Slot) : 0 < n → ¬ b.Elastic → ¬ c.Elastic → (∀ s ∈ [b, c], s ≠ none → 0 < s.size) →
      GoodSide [some (n, true), b, c]
  | mid (a : Slot) (n : Nat) (c : Slot) : 0 < n → ¬ a.Elastic → ¬ c.Elastic → (∀ s ∈ [a, c], s ≠ none → 0 < s.size) →
      GoodSide [a, some (n, true), c]
  | right (a b : Slot) (n : Nat) : 0 < n → ¬ a.Elastic → ¬ b.Elastic → (∀ s ∈ [a, b], s ≠ none → 0 < s.size) →
      GoodSide [a, b, some (n, true)]
  | outer (l m n : Nat) : 0 < l → 0 < m → 0 < n → GoodSide [some (l, true), some (m, false), some (n, true)]

/-- How often the shape of a slot may occur, if it is not one of two elastic shapes: not at all if there is no shape, once if
it is not elastic, at least once if it is. -/
def Occurs : Slot → Nat → Prop
  | none, k => k = 0
  | some (_, false), k => k = 1
  | some (_, true), k => 1 ≤ k

/-- `Fills slots fill`: the side can be filled so that the shapes of the three slots cover `fill` columns (or lines).  Two
elastic shapes take turns, the first one beginning. -/
inductive Fills : List Slot → List Nat → Prop
  | one (a b c : Slot) (i j k : Nat) : ¬ (a.Elastic ∧ c.Elastic) → Occurs a i → Occurs b j → Occurs c k →
      Fills [a, b, c] [i * a.size, j * b.size, k * c.size]
  | two (l m n i k : Nat) : 1 ≤ i → (i = k ∨ i = k + 1) →
      Fills [some (l, true), some (m, false), some (n, true)] [i * l, m, k * n]

/-- `Common s1 s2 target n`: both sides can be filled to the same extent `n`, which is at least `target`. -/
def Common (s1 s2 : List Slot) (target n : Nat) : Prop :=
  target ≤ n ∧ (∃ f, Fills s1 f ∧ f.sum = n) ∧ (∃ f, Fills s2 f ∧ f.sum = n)

/-- Total extent of the elastic shapes of a side -/
def period (s : List Slot) : Nat := (s.map (fun x => if x.Elastic then x.size else 0)).sum

/-- Total extent of the other shapes of a side -/
def fixedPart (s : List Slot) : Nat := (s.map (fun x => if x.Elastic then 0 else x.size)).sum

/-- The extents from which a side grows by whole periods: its fixed part; with two elastic shapes, which take turns, also the
fixed part plus the first of them. -/
def offsets : List Slot → List Nat
  | [some (l, true), some (m, false), some (_, true)] => [m, m + l]
  | s => [fixedPart s]

/-- `b` is an analysed line with visible text `v`: nothing forbidden in it, and its measures are right. -/
structure GoodLine (db : CharDb) (b : Bxs) (v : Str) : Prop where
  text : Text b.memory v
  allowed : ∀ c ∈ v, ¬ Forbidden db c
  chars : b.numChars = b.memory.length
  cols : b.cols = columns db v
  ascii : b.ascii = asciiForm db v

/-- A shape whose lines agree with its measures. -/
structure GoodShape (db : CharDb) (s : Shape) : Prop where
  height : s.lines.length = s.height
  lines : ∀ b ∈ s.lines, (∃ v, GoodLine db b v) ∧ b.cols = s.width

open ShapeName in
/-- What the parser guarantees about a design (C28–C30): all shapes agree with their measures, the corners exist, the shapes of
a horizontal side have the same height and those of a vertical side the same width, every side can be stretched, and the
minimum size has room for the corners. -/
structure GoodDesign (db : CharDb) (d : Design) : Prop where
  shapes : ∀ n, Present (d.shape n) → GoodShape db (d.shape n)
  corner : ∀ n ∈ [NW, NE, SE, SW], Present (d.shape n)
  north : ∀ n ∈ [NNW, N, NNE, NE], Present (d.shape n) → (d.shape n).height = (d.shape NW).height
  south : ∀ n ∈ [SSE, S, SSW, SE], Present (d.shape n) → (d.shape n).height = (d.shape SW).height
  west : ∀ n ∈ [WSW, W, WNW, SW], Present (d.shape n) → (d.shape n).width = (d.shape NW).width
  east : ∀ n ∈ [ENE, E, ESE, SE], Present (d.shape n) → (d.shape n).width = (d.shape NE).width
  top : GoodSide (slots (·.width) d [NNW, N, NNE])
  bottom : GoodSide (slots (·.width) d [SSE, S, SSW])
  left : GoodSide (slots (·.height) d [WSW, W, WNW])
  right : GoodSide (slots (·.height) d [ENE, E, ESE])
  minwidth : (d.shape NW).width + (d.shape NE).width ≤ d.minwidth
  minheight : (d.shape NW).height + (d.shape SW).height ≤ d.minheight

/-- `n` copies of a list, one after the other -/
def times {α : Type} (n : Nat) (l : List α) : List α := (List.replicate n l).flatten

/-- Text of line `y` of a shape -/
def lineText (s : Shape) (y : Nat) : Str := (s.lines[y]?.map (·.memory)).getD []

end Boxes.Spec
