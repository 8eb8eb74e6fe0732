import Verif.Spec.Layout
import Verif.Model.Parse

/-!
# Specification: what holds of the designs that the parser accepts
-/
namespace Boxes.Spec
open ShapeName

/-- The middle of a side can be stretched: one of its shapes is elastic, or the two outer ones are, with a shape between
them which is not. -/
def Stretchable (a b c : Shape) : Prop :=
  (a.elastic = true ∧ b.elastic = false ∧ c.elastic = false) ∨ (a.elastic = false ∧ b.elastic = true ∧ c.elastic = false) ∨
  (a.elastic = false ∧ b.elastic = false ∧ c.elastic = true) ∨
  (a.elastic = true ∧ b.elastic = false ∧ c.elastic = true ∧ Present b)

/-- Elastic shapes exist, no corner is elastic, and every side can be stretched. -/
structure ElasticOk (shape : ShapeName → Shape) : Prop where
  exist : ∀ n, (shape n).elastic = true → Present (shape n)
  corner : ∀ n ∈ [NW, NE, SE, SW], (shape n).elastic = false
  top : Stretchable (shape NNW) (shape N) (shape NNE)
  right : Stretchable (shape ENE) (shape E) (shape ESE)
  bottom : Stretchable (shape SSE) (shape S) (shape SSW)
  left : Stretchable (shape WSW) (shape W) (shape WNW)

/-- The existing shapes of each horizontal side have the same height, those of each vertical side the same width. -/
structure SizesAgree (shape : ShapeName → Shape) : Prop where
  top : ∀ m ∈ [NW, NNW, N, NNE, NE], ∀ n ∈ [NW, NNW, N, NNE, NE], Present (shape m) → Present (shape n) →
    (shape m).height = (shape n).height
  right : ∀ m ∈ [NE, ENE, E, ESE, SE], ∀ n ∈ [NE, ENE, E, ESE, SE], Present (shape m) → Present (shape n) →
    (shape m).width = (shape n).width
  bottom : ∀ m ∈ [SE, SSE, S, SSW, SW], ∀ n ∈ [SE, SSE, S, SSW, SW], Present (shape m) → Present (shape n) →
    (shape m).height = (shape n).height
  left : ∀ m ∈ [SW, WSW, W, WNW, NW], ∀ n ∈ [SW, WSW, W, WNW, NW], Present (shape m) → Present (shape n) →
    (shape m).width = (shape n).width

/-- A shape is really there with as many lines as it is high, each as wide as the shape; or there is nothing at all. -/
structure Solid (s : Shape) : Prop where
  lines : s.lines.length = s.height
  cols : ∀ b ∈ s.lines, b.cols = s.width
  nothing : s.lines = [] → s.width = 0
  wide : s.lines ≠ [] → 0 < s.width

/-- A shape of `h` lines with `w` spaces each -/
def IsBlankShape (s : Shape) (w h : Nat) : Prop :=
  s.lines.map (·.memory) = List.replicate h (List.replicate w 0x20) ∧ s.width = w ∧ s.height = h

/-- Total extent of the existing shapes among those named -/
def total (size : Shape → Nat) (shape : ShapeName → Shape) (names : List ShapeName) : Nat :=
  (names.map (fun n => if Present (shape n) then size (shape n) else 0)).sum

/-- The geometry of a usable design -/
structure Geometry (d : Design) : Prop where
  solid : ∀ n, Solid (d.shape n)
  named : ∀ n, (d.shape n).name = n
  corner : ∀ n ∈ [NW, NE, SE, SW], Present (d.shape n)
  sizes : SizesAgree d.shape
  elastic : ElasticOk d.shape
  minwidth : d.minwidth = max (total (·.width) d.shape [NW, NNW, N, NNE, NE]) (total (·.width) d.shape [SW, SSW, S, SSE, SE])
  minheight : d.minheight = max (total (·.height) d.shape [NW, WNW, W, WSW, SW]) (total (·.height) d.shape [NE, ENE, E, ESE, SE])

/-- The texts of all shape lines in a list of entries -/
def shapeTexts (items : List Item) : List Str :=
  items.flatMap (fun i => match i with | .shapes defs => defs.flatMap (·.2) | _ => [])

/-- The texts of all shape lines of a configuration file -/
def fileTexts (decls : List Decl) : List Str :=
  decls.flatMap (fun d => match d with | .box _ _ items _ => shapeTexts items | .parent _ => [])

/-- Escape sequences are complete in every shape line of the file. -/
def WellEscaped (decls : List Decl) : Prop := ∀ s ∈ fileTexts decls, ∃ v, Text s v

end Boxes.Spec

namespace Boxes.Spec
open ShapeName

/-- Extent of a side across its direction: that of its first existing shape, or 1 if it has none. -/
def across (size : Shape → Nat) (shape : ShapeName → Shape) (side : List ShapeName) : Nat :=
  match side.find? (fun n => decide (Present (shape n))) with
  | some n => size (shape n)
  | none => 1

/-- A shape made of spaces, in place of `s` -/
def blankInstead (s : Shape) (w h : Nat) (elastic : Bool) : Shape :=
  { s with lines := List.replicate h (fromAscii (List.replicate w 0x20)), width := w, height := h, elastic := elastic }

/-- The shapes of a design after the missing ones have been added: corners that fit the extents of their two sides, and one
elastic shape in the middle of each side which has no shape between its corners. -/
def completed (shape : ShapeName → Shape) (n : ShapeName) : Shape :=
  let top := across (·.height) shape [NW, NNW, N, NNE, NE]
  let right := across (·.width) shape [NE, ENE, E, ESE, SE]
  let bottom := across (·.height) shape [SE, SSE, S, SSW, SW]
  let left := across (·.width) shape [SW, WSW, W, WNW, NW]
  let s := shape n
  if Present s then s
  else match n with
    | NW => blankInstead s left top false
    | NE => blankInstead s right top false
    | SE => blankInstead s right bottom false
    | SW => blankInstead s left bottom false
    | N => if Present (shape NNW) ∨ Present (shape NNE) then s else blankInstead s 1 top true
    | S => if Present (shape SSW) ∨ Present (shape SSE) then s else blankInstead s 1 bottom true
    | E => if Present (shape ENE) ∨ Present (shape ESE) then s else blankInstead s right 1 true
    | W => if Present (shape WNW) ∨ Present (shape WSW) then s else blankInstead s left 1 true
    | _ => s

end Boxes.Spec
