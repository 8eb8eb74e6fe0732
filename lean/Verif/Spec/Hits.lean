import Verif.Spec.Match
import Verif.Spec.Box

/-!
# Specification: how many traces of a design a text shows
-/
namespace Boxes.Spec
open ShapeName

/-- exactly `n` things have the property `P` -/
def NumberOf {α : Type} (P : α → Prop) (n : Nat) : Prop := ∃ l : List α, l.Nodup ∧ (∀ x, x ∈ l ↔ P x) ∧ l.length = n

/-- What is compared: the measures of the shapes of a design, which sides of it are open, and the texts of the shape lines and of the
input lines as they are compared. -/
structure Scene where
  height : ShapeName → Nat
  elastic : ShapeName → Bool
  present : ShapeName → Prop
  numLines : Nat
  noTop : Prop
  noRight : Prop
  noBottom : Prop
  noLeft : Prop
  /-- text of a line of a shape; `none` if it is blank -/
  shapeText : ShapeName → Nat → Option Str
  /-- an input line without leading blanks -/
  lineText : Nat → Str
  /-- an input line without trailing blanks -/
  lineEnd : Nat → Str

/-- input line `k` is one of the first lines, as many as shape `n` is high -/
def Scene.Upper (s : Scene) (n : ShapeName) (k : Nat) : Prop := k < s.height n ∧ k < s.numLines

/-- input line `k` is one of the last lines, as many as shape `n` is high; the input must have that many -/
def Scene.Lower (s : Scene) (n : ShapeName) (k : Nat) : Prop :=
  s.height n ≤ s.numLines ∧ s.numLines ≤ k + s.height n ∧ k < s.numLines

/-- input line `k` is neither one of the first lines nor one of the last ones, as far as the box has a top and a bottom -/
def Scene.Middle (s : Scene) (k : Nat) : Prop :=
  k < s.numLines ∧ (¬ s.noTop → s.height NW ≤ k) ∧ (¬ s.noBottom → k + s.height SW < s.numLines)

/-- `piece` occurs in `line`; if it is elastic, its first occurrence is directly followed by another one -/
def InRow (elastic : Bool) (line piece : Str) : Prop :=
  ∃ p, FirstFrom line piece 0 p ∧ (elastic = true → p + piece.length < line.length ∧ OccursAt line piece (p + piece.length))

/-- Line `j` of shape `n` is found in input line `k`, and that counts. -/
def Hit (s : Scene) (n : ShapeName) (j k : Nat) : Prop :=
  j < s.height n ∧ ∃ t, s.shapeText n j = some t ∧
    match n with
    | NW => ¬ s.noLeft ∧ ¬ s.noTop ∧ s.Upper NW k ∧ t <+: s.lineText k
    | SW => ¬ s.noLeft ∧ ¬ s.noBottom ∧ s.Lower SW k ∧ t <+: s.lineText k
    | NE => ¬ s.noRight ∧ ¬ s.noTop ∧ s.Upper NE k ∧ t <:+ s.lineEnd k
    | SE => ¬ s.noRight ∧ ¬ s.noBottom ∧ s.Lower SE k ∧ t <:+ s.lineEnd k
    | NNW | N | NNE => ¬ s.noTop ∧ ¬ s.noBottom ∧ s.Upper n k ∧ InRow (s.elastic n) (s.lineText k) t
    | SSE | S | SSW => ¬ s.noTop ∧ ¬ s.noBottom ∧ s.Lower n k ∧ InRow (s.elastic n) (s.lineText k) t
    | WNW | W | WSW => s.present n ∧ s.Middle k ∧ t <+: s.lineText k ∧
        ∀ j' t', j' < j → s.shapeText n j' = some t' → ¬ t' <+: s.lineText k
    | ENE | E | ESE => s.present n ∧ s.Middle k ∧ t <:+ s.lineEnd k ∧ ∀ k', k' < k → s.Middle k' → ¬ t <:+ s.lineEnd k'

/-- the line of a shape shows nothing -/
def BlankLine (db : CharDb) (b : Bxs) : Prop := ∀ v, Text b.memory v → ∀ c ∈ v, Blank db c ∨ c = 0x0d

/-- the shapes of the top or bottom side further left (right) than `n` -/
def outward : ShapeName → (left : Bool) → List ShapeName
  | NNW, true => [NW] | N, true => [NW, NNW] | NNE, true => [NW, NNW, N]
  | SSW, true => [SW] | S, true => [SW, SSW] | SSE, true => [SW, SSW, S]
  | NNE, false => [NE] | N, false => [NNE, NE] | NNW, false => [N, NNE, NE]
  | SSE, false => [SE] | S, false => [SSE, SE] | SSW, false => [S, SSE, SE]
  | _, _ => []

/-- line `j` of all shapes further out on that hand is blank -/
def Bare (db : CharDb) (d : Design) (n : ShapeName) (j : Nat) (left : Bool) : Prop :=
  ∀ m ∈ outward n left, ∀ b, (d.shape m).lines[j]? = some b → BlankLine db b

/-- on which hand the blanks of a shape line are dropped before it is looked for -/
def DroppedOn (db : CharDb) (d : Design) (n : ShapeName) (j : Nat) (l r : Bool) : Prop :=
  match n with
  | NW | SW | WNW | W | WSW => l = true ∧ r = false
  | NE | SE => l = false ∧ r = true
  | ENE | E | ESE => l = true ∧ r = true
  | _ => (l = true ↔ Bare db d n j true) ∧ (r = true ↔ Bare db d n j false)

/-- The scene belongs to a design, an input and a way of comparison: escape sequences are left out of the shapes or the input lines if
they are to be ignored there. -/
structure Sees (db : CharDb) (d : Design) (lines : List Line) (c : CompType) (s : Scene) : Prop where
  measures : ∀ n, s.height n = (d.shape n).height ∧ s.elastic n = (d.shape n).elastic ∧ (s.present n ↔ Present (d.shape n))
  count : s.numLines = lines.length
  top : s.noTop ↔ BlankSide db d [NW, NNW, N, NNE, NE]
  right : s.noRight ↔ BlankSide db d [NE, ENE, E, ESE, SE]
  bottom : s.noBottom ↔ BlankSide db d [SE, SSE, S, SSW, SW]
  left : s.noLeft ↔ BlankSide db d [SW, WSW, W, WNW, NW]
  blank : ∀ n j b, (d.shape n).lines[j]? = some b → j < (d.shape n).height → (s.shapeText n j = none ↔ BlankLine db b)
  shape : ∀ n j b t v, (d.shape n).lines[j]? = some b → j < (d.shape n).height → s.shapeText n j = some t → Text b.memory v →
    ∃ l r, DroppedOn db d n j l r ∧ Text t (stripped db l r v) ∧
      ((c = .ignoreShape ∨ c = .ignoreAll) → t = stripped db l r v) ∧ ((c = .literal ∨ c = .ignoreInput) → t <:+: b.memory)
  line : ∀ k ln b v, lines[k]? = some ln → ln.text = some b → Text b.memory v →
    Text (s.lineText k) (stripped db true false v) ∧ Text (s.lineEnd k) (stripped db false true v) ∧
      ((c = .ignoreInput ∨ c = .ignoreAll) → s.lineText k = stripped db true false v ∧ s.lineEnd k = stripped db false true v) ∧
      ((c = .literal ∨ c = .ignoreShape) → s.lineText k <:+ b.memory ∧ s.lineEnd k <+: b.memory)

end Boxes.Spec
