import Verif.Model.Detect

/-!
# Specification: choice of a design
-/
namespace Boxes.Spec

/-- `FirstBest l m`: of the candidates `l` (design, hits) in the order in which they are tried, `m` is the design of the first one
with the most hits; `none` if there are no hits at all. -/
def FirstBest (l : List (Nat × Nat)) (m : Option Nat) : Prop :=
  match m with
  | none => ∀ p ∈ l, p.2 = 0
  | some k => ∃ (i h : Nat), l[i]? = some (k, h) ∧ 0 < h ∧ (∀ p ∈ l, p.2 ≤ h) ∧ ∀ (j : Nat) p, j < i → l[j]? = some p → p.2 < h

/-- The candidates of one comparison type: the designs (numbers) for which it is applicable, with their hits. -/
def candidates {D : Type} (hits : D → Nat) (viable : D → Bool) (ds : List D) : List (Nat × Nat) :=
  (ds.zipIdx.filter (fun p => viable p.1)).map (fun p => (p.2, hits p.1))

/-- some line of the input contains an escape sequence -/
def inputColoured (lines : List Line) : Bool :=
  lines.any fun l => match l.text with
    | some t => decide (0 < t.invis)
    | none => false

/-- some shape of the design contains an escape sequence -/
def designColoured (d : Design) : Bool :=
  allShapes.any fun n => !(d.shape n).isEmpty && ((d.shape n).lines.take (d.shape n).height).any fun t => decide (0 < t.invis)

/-- which way of comparison fits a coloured or monochrome input and design -/
def applicable : CompType → (inputColoured designColoured : Bool) → Bool
  | .literal, i, d => i == d
  | .ignoreInput, i, d => i && !d
  | .ignoreShape, i, d => !i && d
  | .ignoreAll, i, d => i && d

end Boxes.Spec
