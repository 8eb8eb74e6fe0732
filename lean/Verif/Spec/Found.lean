import Verif.Spec.Hits
import Verif.Spec.Detect
import Verif.Spec.RoundTrip

/-!
# Specification: which design a box shows the most traces of
-/
namespace Boxes.Spec
open ShapeName

/-- The lines of an input show exactly `n` traces of a design, if they are compared as they are. -/
def Traces (db : CharDb) (d : Design) (lines : List Line) (n : Nat) : Prop :=
  ∃ s, Sees db d lines .literal s ∧ NumberOf (fun x : ShapeName × Nat × Nat => Hit s x.1 x.2.1 x.2.2) n

/-- Of all designs without escape sequences, the lines show the most traces of design number `k`; if there are several of which there
are as many, it is the first one of them. -/
def MostTraces (db : CharDb) (ds : List Design) (k : Nat) (lines : List Line) : Prop :=
  ∀ (i : Nat) e d p q, i ≠ k → ds[i]? = some e → designColoured e = false → ds[k]? = some d → Traces db e lines p → Traces db d lines q →
    p ≤ q ∧ (i < k → p < q)

/-- Designs as the parser makes them, with which an input can be compared. -/
structure Comparable (db : CharDb) (d : Design) : Prop where
  unasked : ∀ n, (d.shape n).blankLeft = none ∧ (d.shape n).blankRight = none
  names : ∀ n, (d.shape n).name = n
  count : ∀ n, (d.shape n).lines.length = (d.shape n).height
  north : ∀ m ∈ [NW, NNW, N, NNE, NE], ∀ n ∈ [NW, NNW, N, NNE, NE], (d.shape m).lines ≠ [] → (d.shape n).lines ≠ [] →
    (d.shape m).height = (d.shape n).height
  south : ∀ m ∈ [SW, SSW, S, SSE, SE], ∀ n ∈ [SW, SSW, S, SSE, SE], (d.shape m).lines ≠ [] → (d.shape n).lines ≠ [] →
    (d.shape m).height = (d.shape n).height
  good : ∀ n, Present (d.shape n) → GoodShape db (d.shape n)
  /-- the lines are spaces that the program has filled in, or texts in which every blank is one column wide -/
  lines : ∀ n, ∀ b ∈ (d.shape n).lines, (∃ w, b = fromAscii (nspaces w)) ∨ ∃ s v, Text s v ∧ fromUnicode db s = some b ∧ NarrowBlanks db v
  /-- shapes without width have no escape sequences -/
  empty : ∀ n, (d.shape n).isEmpty = true → ∀ b ∈ (d.shape n).lines, b.invis = 0

end Boxes.Spec
