import Verif.Spec.Match

/-!
# Specification: how the left and right side of a box are recognised when a box is removed
-/
namespace Boxes.Spec

/-- `WestHit input indent len piece p`: what remains of a shape line of length `len` is found for the first time at `p`, no further right than
the first visible character, the blanks cut being allowed for. -/
def WestHit (input : Str) (indent len : Nat) (piece : Str) (p : Nat) : Prop :=
  piece ≠ [] ∧ FirstFrom input piece 0 p ∧ p + piece.length ≤ indent + len

/-- `EastHit input trailing piece p`: what remains of a shape line is found for the last time at `p`, no further left than the trailing
blanks of the line allow. -/
def EastHit (input : Str) (trailing : Nat) (piece : Str) (p : Nat) : Prop :=
  piece ≠ [] ∧ LastAt input piece p ∧ trailing + piece.length ≤ input.length ∧ input.length ≤ p + trailing + piece.length

/-- `SideHit db left input indent trailing text p q`: `q` characters of the shape line `text` are found at `p`; as few blanks as possible
are cut, on the outer side first. -/
def SideHit (db : CharDb) (left : Bool) (input : Str) (indent trailing : Nat) (text : Str) (p q : Nat) : Prop :=
  FewestCut db left true true text (if left then WestHit input indent text.length else EastHit input trailing) p q

/-- `BestHit db left input indent trailing sls start stop q`: the first of the longest matches among the shape lines of a side; `q = 0`: there is
no match. -/
def BestHit (db : CharDb) (left : Bool) (input : Str) (indent trailing : Nat) (sls : List ShapeLine) (start stop q : Nat) : Prop :=
  (q = 0 ∧ start = 0 ∧ stop = 0 ∧
    ∀ sl ∈ sls, sl.empty = false → ∀ p k, ¬ SideHit db left input indent trailing sl.text.memory p k) ∨
  ∃ before sl after, sls = before ++ sl :: after ∧ sl.empty = false ∧ SideHit db left input indent trailing sl.text.memory start q ∧
    stop = start + q ∧
    (∀ x ∈ before, x.empty = false → ∀ p k, SideHit db left input indent trailing x.text.memory p k → k < q) ∧
    (∀ x ∈ after, x.empty = false → ∀ p k, SideHit db left input indent trailing x.text.memory p k → k ≤ q)

/-- more than half of the characters of both sides were found in the body lines (or there is nothing to be found) -/
def MostlyFound (width found num : Nat) : Prop := (width * num = 0 ∧ found = 0) ∨ (0 < width * num ∧ width * num < 2 * found)

end Boxes.Spec
