import Verif.Model.Input
import Verif.Model.Generate

/-!
# Model of `src/boxes.c` (sizes, padding, drawing)
-/
namespace Boxes
open ShapeName

/-- src/boxes.c:239-263 `apply_expected_size` -/
def applyExpectedSize (opt : Opt) (d : Design) : Design :=
  let h1 := if opt.reqheight > (d.minheight : Int) then opt.reqheight.toNat else d.minheight
  let w1 := if opt.reqwidth > (d.minwidth : Int) then opt.reqwidth.toNat else d.minwidth
  let w2 := if opt.reqwidth ≠ 0 ∧ emptySide d.shape eastSide then w1 + (d.shape SE).width else w1
  let w3 := if opt.reqwidth ≠ 0 ∧ emptySide d.shape westSide then w2 + (d.shape NW).width else w2
  let h2 := if opt.reqheight ≠ 0 ∧ emptySide d.shape northSide then h1 + (d.shape NW).height else h1
  let h3 := if opt.reqheight ≠ 0 ∧ emptySide d.shape southSide then h2 + (d.shape SE).height else h2
  { d with minheight := h3, minwidth := w3 }

/-- src/boxes.c:307-309: one side of the loop -/
def effectivePadding (o : Int) (p : Nat) : Nat := if o > -1 then o.toNat else p

/-- src/boxes.c:318-326 and 340-348: the loop that reduces the padding of two opposite sides; `a` is the side of the even
rounds.  First argument: rounds left, second: `i`.  (The cast of the bound to `int` is not modelled.) -/
def shrinkLoop : Nat → Nat → Nat → Nat → Nat × Nat
  | 0, _, a, b => (a, b)
  | n + 1, i, a, b =>
    if i % 2 = 1 then
      if b ≠ 0 then shrinkLoop n (i + 1) a (b - 1)
      else if a ≠ 0 then shrinkLoop n (i + 1) (a - 1) b
      else (a, b)
    else
      if a ≠ 0 then shrinkLoop n (i + 1) (a - 1) b
      else if b ≠ 0 then shrinkLoop n (i + 1) a (b - 1)
      else (a, b)

/-- src/boxes.c:312-332 and 334-354: padding `a`, `b` of two opposite sides, the space `inner` taken by text and corners,
the requested size and the minimum size; new padding and minimum size -/
def fitPadding (req : Int) (inner min a b : Nat) : Nat × Nat × Nat :=
  if a + b > 0 then
    let pad := a + b + inner
    if pad > min then
      if req ≠ 0 then
        let q := shrinkLoop (pad - min) 0 a b
        (q.1, q.2, min)
      else (a, b, pad)
    else (a, b, min)
  else (a, b, min)

/-- src/boxes.c:304-355 `adjust_size_and_padding` -/
def adjustSizeAndPadding (opt : Opt) (d : Design) (input : Input) : Design :=
  let top := effectivePadding opt.padding.top d.padding.top
  let right := effectivePadding opt.padding.right d.padding.right
  let bottom := effectivePadding opt.padding.bottom d.padding.bottom
  let left := effectivePadding opt.padding.left d.padding.left
  let v := fitPadding opt.reqheight (input.lines.length + ((d.shape NW).height + (d.shape SW).height)) d.minheight top bottom
  let h := fitPadding opt.reqwidth (input.maxline + ((d.shape NW).width + (d.shape NE).width)) d.minwidth left right
  { d with padding := ⟨v.1, h.2.1, v.2.1, h.1⟩, minheight := v.2.2, minwidth := h.2.2 }

/-- src/boxes.c:362-376 `handle_generate_box`; `none`: not finished after `fuel` rounds -/
def handleGenerateBox (db : CharDb) (opt : Opt) (d : Design) (input : Input) (fuel : Nat) : Option (Res (List (Bxs × Str))) :=
  (generateBox db d input fuel).map (fun r => do
    let box ← r
    outputBox db opt d input box)

/-- src/boxes.c:536-539: the design as `main` prepares it -/
def prepareDesign (opt : Opt) (d : Design) : Design :=
  let d1 := applyExpectedSize opt d
  if opt.indentmode ≠ '\x00' then { d1 with indentmode := opt.indentmode } else d1

/-- src/boxes.c:543-563 when drawing: `handle_input` (270-296), `adjust_size_and_padding`, `handle_generate_box`, for a design
prepared by `main`; the printed lines.  Without input lines the program ends successfully without output. -/
def drawOnce (db : CharDb) (opt : Opt) (d : Design) (rules : List Subst) (junk : Nat) (pieces : List Str) (fuel : Nat) :
    Option (Res (List (Bxs × Str))) :=
  match (do
    let i ← readAllInput db opt junk pieces
    analyzeInput db opt d rules i : Res Input) with
  | .fail n => some (.fail n)
  | .ub => some .ub
  | .ok j => if j.lines = [] then some (.ok []) else handleGenerateBox db opt (adjustSizeAndPadding opt d j) j fuel

end Boxes
