import Verif.Lemmas.Precalc
import Verif.Lemmas.Meet
import Verif.Spec.Sample

/-!
# Properties C10–C12: fitting opposite sides of the box

`Fills`, `Common`, `GoodSide`: Verif/Spec/Layout.lean.  The slots of a side are listed in the order in which the program
numbers them: NNW, N, NNE; SSE, S, SSW; WSW, W, WNW; ENE, E, ESE.
-/
namespace Boxes
open Spec ShapeName
set_option linter.unusedSimpArgs false

private theorem targetLen_ok {text min c1 c2 : Nat} (h : c1 + c2 ≤ min) :
    targetLen text min c1 c2 = .ok (max text (min - (c1 + c2))) := by
  unfold targetLen
  rw [Res.sub_ok (by omega)]
  simp only [Res.ok_bind]
  rw [Res.sub_ok (by omega)]
  simp only [Res.ok_bind, Res.ok.injEq]
  rw [show min - c1 - c2 = min - (c1 + c2) by omega]
  split <;> omega

/-- C10: the widths of the top and bottom side.  Both sides are filled to the same width `w`, the smallest one that both can
have and that is not below the text width and the inner part of the minimum box width. -/
theorem C10_widths (d : Design) (maxline fuel : Nat) {r : Res (List Nat × List Nat × Nat)}
    (hN : GoodSide (slots (·.width) d [NNW, N, NNE])) (hS : GoodSide (slots (·.width) d [SSE, S, SSW]))
    (hmin : (d.shape NW).width + (d.shape NE).width ≤ d.minwidth)
    (hr : horizPrecalc d maxline fuel = some r) :
    ∃ top bot w, r = .ok (top, bot, w) ∧
      Fills (slots (·.width) d [NNW, N, NNE]) top ∧ top.sum = w ∧
      Fills (slots (·.width) d [SSE, S, SSW]) bot ∧ bot.sum = w ∧
      maxline ≤ w ∧ d.minwidth ≤ w + ((d.shape NW).width + (d.shape NE).width) ∧
      ∀ n, Common (slots (·.width) d [NNW, N, NNE]) (slots (·.width) d [SSE, S, SSW])
        (max maxline (d.minwidth - ((d.shape NW).width + (d.shape NE).width))) n → w ≤ n := by
  unfold horizPrecalc at hr
  rw [targetLen_ok hmin] at hr
  simp only [Option.map_eq_some_iff] at hr
  obtain ⟨q, hq, rfl⟩ := hr
  obtain ⟨t, b, rfl, e1, f1, s1, f2, s2, ht, hm⟩ := (precalc_spec (·.width) (d.shape NNW) (d.shape N) (d.shape NNE)
    (d.shape SSE) (d.shape S) (d.shape SSW) _ hN hS).1 fuel q hq
  exact ⟨_, _, t.len, rfl, f1, s1, f2, s2, by omega, by omega, hm⟩

/-- C12: the heights of the left and right side, likewise. -/
theorem C12_heights (d : Design) (numLines fuel : Nat) {r : Res (List Nat × List Nat × Nat)}
    (hW : GoodSide (slots (·.height) d [WSW, W, WNW])) (hE : GoodSide (slots (·.height) d [ENE, E, ESE]))
    (hmin : (d.shape NW).height + (d.shape SW).height ≤ d.minheight)
    (hr : vertPrecalc d numLines fuel = some r) :
    ∃ left right h, r = .ok (left, right, h) ∧
      Fills (slots (·.height) d [WSW, W, WNW]) left ∧ left.sum = h ∧
      Fills (slots (·.height) d [ENE, E, ESE]) right ∧ right.sum = h ∧
      numLines ≤ h ∧ d.minheight ≤ h + ((d.shape NW).height + (d.shape SW).height) ∧
      ∀ n, Common (slots (·.height) d [WSW, W, WNW]) (slots (·.height) d [ENE, E, ESE])
        (max numLines (d.minheight - ((d.shape NW).height + (d.shape SW).height))) n → h ≤ n := by
  unfold vertPrecalc at hr
  rw [targetLen_ok (by omega)] at hr
  simp only [Option.map_eq_some_iff] at hr
  obtain ⟨q, hq, rfl⟩ := hr
  obtain ⟨t, b, rfl, e1, f1, s1, f2, s2, ht, hm⟩ := (precalc_spec (·.height) (d.shape WSW) (d.shape W) (d.shape WNW)
    (d.shape ENE) (d.shape E) (d.shape ESE) _ hW hE).1 fuel q hq
  refine ⟨_, _, t.len, rfl, f1, s1, f2, s2, by omega, by omega, ?_⟩
  rw [Nat.add_comm (d.shape NW).height]
  exact hm

/-- C11: the loop that fits top and bottom ends exactly if the two sides can have a common width of at least the target. -/
theorem C11_horizontal_iff (d : Design) (maxline : Nat)
    (hN : GoodSide (slots (·.width) d [NNW, N, NNE])) (hS : GoodSide (slots (·.width) d [SSE, S, SSW]))
    (hmin : (d.shape NW).width + (d.shape NE).width ≤ d.minwidth) :
    (∃ fuel r, horizPrecalc d maxline fuel = some r) ↔
      ∃ n, Common (slots (·.width) d [NNW, N, NNE]) (slots (·.width) d [SSE, S, SSW])
        (max maxline (d.minwidth - ((d.shape NW).width + (d.shape NE).width))) n := by
  have := (precalc_spec (·.width) (d.shape NNW) (d.shape N) (d.shape NNE)
    (d.shape SSE) (d.shape S) (d.shape SSW) (max maxline (d.minwidth - ((d.shape NW).width + (d.shape NE).width))) hN hS).2
  unfold horizPrecalc
  rw [targetLen_ok hmin]
  refine Iff.trans ?_ this
  simp only [Option.map_eq_some_iff]
  constructor
  · rintro ⟨fuel, r, q, hq, -⟩; exact ⟨fuel, q, hq⟩
  · rintro ⟨fuel, q, hq⟩; exact ⟨fuel, _, q, hq, rfl⟩

/-- C11: likewise for left and right. -/
theorem C11_vertical_iff (d : Design) (numLines : Nat)
    (hW : GoodSide (slots (·.height) d [WSW, W, WNW])) (hE : GoodSide (slots (·.height) d [ENE, E, ESE]))
    (hmin : (d.shape NW).height + (d.shape SW).height ≤ d.minheight) :
    (∃ fuel r, vertPrecalc d numLines fuel = some r) ↔
      ∃ n, Common (slots (·.height) d [WSW, W, WNW]) (slots (·.height) d [ENE, E, ESE])
        (max numLines (d.minheight - ((d.shape NW).height + (d.shape SW).height))) n := by
  have := (precalc_spec (·.height) (d.shape WSW) (d.shape W) (d.shape WNW)
    (d.shape ENE) (d.shape E) (d.shape ESE) (max numLines (d.minheight - ((d.shape NW).height + (d.shape SW).height))) hW hE).2
  unfold vertPrecalc
  rw [targetLen_ok (by omega), Nat.add_comm (d.shape SW).height]
  refine Iff.trans ?_ this
  simp only [Option.map_eq_some_iff]
  constructor
  · rintro ⟨fuel, r, q, hq, -⟩; exact ⟨fuel, q, hq⟩
  · rintro ⟨fuel, q, hq⟩; exact ⟨fuel, _, q, hq, rfl⟩

/-- C11: whether two sides can have a common extent does not depend on the target: it is so exactly if, for some of the extents
from which the sides grow, the greatest common divisor of the elastic extents divides the difference. -/
theorem C11_common_iff_gcd {s s' : List Slot} (h : GoodSide s) (h' : GoodSide s') (target : Nat) :
    (∃ n, Common s s' target n) ↔
      ∃ o ∈ offsets s, ∃ o' ∈ offsets s', ((Nat.gcd (period s) (period s') : Nat) : Int) ∣ (o : Int) - o' :=
  common_iff h h' target

/-- C11: a side whose only elastic shape has extent 1 can always be fitted. -/
theorem C11_unit_elastic {s s' : List Slot} (h : GoodSide s) (h' : GoodSide s') (h1 : period s = 1 ∨ period s' = 1)
    (target : Nat) : ∃ n, Common s s' target n := by
  rw [common_iff h h']
  have hne : ∀ l, offsets l ≠ [] := by
    intro l; unfold offsets; split <;> simp
  obtain ⟨o, ho⟩ := List.exists_mem_of_ne_nil _ (hne s)
  obtain ⟨o', ho'⟩ := List.exists_mem_of_ne_nil _ (hne s')
  refine ⟨o, ho, o', ho', ?_⟩
  have : Nat.gcd (period s) (period s') = 1 := by
    rcases h1 with h1 | h1 <;> simp [h1]
  rw [this]
  exact Int.one_dvd _

private def wideDesign : Design where
  shape := fun
    | .NW => mkShape .NW ["+"]
    | .N => mkShape .N ["=="] true
    | .NE => mkShape .NE ["+"]
    | .SE => mkShape .SE ["+"]
    | .S => mkShape .S ["--"] true
    | .SSW => mkShape .SSW ["o"]
    | .SW => mkShape .SW ["+"]
    | n => { emptyShape with name := n }
  minwidth := 5

/-- Two sides that never meet: `==` above, `o--` below; the program loops forever on such a design. -/
theorem C11_never_ends : ∀ maxline fuel, horizPrecalc wideDesign maxline fuel = none := by
  intro maxline fuel
  have hN : GoodSide (slots (·.width) wideDesign [NNW, N, NNE]) :=
    .mid none 2 none (by decide) (by decide) (by decide) (by decide)
  have hS : GoodSide (slots (·.width) wideDesign [SSE, S, SSW]) :=
    .mid none 2 (some (1, false)) (by decide) (by decide) (by decide) (by decide)
  cases hr : horizPrecalc wideDesign maxline fuel with
  | none => rfl
  | some r =>
    have := (C11_horizontal_iff wideDesign maxline hN hS (by decide)).1 ⟨fuel, r, hr⟩
    rw [common_iff hN hS] at this
    exact absurd this (by decide)

example : GoodSide (slots (·.width) sampleDesign [NNW, N, NNE]) := .outer 2 2 2 (by decide) (by decide) (by decide)
example : GoodSide (slots (·.width) sampleDesign [SSE, S, SSW]) :=
  .mid none 1 none (by decide) (by decide) (by decide) (by decide)
example : GoodSide (slots (·.height) sampleDesign [WSW, W, WNW]) :=
  .mid none 1 (some (1, false)) (by decide) (by decide) (by decide) (by decide)
example : GoodSide (slots (·.height) sampleDesign [ENE, E, ESE]) :=
  .mid none 2 none (by decide) (by decide) (by decide) (by decide)
example : horizPrecalc sampleDesign 7 20 = some (.ok ([4, 2, 2], [0, 8, 0], 8)) := by decide
example : vertPrecalc sampleDesign 3 20 = some (.ok ([0, 3, 1], [0, 4, 0], 4)) := by decide

end Boxes
