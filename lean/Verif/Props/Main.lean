import Verif.Spec.Main
import Verif.Props.Output
import Verif.Props.Input
import Verif.Lemmas.Main

/-!
# Properties C20, C21: sizes, padding, and drawing as a whole
-/
namespace Boxes
open Spec ShapeName
set_option linter.unusedSimpArgs false

/-! ## C21 -/

private theorem shrinkLoop_eq : ∀ (x i a b : Nat),
    shrinkLoop x i a b = if i % 2 = 0 then (a - max ((x + 1) / 2) (x - b), b - max (x / 2) (x - a))
      else (a - max (x / 2) (x - b), b - max ((x + 1) / 2) (x - a)) := by
  intro x
  induction x with
  | zero => intro i a b; simp [shrinkLoop]
  | succ x ih =>
    intro i a b
    unfold shrinkLoop
    simp only [ih]
    repeat' split
    all_goals (try rw [Prod.mk.injEq]); omega

private theorem fitPadding_fitted (req : Int) (need min a b : Nat) :
    Fitted (req ≠ 0) need min a b (fitPadding req need min a b).1 (fitPadding req need min a b).2.1
      (fitPadding req need min a b).2.2 := by
  unfold fitPadding
  by_cases h0 : a + b > 0
  · rw [if_pos h0]
    by_cases h1 : a + b + need > min
    · simp only [if_pos h1]
      by_cases h2 : req ≠ 0
      · rw [if_pos h2]
        refine ⟨fun h => by omega, fun _ _ h => absurd h2 h, fun _ _ _ => ⟨?_, rfl⟩⟩
        simp only [shrinkLoop_eq, reduced]
        simp only [Nat.zero_mod, if_true]
        rw [show need + (a + b) - min = a + b + need - min by omega]
      · rw [if_neg h2]
        exact ⟨fun h => by omega, fun _ _ _ => ⟨rfl, rfl, Nat.add_comm _ _⟩, fun _ _ h => absurd h h2⟩
    · simp only [if_neg h1]
      exact ⟨fun _ => ⟨rfl, rfl, rfl⟩, fun h => by omega, fun h => by omega⟩
  · rw [if_neg h0]
    exact ⟨fun _ => ⟨rfl, rfl, rfl⟩, fun _ h => by omega, fun _ h => by omega⟩

/-- C21: the new padding and minimum size, vertically and horizontally; nothing else of the design changes. -/
theorem C21_padding (opt : Opt) (d : Design) (input : Input) :
    Fitted (opt.reqheight ≠ 0) (input.lines.length + ((d.shape NW).height + (d.shape SW).height)) d.minheight
      (wanted opt.padding.top d.padding.top) (wanted opt.padding.bottom d.padding.bottom)
      (adjustSizeAndPadding opt d input).padding.top (adjustSizeAndPadding opt d input).padding.bottom
      (adjustSizeAndPadding opt d input).minheight ∧
    Fitted (opt.reqwidth ≠ 0) (input.maxline + ((d.shape NW).width + (d.shape NE).width)) d.minwidth
      (wanted opt.padding.left d.padding.left) (wanted opt.padding.right d.padding.right)
      (adjustSizeAndPadding opt d input).padding.left (adjustSizeAndPadding opt d input).padding.right
      (adjustSizeAndPadding opt d input).minwidth ∧
    (adjustSizeAndPadding opt d input).shape = d.shape ∧ (adjustSizeAndPadding opt d input).indentmode = d.indentmode := by
  have hw : ∀ o p, effectivePadding o p = wanted o p := by
    intro o p
    unfold effectivePadding wanted
    by_cases h : 0 ≤ o
    · rw [if_pos h, if_pos (by omega)]
    · rw [if_neg h, if_neg (by omega)]
  simp only [← hw]
  exact ⟨fitPadding_fitted _ _ _ _ _, fitPadding_fitted _ _ _ _ _, rfl, rfl⟩

/-- C21: reducing takes exactly the excess, or everything if there is less padding than that, and never adds padding. -/
theorem C21_exact (x a b : Nat) :
    (reduced x a b).1 + (reduced x a b).2 = a + b - x ∧ (reduced x a b).1 ≤ a ∧ (reduced x a b).2 ≤ b := by
  simp only [reduced]; omega

/-- C21: the two sides are reduced alternately: as long as both have padding left, the amounts taken differ by at most one,
the first side giving the odd one. -/
theorem C21_alternates (x a b : Nat) (h : 0 < (reduced x a b).1 ∧ 0 < (reduced x a b).2) :
    (a - (reduced x a b).1) = (x + 1) / 2 ∧ b - (reduced x a b).2 = x / 2 := by
  simp only [reduced] at *; omega

example : reduced 3 5 4 = (3, 3) := by decide
example : reduced 7 1 9 = (0, 3) := by decide
example : (adjustSizeAndPadding { reqheight := 6, reqwidth := 12, padding := ⟨2, -1, 2, 3⟩ } { sampleDesign with minheight := 6, minwidth := 12 }
    { lines := [⟨none, []⟩, ⟨none, []⟩], maxline := 7 }).padding = ⟨1, 0, 1, 2⟩ := by decide

/-- Minimum size requested by the user: the larger of the size of the design and the requested size; sides that show nothing
come on top of it. -/
theorem C21_requested_size (db : CharDb) (hdb : Sane db) (opt : Opt) (d : Design) (hd : GoodDesign db d) :
    ∃ t b r l : Nat, NumberIf (opt.reqheight ≠ 0 ∧ BlankSide db d [NW, NNW, N, NNE, NE]) (d.shape NW).height t ∧
      NumberIf (opt.reqheight ≠ 0 ∧ BlankSide db d [SE, SSE, S, SSW, SW]) (d.shape SE).height b ∧
      NumberIf (opt.reqwidth ≠ 0 ∧ BlankSide db d [NE, ENE, E, ESE, SE]) (d.shape SE).width r ∧
      NumberIf (opt.reqwidth ≠ 0 ∧ BlankSide db d [SW, WSW, W, WNW, NW]) (d.shape NW).width l ∧
      ((applyExpectedSize opt d).minheight : Int) = max (d.minheight : Int) opt.reqheight + t + b ∧
      ((applyExpectedSize opt d).minwidth : Int) = max (d.minwidth : Int) opt.reqwidth + l + r ∧
      (applyExpectedSize opt d).shape = d.shape ∧ (applyExpectedSize opt d).indentmode = d.indentmode ∧
      (applyExpectedSize opt d).padding = d.padding := by
  have hN := emptySide_iff hdb hd.shapes northSide
  have hE := emptySide_iff hdb hd.shapes eastSide
  have hS := emptySide_iff hdb hd.shapes southSide
  have hW := emptySide_iff hdb hd.shapes westSide
  have key : ∀ (P : Prop) (side : List ShapeName) (n : Nat) [Decidable P],
      (emptySide d.shape side = true ↔ BlankSide db d side) →
      NumberIf (P ∧ BlankSide db d side) n (if P ∧ emptySide d.shape side = true then n else 0) := by
    intro P side n _ h
    constructor
    · intro hp; rw [if_pos ⟨hp.1, h.2 hp.2⟩]
    · intro hp; rw [if_neg]; rintro ⟨h1, h2⟩; exact hp ⟨h1, h.1 h2⟩
  refine ⟨_, _, _, _, key (opt.reqheight ≠ 0) northSide _ hN, key (opt.reqheight ≠ 0) southSide _ hS,
    key (opt.reqwidth ≠ 0) eastSide _ hE, key (opt.reqwidth ≠ 0) westSide _ hW, ?_, ?_, rfl, rfl, rfl⟩
  all_goals
    simp only [applyExpectedSize]
    repeat' split
    all_goals omega

/-! ## C20, C16: drawing as a whole -/

private theorem good_grown {db : CharDb} {d d' : Design} (h : GoodDesign db d) (hs : d'.shape = d.shape)
    (hw : d.minwidth ≤ d'.minwidth) (hh : d.minheight ≤ d'.minheight) : GoodDesign db d' := by
  have e : ∀ (size : Shape → Nat) (l : List ShapeName), slots size d' l = slots size d l := by
    intro size l; simp [slots, hs]
  refine ⟨?_, ?_, ?_, ?_, ?_, ?_, ?_, ?_, ?_, ?_, ?_, ?_⟩
  · rw [hs]; exact h.shapes
  · rw [hs]; exact h.corner
  · rw [hs]; exact h.north
  · rw [hs]; exact h.south
  · rw [hs]; exact h.west
  · rw [hs]; exact h.east
  · rw [e]; exact h.top
  · rw [e]; exact h.bottom
  · rw [e]; exact h.left
  · rw [e]; exact h.right
  · rw [hs]; have := h.minwidth; omega
  · rw [hs]; have := h.minheight; omega

private theorem fitted_grows {req : Prop} {need min a b a' b' min' : Nat} (h : Fitted req need min a b a' b' min') :
    min ≤ min' ∧ (need + (a' + b') ≤ min' ∨ a' + b' = 0) := by
  by_cases h1 : need + (a + b) ≤ min ∨ a + b = 0
  · obtain ⟨rfl, rfl, rfl⟩ := h.enough h1
    exact ⟨Nat.le_refl _, h1⟩
  · by_cases h2 : req
    · obtain ⟨e, rfl⟩ := h.shrink (by omega) (by omega) h2
      have h3 := C21_exact (need + (a + b) - min') a b
      rw [← e] at h3
      simp only at h3
      refine ⟨Nat.le_refl _, ?_⟩
      omega
    · obtain ⟨rfl, rfl, rfl⟩ := h.grow (by omega) (by omega) h2
      exact ⟨by omega, .inl (Nat.le_refl _)⟩

/-- Sizes and padding never spoil a design. -/
theorem C20_adjusted_design (db : CharDb) (opt : Opt) (d : Design) (hd : GoodDesign db d) (input : Input) :
    GoodDesign db (prepareDesign opt d) ∧ GoodDesign db (adjustSizeAndPadding opt d input) := by
  constructor
  · have h1 : (prepareDesign opt d).shape = d.shape := by unfold prepareDesign; split <;> rfl
    have h2 : (prepareDesign opt d).minwidth = (applyExpectedSize opt d).minwidth ∧
        (prepareDesign opt d).minheight = (applyExpectedSize opt d).minheight := by unfold prepareDesign; split <;> exact ⟨rfl, rfl⟩
    refine good_grown hd h1 ?_ ?_
    · rw [h2.1]; simp only [applyExpectedSize]; repeat' split
      all_goals omega
    · rw [h2.2]; simp only [applyExpectedSize]; repeat' split
      all_goals omega
  · obtain ⟨h1, h2, h3, -⟩ := C21_padding opt d input
    exact good_grown hd h3 (fitted_grows h2).1 (fitted_grows h1).1

/-- C20: after `adjust_size_and_padding`, the sides that are generated have room for the text and its padding. -/
theorem C20_room (db : CharDb) (opt : Opt) (d : Design) (hd : GoodDesign db d) (input : Input) (fuel : Nat)
    {r : Res (Sides Shape)} (hr : generateBox db (adjustSizeAndPadding opt d input) input fuel = some r) :
    ∃ box, r = .ok box ∧ GoodBox db (adjustSizeAndPadding opt d input) box ∧
      Room (adjustSizeAndPadding opt d input) box input.maxline input.lines.length := by
  obtain ⟨h1, h2, h3, -⟩ := C21_padding opt d input
  obtain ⟨box, rfl, b1, b2, b3, b4, b5, b6, b7⟩ :=
    C20_sides db _ (C20_adjusted_design db opt d hd input).2 input fuel hr
  refine ⟨box, rfl, b1, ?_, ?_⟩
  · have t := b1.topHeight
    have b := b1.bottomHeight
    rw [h3] at t b b6
    rcases (fitted_grows h1).2 with g | g <;> omega
  · rw [h3] at b5
    rcases (fitted_grows h2).2 with g | g <;> omega

/-- the text block that is drawn -/
theorem draw_block (db : CharDb) (hdb : Sane db) (opt : Opt) (hr : opt.r = false) (ht : 1 ≤ opt.tabstop) (d : Design)
    (hd : GoodDesign db d) (junk : Nat) (pieces : List Str) (hp : ∀ s ∈ pieces, Readable db opt.tabstop s) (hne : pieces ≠ [])
    (fuel : Nat) {r : Res (List (Bxs × Str))} (h : drawOnce db opt d [] junk pieces fuel = some r) :
    ∃ (j : Input) (box : Sides Shape) (ls ls' : List (Str × Str)), r = outputBox db opt (adjustSizeAndPadding opt d j) j box ∧
      generateBox db (adjustSizeAndPadding opt d j) j fuel = some (.ok box) ∧
      LeastIndent db (ls.map Prod.snd) j.indent ∧ (∃ p ∈ ls', columns db p.2 = j.maxline) ∧ ls.length = pieces.length ∧
      GoodDesign db (adjustSizeAndPadding opt d j) ∧ GoodBox db (adjustSizeAndPadding opt d j) box ∧
      TextBlock db opt (adjustSizeAndPadding opt d j) j ls' ∧ Room (adjustSizeAndPadding opt d j) box j.maxline ls'.length ∧
      ls'.length = pieces.length ∧ (∀ p ∈ ls, Text p.1 p.2) ∧
      (j.finalNewline = true ↔ EndsInBreak pieces) ∧
      ∀ (i : Nat) s, pieces[i]? = some s → ∃ (p p' : Str × Str) (q z y : Str), ls[i]? = some p ∧ ls'[i]? = some p' ∧
        Unindented db (if d.indentmode = 't' then 0 else j.indent) p p' ∧ s = q ++ z ∧ Text z y ∧ (∀ c ∈ y, db.white c = true) ∧ EndsVisibly db q z ∧ Expand opt.tabstop 0 q p.1 := by
  obtain ⟨lines, ls, a1, a2, a3, a4, a5, a6⟩ := readLines_text hdb opt hr ht junk pieces hp
  have hread : ∃ i, readAllInput db opt junk pieces = .ok i ∧ i.lines = lines := by
    unfold readAllInput
    rw [a1]
    exact ⟨_, rfl, rfl⟩
  obtain ⟨i, i1, i2⟩ := hread
  have hlne : ls ≠ [] := by
    intro h0; rw [h0] at a3; exact hne (List.eq_nil_of_length_eq_zero a3.symm)
  obtain ⟨-, hfin⟩ := C47_lines db opt junk pieces i1
  rw [← i2] at a2 a5
  obtain ⟨j, ls', j1, j2, j3, j4, j6, j7, j5⟩ := analyze_block (d' := d) opt hr ht d rfl i ls hlne a2 a4 a5
  have j2' : TextBlock db opt (adjustSizeAndPadding opt d j) j ls' :=
    ⟨j2.nonempty, j2.texts, j2.good, j2.narrow, j2.fits, by rw [(C21_padding opt d j).2.2.2]; exact j2.indented, j2.tabs, j2.tabstop⟩
  have hlen : j.lines.length = ls'.length := by
    have := congrArg List.length j2.texts
    simpa using this
  have hjne : ¬ j.lines = [] := by
    intro h0; rw [h0] at hlen
    apply j2.nonempty
    exact List.eq_nil_of_length_eq_zero hlen.symm
  unfold drawOnce at h
  rw [i1, Res.ok_bind, j1] at h
  simp only [if_neg hjne] at h
  unfold handleGenerateBox at h
  rw [Option.map_eq_some_iff] at h
  obtain ⟨q, hq, rfl⟩ := h
  obtain ⟨box, rfl, b1, b2⟩ := C20_room db opt d hd j fuel hq
  rw [hlen] at b2
  refine ⟨j, box, ls, ls', rfl, hq, j6, j7, a3, (C20_adjusted_design db opt d hd j).2, b1, j2', b2, by omega, fun p hp => (a4 p hp).1, ?_, ?_⟩
  · rw [j4]; exact hfin
  · intro y s hs
    obtain ⟨p, q, z, w, c1, c2⟩ := a6 y s hs
    obtain ⟨p', e1, e2⟩ := j5 y p c1
    exact ⟨p, p', q, z, w, c1, e1, e2, c2⟩

/-- C20: drawing a box around readable input never fails and never runs into undefined behaviour. -/
theorem C20_drawing_total (db : CharDb) (hdb : Sane db) (opt : Opt) (hr : opt.r = false) (ht : 1 ≤ opt.tabstop) (d : Design)
    (hd : GoodDesign db d) (junk : Nat) (pieces : List Str) (hp : ∀ s ∈ pieces, Readable db opt.tabstop s)
    (fuel : Nat) {r : Res (List (Bxs × Str))} (h : drawOnce db opt d [] junk pieces fuel = some r) :
    ∃ out, r = .ok out := by
  by_cases hne : pieces = []
  · subst hne
    simp [drawOnce, readAllInput, readLines, analyzeInput, maxCols] at h
    exact ⟨[], h.symm⟩
  · obtain ⟨j, box, ls, ls', rfl, -, -, -, -, h1, h2, h3, h4, -⟩ := draw_block db hdb opt hr ht d hd junk pieces hp hne fuel h
    obtain ⟨out, above, below, lp, rp, s, e, g, -⟩ := C16_box db hdb opt _ j ls' box h1 h2 h3 h4
    exact ⟨out, g⟩

/-- C16: the whole way from the input to the output.  The output has one row for every input line `s`, in order, starting with
row `first`.  The line without its trailing white space and with expanded tabs is `u`, its visible text `w`.  The row consists of
indentation, left side, spaces, `u` without the first `n` visible characters, which are blanks, spaces, and the right side;
trailing blanks are removed. -/
theorem C16_program (db : CharDb) (hdb : Sane db) (opt : Opt) (hr : opt.r = false) (ht : 1 ≤ opt.tabstop) (d : Design)
    (hd : GoodDesign db d) (junk : Nat) (pieces : List Str) (hp : ∀ s ∈ pieces, Readable db opt.tabstop s) (hne : pieces ≠ [])
    (fuel : Nat) {r : Res (List (Bxs × Str))} (h : drawOnce db opt d [] junk pieces fuel = some r) :
    ∃ out first, r = .ok out ∧ first + pieces.length ≤ out.length ∧
      (∀ (t : Nat) p, out[t]? = some p → (t + 1 = out.length ∧ ¬ EndsInBreak pieces → p.2 = []) ∧
        (t + 1 ≠ out.length ∨ EndsInBreak pieces → p.2 = opt.eol)) ∧
      ∀ (i : Nat) s, pieces[i]? = some s → ∃ q z y u w n t ind left right a b row r',
        s = q ++ z ∧ Text z y ∧ (∀ c ∈ y, db.white c = true) ∧ EndsVisibly db q z ∧ Expand opt.tabstop 0 q u ∧ Text u w ∧
        (∀ c ∈ w.take n, Blank db c) ∧ t <:+ u ∧ Text t (w.drop n) ∧
        fromUnicode db (ind ++ left ++ (spaces a ++ t ++ spaces b) ++ right) = some row ∧ row.rtrim db = some r' ∧
        (out[first + i]?).map Prod.fst = some r' := by
  obtain ⟨j, box, ls, ls', rfl, -, -, -, -, h1, h2, h3, h4, h5, h6, h7, h8⟩ := draw_block db hdb opt hr ht d hd junk pieces hp hne fuel h
  obtain ⟨out, first, lp, rp, g1, -, g3, g4⟩ := C16_every_line db hdb opt _ j ls' box h1 h2 h3 h4
  obtain ⟨out', e1, -, e3⟩ := C22_line_ends db hdb opt _ j ls' box h1 h2 h3 h4
  rw [g1] at e1
  obtain rfl := Res.ok.inj e1
  refine ⟨out, first, g1, by omega, ?_, ?_⟩
  · intro t p hp
    rw [e3 t p hp, ← h7]
    constructor
    · rintro ⟨hl, hf⟩
      rw [if_pos ⟨hl, by simpa using hf⟩]
    · intro hh
      rw [if_neg]
      rintro ⟨hl, hf⟩
      rcases hh with hh | hh
      · exact hh hl
      · rw [hf] at hh; simp at hh
  · intro i s hs
    obtain ⟨p, p', q, z, y, c1, c2, un, c4, c5, c6, c6', c7⟩ := h8 i s hs
    obtain ⟨n, u1, u2, u3⟩ := unindented_drop un
    obtain ⟨k, m, ind, left, right, row, r', f1, f2, f3, -, -, f6, f7, f8⟩ := g4 i p' c2
    obtain ⟨t, t1, -, -, t2, t3⟩ := f2.row
    rw [t3] at f6
    refine ⟨q, z, y, p.1, p.2, n + (-k).toNat, t, ind, left, right, _, _, row, r', c4, c5, c6, c6', c7,
      h6 p (List.mem_of_getElem? c1), ?_, t1.trans u2, ?_, f6, f7, f8⟩
    · intro c hc
      rw [List.take_add] at hc
      rcases List.mem_append.1 hc with hc | hc
      · exact u1 c hc
      · apply f2.blanks; rw [u3]; exact hc
    · rw [← List.drop_drop, ← u3]; exact t2

/-- C16: the output as a whole, row by row.  The input lines become the texts `us` (without trailing white space, tabs expanded)
and, without the common indentation, the texts `ls`; `box` are the sides that C13 and C14 describe; the rows are those of
`RowAt` (top side, empty lines, the texts in order, empty lines, bottom side) between the left and the right side; sides that
show nothing are left out; trailing blanks are removed. -/
theorem C16_drawing (db : CharDb) (hdb : Sane db) (opt : Opt) (hr : opt.r = false) (ht : 1 ≤ opt.tabstop) (d : Design)
    (hd : GoodDesign db d) (junk : Nat) (pieces : List Str) (hp : ∀ s ∈ pieces, Readable db opt.tabstop s) (hne : pieces ≠ [])
    (fuel : Nat) {r : Res (List (Bxs × Str))} (h : drawOnce db opt d [] junk pieces fuel = some r) :
    ∃ (j : Input) (d' : Design) (box : Sides Shape) (us ls : List (Str × Str)) (out : List (Bxs × Str))
      (above below lp rp s e : Nat), r = .ok out ∧ d' = adjustSizeAndPadding opt d j ∧
      generateBox db d' j fuel = some (.ok box) ∧
      us.length = pieces.length ∧ ls.length = pieces.length ∧ j.lines.length = pieces.length ∧
      LeastIndent db (us.map Prod.snd) j.indent ∧
      (∀ p ∈ ls, columns db p.2 ≤ j.maxline) ∧ (∃ p ∈ ls, columns db p.2 = j.maxline) ∧
      (∀ (i : Nat) s, pieces[i]? = some s → ∃ (u p : Str × Str) (q z y : Str), us[i]? = some u ∧ ls[i]? = some p ∧
        s = q ++ z ∧ Text z y ∧ (∀ c ∈ y, db.white c = true) ∧ EndsVisibly db q z ∧ Expand opt.tabstop 0 q u.1 ∧ Text u.1 u.2 ∧
        Unindented db (if d.indentmode = 't' then 0 else j.indent) u p) ∧
      above = linesAbove opt d' box ls.length ∧
      box.top.height + above + ls.length + below + box.bottom.height = box.right.height ∧
      lp = columnsLeft opt d' box j.maxline ∧ lp + j.maxline + rp = box.top.width ∧
      NumberIf (BlankSide db d [NW, NNW, N, NNE, NE]) box.top.height s ∧
      NumberIf (BlankSide db d [SE, SSE, S, SSW, SW]) box.bottom.height e ∧
      s + out.length + e = box.right.height ∧
      ∀ t, t < out.length → ∃ row i m r',
        RowAt db opt d' j ls box above below lp rp (s + t) i m ∧
        Row opt d' j box (BlankSide db d [SW, WSW, W, WNW, NW]) (s + t) i m row.memory ∧
        fromUnicode db row.memory = some row ∧ row.rtrim db = some r' ∧
        out[t]? = some (r', if j.finalNewline = true ∨ t + 1 ≠ out.length then opt.eol else []) ∧
        (j.finalNewline = true ↔ EndsInBreak pieces) ∧ ∃ v, Text row.memory v := by
  obtain ⟨j, box, us, ls, rfl, b1, b2, b3, b4, h1, h2, h3, h4, h5, h6, h7, h8⟩ :=
    draw_block db hdb opt hr ht d hd junk pieces hp hne fuel h
  obtain ⟨out, above, below, lp, rp, s, e, c1, c2, c3, c4, c5, c6, c7, c8, c9⟩ := C16_box db hdb opt _ j ls box h1 h2 h3 h4
  have hsh := (C21_padding opt d j).2.2.1
  have hbl : ∀ names, BlankSide db (adjustSizeAndPadding opt d j) names ↔ BlankSide db d names := by
    intro names; unfold BlankSide; rw [hsh]
  have hjl : j.lines.length = ls.length := by simpa using congrArg List.length h3.texts
  refine ⟨j, _, box, us, ls, out, above, below, lp, rp, s, e, c1, rfl, b1, b4, h5, by omega, b2, h3.fits, b3, ?_, c2, c3, c4, c5,
    ?_, ?_, c8, ?_⟩
  · intro i s hs
    obtain ⟨u, p, q, z, y, g1, g2, g3, g4, g5, g6, g7, g8⟩ := h8 i s hs
    exact ⟨u, p, q, z, y, g1, g2, g4, g5, g6, g7, g8, h6 u (List.mem_of_getElem? g1), g3⟩
  · simpa only [NumberIf, hbl] using c6
  · simpa only [NumberIf, hbl] using c7
  · intro t ht'
    obtain ⟨row, i, m, r', g1, g2, g3, g4, g5⟩ := c9 t ht'
    exact ⟨row, i, m, r', g1, by simpa only [propext (hbl _)] using g2, g3, g4, g5, h7, row_text hdb h3 h2 (by omega) c5 g1 g2⟩

example : Readable sampleDb 8 (lit "\tab c\n") := by
  refine ⟨lit "\tab c\n", lit "        ab c\n", Spec.Text.plain (by decide), ⟨by decide, by unfold NarrowBlanks; decide⟩, ?_, by decide⟩
  exact Expand.tab 8 (by decide) (by decide) (by decide) (Expand.char _ (by decide) (Expand.char _ (by decide)
    (Expand.char _ (by decide) (Expand.char _ (by decide) (Expand.char _ (by decide) (Expand.nil _))))))

example : ((drawOnce sampleDb {} (prepareDesign { reqheight := 6 } sampleDesign) [] 0 [lit "\tab c\n", lit "\t  \n", lit "\t  d"] 20).map
    (fun (r : Res (List (Bxs × Str))) => do
      let out ← (r : Res (List (Bxs × Str)))
      renderBox true out)) = some (.ok (lit "        ..-=<>=-.\n        O| ab c )\n        ||      (\n        ||   d  )\n        ||      (\n        `'######'")) := by decide

end Boxes
