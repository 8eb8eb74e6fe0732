import Verif.Lemmas.Output
import Verif.Props.Assemble

/-!
# Properties C15–C20, C22: the drawn box

Vocabulary: Verif/Spec/Box.lean.
-/
namespace Boxes
open Spec ShapeName
set_option linter.unusedSimpArgs false

/-! ## C17 -/

/-- C17: the empty lines in the box: all of them, those above the text, those below.  The text with its padding must fit. -/
theorem C17_vertical (opt : Opt) (d : Design) (box : Sides Shape) (n : Nat)
    (h : box.top.height + box.bottom.height + n + (d.padding.top + d.padding.bottom) ≤ box.right.height) :
    ∃ above below, vertFill opt d box n = .ok (above + below, above, below) ∧
      above = linesAbove opt d box n ∧
      box.top.height + above + n + below + box.bottom.height = box.right.height ∧
      d.padding.top ≤ above ∧ d.padding.bottom ≤ below := by
  unfold vertFill linesAbove shareAbove
  rw [Res.sub_ok (by omega)]
  simp only [Res.ok_bind]
  rw [Res.sub_ok (by omega)]
  simp only [Res.ok_bind]
  rw [Res.sub_ok (by omega)]
  simp only [Res.ok_bind]
  rw [Res.sub_ok (by omega)]
  simp only [Res.ok_bind]
  generalize hv : box.right.height - box.top.height - box.bottom.height - n - (d.padding.top + d.padding.bottom) = v
  have hv' : box.right.height - (box.top.height + box.bottom.height + n + (d.padding.top + d.padding.bottom)) = v := by omega
  rw [hv']
  by_cases hc : opt.valign = 'c'
  · simp only [hc, if_true]
    exact ⟨d.padding.top + v / 2, d.padding.bottom + (v / 2 + v % 2), by simp only [Res.ok.injEq, Prod.mk.injEq]; omega, rfl,
      by omega, by omega, by omega⟩
  · by_cases hb : opt.valign = 'b'
    · simp only [hb, if_true, show ('b' : Char) ≠ 'c' by decide, if_false]
      exact ⟨d.padding.top + v, d.padding.bottom, by simp only [Res.ok.injEq, Prod.mk.injEq]; omega, rfl, by omega, by omega,
        by omega⟩
    · simp only [hc, hb, if_false]
      exact ⟨d.padding.top, d.padding.bottom + v, by simp only [Res.ok.injEq, Prod.mk.injEq]; omega, rfl, by omega, by omega,
        by omega⟩

/-- C20: without room for the text and its padding, the unsigned subtraction goes below zero. -/
theorem C20_vertical_needs_room (opt : Opt) (d : Design) (box : Sides Shape) (n : Nat)
    (h : ¬ box.top.height + box.bottom.height + n + (d.padding.top + d.padding.bottom) ≤ box.right.height) :
    vertFill opt d box n = .ub := by
  unfold vertFill
  by_cases h1 : box.top.height ≤ box.right.height
  · rw [Res.sub_ok h1, Res.ok_bind]
    by_cases h2 : box.bottom.height ≤ box.right.height - box.top.height
    · rw [Res.sub_ok h2, Res.ok_bind]
      by_cases h3 : n ≤ box.right.height - box.top.height - box.bottom.height
      · rw [Res.sub_ok h3, Res.ok_bind, Res.sub_ub (by omega)]; rfl
      · rw [Res.sub_ub h3]; rfl
    · rw [Res.sub_ub h2]; rfl
  · rw [Res.sub_ub h1]; rfl

/-! ## C18 -/

/-- C18: the columns left and right of the text block.  The text with its padding must fit.  Left and right padding are
respected, except the right padding when a single column is left over and the text is right aligned. -/
theorem C18_horizontal (opt : Opt) (d : Design) (box : Sides Shape) (maxline : Nat)
    (h : maxline + (d.padding.left + d.padding.right) ≤ box.top.width) :
    ∃ lp rp, horizFill opt d box maxline = .ok (lp, rp) ∧ lp = columnsLeft opt d box maxline ∧
      lp + maxline + rp = box.top.width ∧ d.padding.left ≤ lp ∧
      (d.padding.right ≤ rp ∨ (opt.halign = 'r' ∧ box.top.width = maxline + 1)) := by
  unfold horizFill columnsLeft shareLeft
  rw [Res.sub_ok (by omega), Res.ok_bind]
  by_cases h1 : box.top.width - maxline = 1
  · rw [if_pos h1]
    by_cases hr : opt.halign = 'r'
    · refine ⟨1, 0, by rw [if_pos (.inl hr)], by rw [if_pos ⟨by omega, hr⟩], by omega, by omega, .inr ⟨hr, by omega⟩⟩
    · by_cases hp : d.padding.left > d.padding.right
      · refine ⟨1, 0, by rw [if_pos (.inr hp)], ?_, by omega, by omega, .inl (by omega)⟩
        rw [if_neg (fun hh => hr hh.2), if_neg hr]
        split <;> omega
      · refine ⟨0, 1, by rw [if_neg (not_or.2 ⟨hr, hp⟩)], ?_, by omega, by omega, .inl (by omega)⟩
        rw [if_neg (fun hh => hr hh.2), if_neg hr]
        split <;> omega
  · have hne : ¬ (box.top.width = maxline + 1 ∧ opt.halign = 'r') := by omega
    rw [if_neg h1, Res.sub_ok (by omega), Res.ok_bind, if_neg hne]
    generalize hv : box.top.width - maxline - (d.padding.left + d.padding.right) = v
    have hv' : box.top.width - (maxline + (d.padding.left + d.padding.right)) = v := by omega
    rw [hv']
    by_cases hc : opt.halign = 'c'
    · rw [if_pos hc, if_pos hc]
      exact ⟨_, _, rfl, by omega, by omega, by omega, .inl (by omega)⟩
    · rw [if_neg hc, if_neg hc]
      by_cases hr : opt.halign = 'r'
      · rw [if_pos hr, if_pos hr]
        exact ⟨_, _, rfl, by omega, by omega, by omega, .inl (by omega)⟩
      · rw [if_neg hr, if_neg hr]
        exact ⟨_, _, rfl, by omega, by omega, by omega, .inl (by omega)⟩

/-- The right padding is lost if it is the only free column and the text is right aligned. -/
theorem C18_right_padding_disagrees :
    ∃ (opt : Opt) (d : Design) (box : Sides Shape) (maxline : Nat),
      maxline + (d.padding.left + d.padding.right) ≤ box.top.width ∧ d.padding.right = 1 ∧
      horizFill opt d box maxline = .ok (1, 0) :=
  ⟨{ halign := 'r' }, { padding := ⟨0, 1, 0, 0⟩ }, ⟨{ width := 5 }, {}, {}, {}⟩, 4, by decide, by decide, by decide⟩

/-- C20: without room for the text and its padding, the unsigned subtraction goes below zero (unless a single column is left). -/
theorem C20_horizontal_needs_room (opt : Opt) (d : Design) (box : Sides Shape) (maxline : Nat)
    (h : ¬ maxline + (d.padding.left + d.padding.right) ≤ box.top.width) (h1 : box.top.width ≠ maxline + 1) :
    horizFill opt d box maxline = .ub := by
  unfold horizFill
  by_cases h2 : maxline ≤ box.top.width
  · rw [Res.sub_ok h2, Res.ok_bind, if_neg (by omega), Res.sub_ub (by omega)]; rfl
  · rw [Res.sub_ub h2]; rfl

/-! ## C19 -/

/-- C19: how far a line is moved by justification.  The line must not be wider than the text block, its blanks are one column
wide, and if the text indentation is kept, the common indentation is not more than that of the line. -/
theorem C19_justify (db : CharDb) (opt : Opt) (d : Design) (input : Input) (skew : Int) {s v : Str} {b : Bxs}
    (h : Text s v) (hb : fromUnicode db s = some b) (hn : opt.justify ≠ '\x00' → NarrowBlanks db v)
    (hf : columns db v ≤ input.maxline)
    (hi : d.indentmode = 't' → input.indent ≤ input.maxline ∧ (0 < columns db v → input.indent ≤ leadingBlanks db v)) :
    ∃ k, justifyLine db opt d input b skew = .ok k ∧ Shifted db opt d input v skew k := by
  obtain ⟨-, -, -, -, hcols, -, hind, -⟩ := C01_metrics db h hb
  have hblank := C06_is_blank db h hb
  have contra : (∀ c ∈ v, Blank db c ∨ c = 0x0d) → (∃ c ∈ v, ¬ Blank db c ∧ c ≠ 0x0d) → False := by
    rintro h1 ⟨c, hc, h2, h3⟩
    rcases h1 c hc with h4 | h4
    · exact h2 h4
    · exact h3 h4
  unfold justifyLine
  by_cases hbl : b.isBlankStr db = true
  · rw [if_pos hbl]
    have := hblank.1 hbl
    exact ⟨0, rfl, by omega, by omega, fun _ => rfl, fun _ => rfl, fun _ hh => (contra this hh).elim,
      fun _ hh => (contra this hh).elim, fun _ hh => (contra this hh).elim⟩
  · rw [if_neg hbl]
    have hnb : (∀ c ∈ v, Blank db c ∨ c = 0x0d) → False := fun hh => hbl (hblank.2 hh)
    by_cases h0 : opt.justify = '\x00'
    · rw [if_pos h0]
      refine ⟨0, rfl, by omega, by omega, fun _ => rfl, fun _ => rfl, ?_, ?_, ?_⟩ <;> intro hj <;> rw [h0] at hj <;>
        exact absurd hj (by decide)
    · rw [if_neg h0]
      have hnar := hn h0
      rw [narrow_lead db hnar] at hind
      have hle := lead_le db hnar
      rw [hcols, hind, Res.sub_ok hle, Res.ok_bind]
      by_cases hl : opt.justify = 'l'
      · rw [if_pos hl]
        by_cases ht : d.indentmode = 't'
        · rw [if_pos ht]
          obtain ⟨hi1, hi2⟩ := hi ht
          refine ⟨_, rfl, by omega, ?_, fun hj => absurd (by simp [hl]) hj, fun hh => (hnb hh).elim, fun _ _ => by rw [if_pos ht]; omega, ?_, ?_⟩
          · by_cases hz : 0 < columns db v
            · have := hi2 hz; omega
            · omega
          · intro hj; rw [hl] at hj; exact absurd hj (by decide)
          · intro hj; rw [hl] at hj; exact absurd hj (by decide)
        · rw [if_neg ht]
          refine ⟨_, rfl, by omega, by omega, fun hj => absurd (by simp [hl]) hj, fun hh => (hnb hh).elim, fun _ _ => by rw [if_neg ht]; omega, ?_, ?_⟩
          · intro hj; rw [hl] at hj; exact absurd hj (by decide)
          · intro hj; rw [hl] at hj; exact absurd hj (by decide)
      · rw [if_neg hl]
        by_cases hc : opt.justify = 'c'
        · rw [if_pos hc]
          have hsp : ∀ (base free : Nat), base = (if d.indentmode = 't' then input.indent else 0) →
              base + (columns db v - leadingBlanks db v) + free = input.maxline → ∀ shift : Nat,
              shift = base + free / 2 + (if free % 2 ≠ 0 ∧ skew - base = 1 then 1 else 0) →
              Shifted db opt d input v skew ((shift : Int) - leadingBlanks db v) := by
            intro base free hba hfr shift hsh
            have hsh' : shift = base + free / 2 + (if free % 2 = 1 ∧ skew - base = 1 then 1 else 0) := by
              rw [hsh]
              have : (free % 2 ≠ 0 ∧ skew - base = 1) ↔ (free % 2 = 1 ∧ skew - base = 1) := by omega
              simp only [this]
            have hub : shift ≤ base + free := by
              rw [hsh']
              split <;> omega
            refine ⟨by omega, by omega, fun hj => absurd (by simp [hc]) hj, fun hh => (hnb hh).elim, ?_, ?_, ?_⟩
            · intro hj; rw [hc] at hj; exact absurd hj (by decide)
            · intro hj; rw [hc] at hj; exact absurd hj (by decide)
            · intro _ _
              refine ⟨base, columns db v - leadingBlanks db v, free, hba, by omega, hfr, ?_⟩
              rw [hsh']
              split <;> simp <;> omega
          by_cases ht : d.indentmode = 't'
          · rw [if_pos ht]
            obtain ⟨hi1, hi2⟩ := hi ht
            have hr2 : columns db v - leadingBlanks db v ≤ input.maxline - input.indent := by
              by_cases hz : 0 < columns db v
              · have := hi2 hz; omega
              · omega
            rw [Res.sub_ok hi1, Res.ok_bind, Res.sub_ok hr2, Res.ok_bind]
            refine ⟨_, rfl, ?_⟩
            apply hsp input.indent (input.maxline - input.indent - (columns db v - leadingBlanks db v)) (by rw [if_pos ht]) (by omega)
            split <;> omega
          · rw [if_neg ht, Res.sub_ok (by omega), Res.ok_bind]
            refine ⟨_, rfl, ?_⟩
            apply hsp 0 (input.maxline - (columns db v - leadingBlanks db v)) (by rw [if_neg ht]) (by omega)
            simp only [Int.natCast_zero, Int.sub_zero]
            split <;> omega
        · rw [if_neg hc]
          by_cases hr : opt.justify = 'r'
          · rw [if_pos hr, Res.sub_ok (by omega), Res.ok_bind]
            refine ⟨_, rfl, by omega, by omega, fun hj => absurd (by simp [hr]) hj, fun hh => (hnb hh).elim, ?_, fun _ _ => by omega, ?_⟩
            · intro hj; exact absurd hj hl
            · intro hj; exact absurd hj hc
          · rw [if_neg hr]
            exact ⟨0, rfl, by omega, by omega, fun _ => rfl, fun _ => rfl, fun hj => absurd hj hl, fun hj => absurd hj hr,
              fun hj => absurd hj hc⟩

/-! ## the rows of the box -/

private theorem line_at {db : CharDb} {opt : Opt} {d : Design} {input : Input} {ls : List (Str × Str)}
    (hin : TextBlock db opt d input ls) {i : Nat} {p : Str × Str} (hp : ls[i]? = some p) :
    ∃ l b, input.lines[i]? = some l ∧ l.text = some b ∧ fromUnicode db p.1 = some b ∧ b.cols = columns db p.2 := by
  have h1 : (input.lines.map Line.text)[i]? = (ls.map (fun p => fromUnicode db p.1))[i]? := by rw [hin.texts]
  rw [List.getElem?_map, List.getElem?_map, hp] at h1
  obtain ⟨ht, ha⟩ := hin.good p (List.mem_of_getElem? hp)
  obtain ⟨b, hb, hg, -⟩ := analyse ht ha
  cases hl : input.lines[i]? with
  | none => rw [hl] at h1; simp at h1
  | some l =>
    rw [hl] at h1
    simp only [Option.map_some, Option.some.injEq] at h1
    exact ⟨l, b, rfl, by rw [h1, hb], hb, hg.cols⟩

private theorem textRow_ok {db : CharDb} (hdb : Sane db) {opt : Opt} {d : Design} {input : Input} {ls : List (Str × Str)}
    (hin : TextBlock db opt d input ls) {box : Sides Shape} (hbox : GoodBox db d box) (lay : Layout)
    (hlay : lay.indentspc = indentSpc opt d input.indent) (j i : Nat) (hj : j < box.right.height)
    {p : Str × Str} (hp : ls[i]? = some p) :
    ∃ row k m, textRow db opt d input box lay j i = .ok row ∧ fromUnicode db row.memory = some row ∧
      Shifted db opt d input p.2 ((lay.hpr : Int) - lay.hpl) k ∧ Placed db input.maxline lay.hpl lay.hpr p.1 p.2 k m ∧
      Row opt d input box (lay.skipLeft = true) j i m row.memory := by
  have hmem := List.mem_of_getElem? hp
  have hi : i < ls.length := (List.getElem?_eq_some_iff.1 hp).1
  obtain ⟨ht, ha⟩ := hin.good p hmem
  obtain ⟨l, b, hl, hlt, hb, hcols⟩ := line_at hin hp
  obtain ⟨ind, hr, hio⟩ := restoreIndent_ok hin i hi
  have hind := partOk_blanks hdb hio.chars
  obtain ⟨hright, er⟩ := partOk_line hbox.right hj
  obtain ⟨hleft, el⟩ := partOk_line hbox.left (y := j) (by rw [hbox.sameHeight]; exact hj)
  obtain ⟨k, hk, hsh⟩ := C19_justify db opt d input ((lay.hpr : Int) - lay.hpl) ht hb (fun h0 => hin.narrow h0 p hmem)
    (hin.fits p hmem) (fun hti => ⟨(hin.indented hti).1, (hin.indented hti).2 p hmem⟩)
  obtain ⟨q, q1, q2, q3, q4, q5, q6⟩ := C06_cut_front db ht hb (-k).toNat
  have hle := hsh.left
  have hcut : columns db (p.2.take (-k).toNat) = (-k).toNat ∧ ∀ c ∈ p.2.take (-k).toNat, Blank db c := by
    by_cases h0 : opt.justify = '\x00'
    · have : k = 0 := hsh.unjustified (by rw [h0]; decide)
      subst this
      simp [columns]
    · exact narrow_take db p.2 _ (hin.narrow h0 p hmem) (by omega)
  have hpl : Placed db input.maxline lay.hpl lay.hpr p.1 p.2 k
      (spaces (lay.hpl + k.toNat) ++ q.memory ++ spaces (lay.hpr + ((input.maxline : Int) - columns db p.2 - k).toNat)) :=
    ⟨hcut.2, hcut.1, q.memory, q4, fun h0 => q5 (by omega), fun h0 => q6 (by omega), q3, rfl⟩
  have hmid := placed_ok hdb ha hsh.right hpl
  have hshift : (if k < 0 then (-k).toNat else 0) = (-k).toNat := by split <;> omega
  have hspc : (if k > 0 then nspaces k.toNat else []) = nspaces k.toNat := by
    split
    · rfl
    · rw [show k.toNat = 0 by omega]; rfl
  have hroom : ¬ ((input.maxline : Int) - columns db p.2 - k < 0) := by have := hsh.right; omega
  unfold textRow
  rw [hl, Res.get_some, Res.ok_bind, hlt, Res.get_some, Res.ok_bind, hk, Res.ok_bind, hlay, hr, Res.ok_bind, hshift, q1,
    Res.get_some, Res.ok_bind]
  simp only [hspc]
  rw [hcols, if_neg hroom, er]
  unfold leftMem
  have esp : ∀ a c, spaces (a + c) = nspaces a ++ nspaces c := by
    intro a c
    simp [spaces, nspaces, chSpace, List.replicate_append_replicate]
  cases hs : lay.skipLeft with
  | true =>
    simp only [if_true, Res.ok_bind]
    obtain ⟨b', e1, e2, e3⟩ := concat_ok (ss := [ind, [], nspaces lay.hpl, nspaces k.toNat, q.memory, nspaces lay.hpr,
        nspaces ((input.maxline : Int) - columns db p.2 - k).toNat, lineText box.right j]) (by simp)
      (by simpa [esp] using (hind.append (hmid.append hright)))
    refine ⟨b', k, _, ?_, e2, hsh, hpl, ⟨ind, [], hio, fun _ => rfl, fun h => by simp at h, by rw [e3]; simp [esp]⟩⟩
    simp only [List.map_cons, List.map_nil] at e1
    rw [e1]; rfl
  | false =>
    simp only [Bool.false_eq_true, if_false, Res.ok_bind, el]
    obtain ⟨b', e1, e2, e3⟩ := concat_ok (ss := [ind, lineText box.left j, nspaces lay.hpl, nspaces k.toNat, q.memory,
        nspaces lay.hpr, nspaces ((input.maxline : Int) - columns db p.2 - k).toNat, lineText box.right j]) (by simp)
      (by simpa [esp] using (hind.append (hleft.append (hmid.append hright))))
    refine ⟨b', k, _, ?_, e2, hsh, hpl, ⟨ind, _, hio, fun h => by simp at h, fun _ => rfl, by rw [e3]; simp [esp]⟩⟩
    simp only [List.map_cons, List.map_nil] at e1
    rw [e1]; rfl

/-- value of `vfill1` at output line `j` -/
private def vfAt (top above j : Nat) : Nat := if j < top then above else above - (j - top)

private theorem outputRow_ok {db : CharDb} (hdb : Sane db) {opt : Opt} {d : Design} {input : Input} {ls : List (Str × Str)}
    (hin : TextBlock db opt d input ls) {box : Sides Shape} (hbox : GoodBox db d box) (lay : Layout) (above below : Nat)
    (hlay : lay.indentspc = indentSpc opt d input.indent) (hv : lay.vfill = above + below) (hv2 : lay.vfill2 = below)
    (hsum : box.top.height + above + ls.length + below + box.bottom.height = box.right.height)
    (j : Nat) (hj : j < box.right.height) :
    ∃ row i m, outputRow db opt d input box lay j (vfAt box.top.height above j) = .ok (row, vfAt box.top.height above (j + 1)) ∧
      fromUnicode db row.memory = some row ∧ RowAt db opt d input ls box above below lay.hpl lay.hpr j i m ∧
      Row opt d input box (lay.skipLeft = true) j i m row.memory := by
  have hlen : input.lines.length = ls.length := by
    have := congrArg List.length hin.texts
    simpa using this
  have hpos : 0 < ls.length := List.length_pos_iff.2 hin.nonempty
  unfold outputRow
  by_cases h1 : j < box.top.height
  · rw [if_pos h1]
    obtain ⟨p1, p2⟩ := partOk_line hbox.top h1
    obtain ⟨row, r1, r2, r3⟩ := plainRow_ok hdb hin hbox lay hlay j 0 hj hpos _ p1
    rw [p2, Res.ok_bind, r1, Res.ok_bind]
    refine ⟨row, 0, _, ?_, r2, .top j h1, r3⟩
    unfold vfAt
    rw [if_pos h1]
    split
    · rfl
    · rw [show j + 1 - box.top.height = 0 by omega]; rfl
  · rw [if_neg h1]
    by_cases h2 : j < box.top.height + above
    · have hvf : vfAt box.top.height above j ≠ 0 := by unfold vfAt; rw [if_neg h1]; omega
      rw [if_pos hvf]
      obtain ⟨row, r1, r2, r3⟩ := plainRow_ok hdb hin hbox lay hlay j 0 hj hpos _ (partOk_spaces hdb box.top.width)
      have r1' : plainRow db opt input box lay j 0 (nspaces box.top.width) = .ok row := r1
      rw [r1', Res.ok_bind]
      refine ⟨row, 0, _, ?_, r2, ?_, r3⟩
      · unfold vfAt
        rw [if_neg h1, if_neg (by omega)]
        simp only [Res.ok.injEq, Prod.mk.injEq, true_and]
        omega
      · have := RowAt.above (db := db) (opt := opt) (d := d) (input := input) (ls := ls) (box := box) (above := above)
          (below := below) (lp := lay.hpl) (rp := lay.hpr) (j - box.top.height) (by omega)
        rw [show box.top.height + (j - box.top.height) = j by omega] at this
        exact this
    · have hvf : vfAt box.top.height above j = 0 := by unfold vfAt; rw [if_neg h1]; omega
      have hvf' : vfAt box.top.height above (j + 1) = 0 := by unfold vfAt; rw [if_neg (by omega)]; omega
      rw [hvf, hvf', if_neg (by simp), Res.sub_ok (by omega), Res.ok_bind, Res.sub_ok (by omega), Res.ok_bind]
      by_cases h3 : j < box.right.height - box.bottom.height
      · rw [if_pos h3]
        have hti : (j : Int) - box.top.height - ((lay.vfill : Int) - lay.vfill2) = ((j - (box.top.height + above) : Nat) : Int) := by
          omega
        simp only [hti]
        rw [if_neg (by omega)]
        by_cases h4 : j - (box.top.height + above) < ls.length
        · rw [if_pos (by omega)]
          obtain ⟨row, k, m, t1, t2, t3, t4, t5⟩ := textRow_ok hdb hin hbox lay hlay j (j - (box.top.height + above)) hj
            (List.getElem?_eq_getElem h4)
          rw [Int.toNat_natCast, t1, Res.ok_bind]
          refine ⟨row, _, m, rfl, t2, ?_, t5⟩
          have := RowAt.text (db := db) (opt := opt) (d := d) (input := input) (ls := ls) (box := box) (above := above)
            (below := below) (lp := lay.hpl) (rp := lay.hpr) (j - (box.top.height + above)) _ k m
            (List.getElem?_eq_getElem h4) t3 t4
          rw [show box.top.height + above + (j - (box.top.height + above)) = j by omega] at this
          exact this
        · rw [if_neg (by omega)]
          obtain ⟨row, r1, r2, r3⟩ := plainRow_ok hdb hin hbox lay hlay j (ls.length - 1) hj (by omega) _
            (partOk_spaces hdb box.top.width)
          have r1' : plainRow db opt input box lay j (input.lines.length - 1) (nspaces box.top.width) = .ok row := by
            rw [hlen]; exact r1
          rw [r1', Res.ok_bind]
          refine ⟨row, _, _, rfl, r2, ?_, r3⟩
          have := RowAt.below (db := db) (opt := opt) (d := d) (input := input) (ls := ls) (box := box) (above := above)
            (below := below) (lp := lay.hpl) (rp := lay.hpr) (j - (box.top.height + above + ls.length)) (by omega)
          rw [show box.top.height + above + ls.length + (j - (box.top.height + above + ls.length)) = j by omega] at this
          exact this
      · rw [if_neg h3]
        obtain ⟨p1, p2⟩ := partOk_line hbox.bottom (y := j - (box.right.height - box.bottom.height)) (by omega)
        rw [hbox.sameWidth] at p1
        obtain ⟨row, r1, r2, r3⟩ := plainRow_ok hdb hin hbox lay hlay j (ls.length - 1) hj (by omega) _ p1
        rw [p2, Res.ok_bind, hlen, r1, Res.ok_bind]
        refine ⟨row, _, _, rfl, r2, ?_, r3⟩
        have := RowAt.bottom (db := db) (opt := opt) (d := d) (input := input) (ls := ls) (box := box) (above := above)
          (below := below) (lp := lay.hpl) (rp := lay.hpr) (j - (box.right.height - box.bottom.height)) (by omega)
        rw [show box.top.height + above + ls.length + below + (j - (box.right.height - box.bottom.height)) = j by omega] at this
        exact this

private theorem rtrim_ok {db : CharDb} {b : Bxs} {w : Nat} (hb : fromUnicode db b.memory = some b) (hp : PartOk db b.memory w) :
    ∃ r, b.rtrim db = some r := by
  obtain ⟨v, h1, h2, -⟩ := hp
  by_cases hbl : ∀ c ∈ v, Blank db c
  · exact ⟨b, C04_rtrim_blank db h1 hb hbl⟩
  · simp only [Classical.not_forall] at hbl
    obtain ⟨c, hc, hcb⟩ := hbl
    obtain ⟨r, hr, -⟩ := C04_rtrim db h1 hb ⟨c, hc, hcb⟩
    exact ⟨r, hr⟩

private theorem rowAt_ok {db : CharDb} (hdb : Sane db) {opt : Opt} {d : Design} {input : Input} {ls : List (Str × Str)}
    (hin : TextBlock db opt d input ls) {box : Sides Shape} (hbox : GoodBox db d box) {above below lp rp y i : Nat} {m : Str}
    (hw : lp + input.maxline + rp = box.top.width) (h : RowAt db opt d input ls box above below lp rp y i m) :
    PartOk db m box.top.width := by
  cases h with
  | top y hy => exact (partOk_line hbox.top hy).1
  | above y _ => exact partOk_spaces hdb _
  | text y p k m hp hs hpl =>
    have := placed_ok hdb (hin.good p (List.mem_of_getElem? hp)).2 hs.right hpl
    rw [hw] at this
    exact this
  | below y _ => exact partOk_spaces hdb _
  | bottom y hy =>
    have := (partOk_line hbox.bottom hy).1
    rwa [hbox.sameWidth] at this

private theorem row_ok {db : CharDb} (hdb : Sane db) {opt : Opt} {d : Design} {input : Input} {ls : List (Str × Str)}
    (hin : TextBlock db opt d input ls) {box : Sides Shape} (hbox : GoodBox db d box) {above below lp rp y i : Nat} {m row : Str}
    {noLeft : Prop} (hy : y < box.right.height)
    (hw : lp + input.maxline + rp = box.top.width) (h : RowAt db opt d input ls box above below lp rp y i m)
    (hr : Row opt d input box noLeft y i m row) : ∃ w, PartOk db row w := by
  obtain ⟨ind, left, h1, h2, h3, rfl⟩ := hr.parts
  have a := partOk_blanks hdb h1.chars
  have c := rowAt_ok hdb hin hbox hw h
  have e := (partOk_line hbox.right hy).1
  by_cases hn : noLeft
  · rw [h2 hn]
    exact ⟨_, (((a.append (partOk_nil db)).append c).append e)⟩
  · rw [h3 hn]
    have b := (partOk_line hbox.left (y := y) (by rw [hbox.sameHeight]; exact hy)).1
    exact ⟨_, (((a.append b).append c).append e)⟩

/-- the rows of a box are texts with complete escape sequences -/
theorem row_text {db : CharDb} (hdb : Sane db) {opt : Opt} {d : Design} {input : Input} {ls : List (Str × Str)}
    (hin : TextBlock db opt d input ls) {box : Sides Shape} (hbox : GoodBox db d box) {above below lp rp y i : Nat} {m row : Str}
    {noLeft : Prop} (hy : y < box.right.height)
    (hw : lp + input.maxline + rp = box.top.width) (h : RowAt db opt d input ls box above below lp rp y i m)
    (hr : Row opt d input box noLeft y i m row) : ∃ v, Text row v := by
  obtain ⟨-, v, h1, -⟩ := row_ok hdb hin hbox hy hw h hr
  exact ⟨v, h1⟩

private theorem outputLoop_ok {db : CharDb} (hdb : Sane db) {opt : Opt} {d : Design} {input : Input} {ls : List (Str × Str)}
    (hin : TextBlock db opt d input ls) {box : Sides Shape} (hbox : GoodBox db d box) (lay : Layout) (above below : Nat)
    (hlay : lay.indentspc = indentSpc opt d input.indent) (hv : lay.vfill = above + below) (hv2 : lay.vfill2 = below)
    (hw : lay.hpl + input.maxline + lay.hpr = box.top.width)
    (hsum : box.top.height + above + ls.length + below + box.bottom.height = box.right.height) :
    ∀ (n j : Nat), j + n ≤ box.right.height →
    ∃ out, outputLoop db opt d input box lay n j (vfAt box.top.height above j) = .ok out ∧ out.length = n ∧
      ∀ t, t < n → ∃ row i m r, RowAt db opt d input ls box above below lay.hpl lay.hpr (j + t) i m ∧
        Row opt d input box (lay.skipLeft = true) (j + t) i m row.memory ∧ fromUnicode db row.memory = some row ∧
        row.rtrim db = some r ∧ out[t]? = some (r, if input.finalNewline = true ∨ t + 1 ≠ n then opt.eol else []) := by
  intro n
  induction n with
  | zero => intro j _; exact ⟨[], rfl, rfl, fun t ht => absurd ht (by omega)⟩
  | succ n ih =>
    intro j hj
    obtain ⟨row, i, m, e1, e2, e3, e4⟩ := outputRow_ok hdb hin hbox lay above below hlay hv hv2 hsum j (by omega)
    obtain ⟨w, hpo⟩ := row_ok hdb hin hbox (by omega) hw e3 e4
    obtain ⟨r, hr⟩ := rtrim_ok e2 hpo
    obtain ⟨out, o1, o2, o3⟩ := ih (j + 1) (by omega)
    refine ⟨(r, if input.finalNewline = true ∨ n ≠ 0 then opt.eol else []) :: out, ?_, by simp [o2], ?_⟩
    · unfold outputLoop
      rw [e1, Res.ok_bind]
      simp only [hr, Res.get_some, Res.ok_bind]
      rw [o1, Res.ok_bind]
    · intro t ht
      cases t with
      | zero =>
        refine ⟨row, i, m, r, e3, e4, e2, hr, ?_⟩
        simp only [List.getElem?_cons_zero]
        have : (0 + 1 ≠ n + 1) ↔ n ≠ 0 := by omega
        simp [this]
      | succ t =>
        obtain ⟨row', i', m', r', a1, a2, a3, a4, a5⟩ := o3 t (by omega)
        refine ⟨row', i', m', r', ?_, ?_, a3, a4, ?_⟩
        · rw [show j + (t + 1) = j + 1 + t by omega]; exact a1
        · rw [show j + (t + 1) = j + 1 + t by omega]; exact a2
        · rw [List.getElem?_cons_succ, a5]
          have : (t + 1 + 1 ≠ n + 1) ↔ t + 1 ≠ n := by omega
          simp [this]

/-- C15, C16, C20, C22: the printed box.  Given four assembled sides and a text that fits, printing succeeds (nothing underflows,
nothing is read out of bounds).  `above`/`below` are the numbers of empty lines, `lp`/`rp` the columns left and right of the
text block (C17, C18).  The output consists of the rows `s`, `s+1`, … of the box, the first `s` and the last `e` being left out,
which happens if the top (bottom) side shows nothing.  Each row consists of indentation, left side (unless it shows nothing),
content and right side (`RowAt`, `Row`), with trailing blanks removed, followed by the line terminator; the very last one only
if the input ended with a line break. -/
theorem C16_box (db : CharDb) (hdb : Sane db) (opt : Opt) (d : Design) (input : Input) (ls : List (Str × Str))
    (box : Sides Shape) (hd : GoodDesign db d) (hbox : GoodBox db d box) (hin : TextBlock db opt d input ls)
    (hroom : Room d box input.maxline ls.length) :
    ∃ out above below lp rp s e, outputBox db opt d input box = .ok out ∧
      above = linesAbove opt d box ls.length ∧
      box.top.height + above + ls.length + below + box.bottom.height = box.right.height ∧
      lp = columnsLeft opt d box input.maxline ∧ lp + input.maxline + rp = box.top.width ∧
      NumberIf (BlankSide db d [NW, NNW, N, NNE, NE]) box.top.height s ∧
      NumberIf (BlankSide db d [SE, SSE, S, SSW, SW]) box.bottom.height e ∧
      s + out.length + e = box.right.height ∧
      ∀ t, t < out.length → ∃ row i m r,
        RowAt db opt d input ls box above below lp rp (s + t) i m ∧
        Row opt d input box (BlankSide db d [SW, WSW, W, WNW, NW]) (s + t) i m row.memory ∧
        fromUnicode db row.memory = some row ∧ row.rtrim db = some r ∧
        out[t]? = some (r, if input.finalNewline = true ∨ t + 1 ≠ out.length then opt.eol else []) := by
  have hlen : input.lines.length = ls.length := by
    have := congrArg List.length hin.texts
    simpa using this
  obtain ⟨above, below, v1, v2, v3, -, -⟩ := C17_vertical opt d box ls.length hroom.vertical
  obtain ⟨lp, rp, w1, w2, w3, -, -⟩ := C18_horizontal opt d box input.maxline hroom.horizontal
  have hN := emptySide_iff hdb hd.shapes northSide
  have hS := emptySide_iff hdb hd.shapes southSide
  have hW := emptySide_iff hdb hd.shapes westSide
  have hNWw : (d.shape NW).width ≠ 0 := by
    have := hd.corner NW (by simp)
    exact (Nat.pos_iff_ne_zero.1 this.2.1)
  let s := if emptySide d.shape northSide then (d.shape NW).height else 0
  let e := if emptySide d.shape southSide then (d.shape SW).height else 0
  have hs : NumberIf (BlankSide db d northSide) box.top.height s := by
    rw [hbox.topHeight]
    exact ⟨fun h => if_pos (hN.2 h), fun h => if_neg (fun h' => h (hN.1 h'))⟩
  have he : NumberIf (BlankSide db d southSide) box.bottom.height e := by
    rw [hbox.bottomHeight]
    exact ⟨fun h => if_pos (hS.2 h), fun h => if_neg (fun h' => h (hS.1 h'))⟩
  have hsle : s ≤ box.top.height := by
    rw [hbox.topHeight]; show (if _ then _ else _) ≤ _; split <;> omega
  have hele : e ≤ box.bottom.height := by
    rw [hbox.bottomHeight]; show (if _ then _ else _) ≤ _; split <;> omega
  let lay : Layout := { indentspc := indentSpc opt d input.indent, vfill := above + below, vfill2 := below, hpl := lp, hpr := rp, skipLeft := (if emptySide d.shape westSide then (d.shape NW).width else 0) ≠ 0 }
  have hskip : (lay.skipLeft = true) = BlankSide db d westSide := by
    apply propext
    rw [← hW]
    show decide (_ ≠ 0) = true ↔ _
    rw [decide_eq_true_iff]
    by_cases hh : emptySide d.shape westSide = true
    · simp [hh, hNWw]
    · simp [hh]
  have hroomb := hbox.room
  obtain ⟨out, o1, o2, o3⟩ := outputLoop_ok hdb hin hbox lay above below rfl rfl rfl w3 v3 (box.right.height - e - s) s (by omega)
  have hvf : vfAt box.top.height above s = above := by
    unfold vfAt
    split
    · rfl
    · rw [show s - box.top.height = 0 by omega]; rfl
  refine ⟨out, above, below, lp, rp, s, e, ?_, v2, v3, w2, w3, hs, he, by omega, ?_⟩
  · unfold outputBox
    rw [hlen, v1]
    simp only [Res.ok_bind]
    rw [w1]
    simp only [Res.ok_bind]
    rw [Res.sub_ok (show e ≤ box.right.height by omega), Res.ok_bind, ← o1, hvf]
  · intro t ht
    obtain ⟨row, i, m, r, a1, a2, a3, a4, a5⟩ := o3 t (by omega)
    rw [hskip] at a2
    rw [← o2] at a5
    exact ⟨row, i, m, r, a1, a2, a3, a4, a5⟩

/-- C15: apart from its indentation, every row of the printed box is equally wide before its trailing blanks are removed: as
wide as the left side (unless that is left out), the top side and the right side together. -/
theorem C15_rectangle (db : CharDb) (hdb : Sane db) (opt : Opt) (d : Design) (input : Input) (ls : List (Str × Str))
    (box : Sides Shape) (hd : GoodDesign db d) (hbox : GoodBox db d box) (hin : TextBlock db opt d input ls)
    (hroom : Room d box input.maxline ls.length) :
    ∃ out left, outputBox db opt d input box = .ok out ∧
      (BlankSide db d [SW, WSW, W, WNW, NW] → left = 0) ∧ (¬ BlankSide db d [SW, WSW, W, WNW, NW] → left = box.left.width) ∧
      ∀ t, t < out.length → ∃ ind rest v b r i, IndentOf opt d input i ind ∧
        Text rest v ∧ columns db v = left + box.top.width + box.right.width ∧
        fromUnicode db (ind ++ rest) = some b ∧ b.rtrim db = some r ∧ (out[t]?).map Prod.fst = some r := by
  obtain ⟨out, above, below, lp, rp, s, e, h1, -, h3, -, h5, -, -, h8, h9⟩ :=
    C16_box db hdb opt d input ls box hd hbox hin hroom
  by_cases hW : BlankSide db d [SW, WSW, W, WNW, NW]
  · refine ⟨out, 0, h1, fun _ => rfl, fun h => absurd hW h, ?_⟩
    intro t ht
    obtain ⟨row, i, m, r, a1, a2, a3, a4, a5⟩ := h9 t ht
    obtain ⟨ind, left, b1, b2, b3, b4⟩ := a2.parts
    have c := rowAt_ok hdb hin hbox h5 a1
    have f := (partOk_line hbox.right (y := s + t) (by omega)).1
    obtain ⟨v, g1, -, g3⟩ := c.append f
    refine ⟨ind, m ++ lineText box.right (s + t), v, row, r, i, b1, g1, by omega, ?_, a4, by rw [a5]; rfl⟩
    rw [b2 hW] at b4
    rw [← a3, b4]; simp
  · refine ⟨out, box.left.width, h1, fun h => absurd h hW, fun _ => rfl, ?_⟩
    intro t ht
    obtain ⟨row, i, m, r, a1, a2, a3, a4, a5⟩ := h9 t ht
    obtain ⟨ind, left, b1, b2, b3, b4⟩ := a2.parts
    have c := rowAt_ok hdb hin hbox h5 a1
    have f := (partOk_line hbox.right (y := s + t) (by omega)).1
    have g := (partOk_line hbox.left (y := s + t) (by rw [hbox.sameHeight]; omega)).1
    obtain ⟨v, g1, -, g3⟩ := (g.append c).append f
    refine ⟨ind, _, v, row, r, i, b1, g1, by omega, ?_, a4, by rw [a5]; rfl⟩
    rw [b3 hW] at b4
    rw [← a3, b4]; simp

theorem rowAt_text {db : CharDb} {opt : Opt} {d : Design} {input : Input} {ls : List (Str × Str)} {box : Sides Shape}
    {above below lp rp y z i : Nat} {m : Str} (h : RowAt db opt d input ls box above below lp rp z i m)
    (hz : z = box.top.height + above + y) (hy : y < ls.length) :
    i = y ∧ ∃ p k, ls[y]? = some p ∧ Shifted db opt d input p.2 ((rp : Int) - lp) k ∧
      Placed db input.maxline lp rp p.1 p.2 k m := by
  cases h with
  | top _ hh => omega
  | above _ hh => omega
  | text y' p k m h1 h2 h3 =>
    have : i = y := by omega
    subst this
    exact ⟨rfl, p, k, h1, h2, h3⟩
  | below _ hh => omega
  | bottom _ hh => omega

/-- C16: every input line `y` is shown exactly once and in its place: in row `y` of the text block, between the sides, moved by
`k` columns (C19), and no other row of the box shows text. -/
theorem C16_every_line (db : CharDb) (hdb : Sane db) (opt : Opt) (d : Design) (input : Input) (ls : List (Str × Str))
    (box : Sides Shape) (hd : GoodDesign db d) (hbox : GoodBox db d box) (hin : TextBlock db opt d input ls)
    (hroom : Room d box input.maxline ls.length) :
    ∃ out first lp rp, outputBox db opt d input box = .ok out ∧ lp + input.maxline + rp = box.top.width ∧
      first + ls.length ≤ out.length ∧
      ∀ y p, ls[y]? = some p → ∃ k m ind left right b r,
        Shifted db opt d input p.2 ((rp : Int) - lp) k ∧ Placed db input.maxline lp rp p.1 p.2 k m ∧
        IndentOf opt d input y ind ∧ (left = [] ∨ ∃ z, left = lineText box.left z) ∧ (∃ z, right = lineText box.right z) ∧
        fromUnicode db (ind ++ left ++ m ++ right) = some b ∧ b.rtrim db = some r ∧
        (out[first + y]?).map Prod.fst = some r := by
  obtain ⟨out, above, below, lp, rp, s, e, h1, -, h3, -, h5, hs, he, h8, h9⟩ :=
    C16_box db hdb opt d input ls box hd hbox hin hroom
  have hsle : s ≤ box.top.height := by
    by_cases hB : BlankSide db d [NW, NNW, N, NNE, NE]
    · rw [hs.1 hB]; omega
    · rw [hs.2 hB]; omega
  have hele : e ≤ box.bottom.height := by
    by_cases hB : BlankSide db d [SE, SSE, S, SSW, SW]
    · rw [he.1 hB]; omega
    · rw [he.2 hB]; omega
  refine ⟨out, box.top.height - s + above, lp, rp, h1, h5, by omega, ?_⟩
  intro y p hp
  have hy : y < ls.length := (List.getElem?_eq_some_iff.1 hp).1
  obtain ⟨row, i, m, r, a1, a2, a3, a4, a5⟩ := h9 (box.top.height - s + above + y) (by omega)
  obtain ⟨rfl, p', k, g1, g2, g3⟩ := rowAt_text (y := y) a1 (by omega) hy
  rw [hp] at g1
  obtain rfl := Option.some.inj g1
  obtain ⟨ind, left, b1, b2, b3, b4⟩ := a2.parts
  refine ⟨k, m, ind, left, _, row, r, g2, g3, b1, ?_, ⟨_, rfl⟩, by rw [← b4]; exact a3, a4, by rw [a5]; rfl⟩
  by_cases hW : BlankSide db d [SW, WSW, W, WNW, NW]
  · exact .inl (b2 hW)
  · exact .inr ⟨_, b3 hW⟩

/-- C22: every printed line is followed by the line terminator, the last one exactly if the input ended with a line break. -/
theorem C22_line_ends (db : CharDb) (hdb : Sane db) (opt : Opt) (d : Design) (input : Input) (ls : List (Str × Str))
    (box : Sides Shape) (hd : GoodDesign db d) (hbox : GoodBox db d box) (hin : TextBlock db opt d input ls)
    (hroom : Room d box input.maxline ls.length) :
    ∃ out, outputBox db opt d input box = .ok out ∧ 0 < out.length ∧
      ∀ t p, out[t]? = some p → p.2 = if t + 1 = out.length ∧ input.finalNewline = false then [] else opt.eol := by
  obtain ⟨out, first, lp, rp, e1, -, e2, -⟩ := C16_every_line db hdb opt d input ls box hd hbox hin hroom
  obtain ⟨out', above, below, lp, rp, s, e, h1, -, h3, -, h5, hs, he, h8, h9⟩ :=
    C16_box db hdb opt d input ls box hd hbox hin hroom
  rw [h1] at e1
  obtain rfl := Res.ok.inj e1
  have hpos : 0 < ls.length := List.length_pos_iff.2 hin.nonempty
  refine ⟨_, h1, by omega, ?_⟩
  intro t p hp
  have ht := (List.getElem?_eq_some_iff.1 hp).1
  obtain ⟨row, i, m, r, -, -, -, -, a5⟩ := h9 t ht
  rw [hp] at a5
  obtain rfl := Option.some.inj a5
  show (if _ then _ else _) = _
  by_cases hf : input.finalNewline = true
  · simp [hf]
  · rw [Bool.not_eq_true] at hf
    by_cases hl : t + 1 = out'.length
    · simp [hf, hl]
    · simp [hf, hl]

/-- C20: the sides made by the generator are what drawing needs, large enough for the text and for the minimum size. -/
theorem C20_sides (db : CharDb) (d : Design) (hd : GoodDesign db d) (input : Input) (fuel : Nat) {r : Res (Sides Shape)}
    (hr : generateBox db d input fuel = some r) :
    ∃ box, r = .ok box ∧ GoodBox db d box ∧
      box.left.width = (d.shape NW).width ∧ box.right.width = (d.shape NE).width ∧
      input.maxline ≤ box.top.width ∧ d.minwidth ≤ (d.shape NW).width + box.top.width + (d.shape NE).width ∧
      (d.shape NW).height + input.lines.length + (d.shape SW).height ≤ box.right.height ∧ d.minheight ≤ box.right.height := by
  unfold generateBox at hr
  cases hh : horizGenerate db d input.maxline fuel with
  | none => rw [hh] at hr; simp at hr
  | some q =>
    obtain ⟨top, bottom, w, i1, i2, i3, k1, k2, k3, rfl, -, -, -, -, -, t1, t2, -, t3, t4, t5, t6, t7, t8, t9, t10⟩ :=
      C13_top_bottom db d hd input.maxline fuel hh
    rw [hh] at hr
    simp only [Option.map_eq_some_iff] at hr
    obtain ⟨q, hq, rfl⟩ := hr
    obtain ⟨left, right, h, i1, i2, i3, k1, k2, k3, rfl, -, -, -, -, -, u1, u2, -, u3, u4, u5, u6, -, -, u7, u8, u9, u10⟩ :=
      C14_left_right db d hd input.lines.length fuel hq
    refine ⟨_, rfl, ⟨⟨t6, ?_⟩, ⟨u8, u10⟩, ⟨t8, ?_⟩, ⟨u7, u9⟩, ?_, ?_, t5, t7, ?_⟩, u3, u4, ?_, ?_, ?_, ?_⟩
    · show ∀ b ∈ top.lines, (∃ v, GoodLine db b v) ∧ b.cols = top.width
      intro b hb
      obtain ⟨y, hy⟩ := List.mem_iff_getElem?.1 hb
      have := (List.getElem?_eq_some_iff.1 hy).1
      obtain ⟨b', v, g1, -, g3, g4, -⟩ := t9 y (by omega)
      rw [hy] at g1
      obtain rfl := Option.some.inj g1
      exact ⟨⟨v, g3⟩, by omega⟩
    · show ∀ b ∈ bottom.lines, (∃ v, GoodLine db b v) ∧ b.cols = bottom.width
      intro b hb
      obtain ⟨y, hy⟩ := List.mem_iff_getElem?.1 hb
      have := (List.getElem?_eq_some_iff.1 hy).1
      obtain ⟨b', v, g1, -, g3, g4, -⟩ := t10 y (by omega)
      rw [hy] at g1
      obtain rfl := Option.some.inj g1
      exact ⟨⟨v, g3⟩, by omega⟩
    all_goals simp only
    all_goals omega

/-! ### a case that meets the hypotheses -/

/-- the sample design with the minimum size that `adjust_size_and_padding` computes for the sample text -/
private def exDesign : Design := { sampleDesign with minwidth := 10, minheight := 5 }
private def exOpt : Opt := { justify := 'c', halign := 'c' }
private def exInput : Input :=
  { lines := [{ text := fromUnicode sampleDb (lit "Hello") }, { text := fromUnicode sampleDb (lit " you") }], maxline := 5, indent := 2 }
private def exTexts : List (Str × Str) := [(lit "Hello", lit "Hello"), (lit " you", lit " you")]

private theorem exGood : GoodDesign sampleDb exDesign :=
  { sampleDesign_good with minwidth := by decide, minheight := by decide }

private theorem exBlock : TextBlock sampleDb exOpt exDesign exInput exTexts where
  nonempty := by decide
  texts := rfl
  good := by
    intro p hp
    simp only [exTexts, List.mem_cons, List.not_mem_nil, or_false] at hp
    rcases hp with rfl | rfl
    · exact ⟨Spec.Text.plain (by decide), by decide⟩
    · exact ⟨Spec.Text.plain (by decide), by decide⟩
  narrow := by
    intro _ p hp
    simp only [exTexts, List.mem_cons, List.not_mem_nil, or_false] at hp
    rcases hp with rfl | rfl <;> (unfold NarrowBlanks; decide)
  fits := by decide
  indented := by decide
  tabs := by decide
  tabstop := by decide

example : ∃ box, generateBox sampleDb exDesign exInput 20 = some (.ok box) ∧ GoodBox sampleDb exDesign box ∧
    Room exDesign box exInput.maxline exTexts.length := by
  cases hg : generateBox sampleDb exDesign exInput 20 with
  | none => exact absurd hg (by decide)
  | some r =>
    obtain ⟨box, rfl, h1, h2, h3, h4, h5, h6, h7⟩ := C20_sides sampleDb exDesign exGood exInput 20 hg
    have t := h1.topHeight
    have b := h1.bottomHeight
    have e1 : (exDesign.shape NW).width = 2 := by decide
    have e2 : (exDesign.shape NE).width = 1 := by decide
    have e3 : (exDesign.shape NW).height = 1 := by decide
    have e4 : (exDesign.shape SW).height = 1 := by decide
    have e5 : exDesign.minheight = 5 := rfl
    have e6 : exDesign.minwidth = 10 := rfl
    have e7 : exDesign.padding = ⟨0, 1, 1, 1⟩ := rfl
    have e8 : exInput.maxline = 5 := rfl
    have e9 : exTexts.length = 2 := rfl
    exact ⟨box, rfl, h1, ⟨by rw [e7, e9]; simp only; omega, by rw [e7, e8]; simp only; omega⟩⟩

example : (match generateBox sampleDb exDesign exInput 20 with
    | some (.ok box) => (do
      let out ← outputBox sampleDb exOpt exDesign exInput box
      renderBox true out : Res Str)
    | _ => .ub) = .ok (lit "  ..-=-=<>=-.\n  O| Hello  )\n  ||  you   (\n  ||        )\n  ||        (\n  `'########'") := by decide

end Boxes
