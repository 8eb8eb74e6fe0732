import Verif.Lemmas.DrawnColour
import Verif.Props.InColour
import Verif.Props.ColouredPipe
import Verif.Props.Recoloured

/-!
# Drawing a box in colour and removing it again (C84)
-/
namespace Boxes
open Spec ShapeName
set_option linter.unusedSimpArgs false

/-- C83: the whole of `handle_remove_box` for a box in colour: what is printed.  It is the same as for a box without colours (`C70_printed`). -/
theorem C83_printed (db : CharDb) (hdb : Sane db) (hesc : db.ucBlank 0x1b = false) (opt : Opt) (htab : opt.tabexp ≠ 'u' ∧ opt.tabexp ≠ 'k') (hts1 : 1 ≤ opt.tabstop) (hmend : opt.mend ≤ 0)
    (d0 d : Design) (hd : InColour db d0 d) (i : Input) (ind : Nat) (ms ts us : List Str) (hbox : ColouredBox db d0 d ind ms i.lines)
    (hts : ts = ms.map (fun m => spaces (restored opt i.indent) ++ m.drop d.padding.left))
    (hlu : us.length = ts.length) (hus : ∀ (x : Nat) t u, ts[x]? = some t → us[x]? = some u → Text t u) :
    ∃ j out k k', handleRemoveBox db opt d [] i = .ok (j, out) ∧ j.lines.length = out.length ∧ j.finalNewline = i.finalNewline ∧
      k + out.length + k' = ts.length ∧
      (opt.killblank ≠ 0 → BlankLinesDropped db none us k ∧ BlankLinesDropped db none (us.drop k).reverse k') ∧
      (opt.killblank = 0 → opt.mend = 0 → k = 0 ∧ k' = 0) ∧
      (opt.killblank = 0 → opt.mend ≠ 0 → BlankLinesDropped db (some d.padding.top) us k ∧
        BlankLinesDropped db (some d.padding.bottom) (us.drop k).reverse k') ∧
      ∀ (x : Nat) p, out[x]? = some p → ∃ t u s v l, ts[k + x]? = some t ∧ us[k + x]? = some u ∧ EndTrimmed db t u s v ∧
        j.lines[x]? = some l ∧ l.text = fromUnicode db s ∧ From 0 s v p.1 ∧
        p.2 = (if x + 1 = out.length ∧ i.finalNewline = false then [] else opt.eol) := by
  have hside := (recoloured_sides hdb hd.plain.ready hd.ready hd.same).trans (side_seen hdb hd.plain)
  have hkb : ∀ o : Opt, (if o.killblank = -1 then (if emptySide d.shape northSide ∧ emptySide d.shape southSide then (0 : Int) else 1) else o.killblank) =
      (if o.killblank = -1 then 1 else o.killblank) := by
    intro o
    have : ¬ (emptySide d.shape northSide = true ∧ emptySide d.shape southSide = true) := by
      intro h
      have := congrArg Sides.top hside
      simp only [determineEmptySides] at this
      rw [h.1] at this; simp at this
    rw [if_neg this]
  obtain ⟨kb, hkbd⟩ : ∃ kb : Int, kb = if opt.killblank = -1 then 1 else opt.killblank := ⟨_, rfl⟩
  have hkb0 : kb = 0 ↔ opt.killblank = 0 := by rw [hkbd]; split <;> omega
  obtain ⟨j0, k, k', r1, r2, r3, r4, r5, r6⟩ := C83_removed db hdb hesc { opt with killblank := kb } d0 d hd i ind ms ts us hbox hts hlu hus
  have hchar : ∀ t ∈ ts, ∀ c ∈ t, ¬ Forbidden db c := by
    intro t ht c hc
    rw [hts] at ht
    obtain ⟨m, hm, rfl⟩ := List.mem_map.1 ht
    rcases List.mem_append.1 hc with hc | hc
    · refine spaces_all (P := fun c => ¬ Forbidden db c) ?_ _ c hc
      intro h
      have := h.1
      rw [hdb.space_ok] at this; simp at this
    · obtain ⟨x, hx⟩ := List.getElem?_of_mem hm
      have hlt := (List.getElem?_eq_some_iff.1 hx).1
      have hl := List.getElem?_eq_getElem (l := i.lines) (i := (d0.shape NE).height + x) (by rw [hbox.count]; omega)
      obtain ⟨b, hb, -⟩ := hbox.read _ (List.mem_of_getElem? hl)
      obtain ⟨n, -, n', -, -, -, w, -, z, -, hmem⟩ := hbox.body x _ b m hx hl hb
      refine hbox.allowed _ (List.mem_of_getElem? hl) b hb c ?_
      rw [hmem]
      exact List.mem_append_left _ (List.mem_append_right _ (List.mem_of_mem_drop hc))
  -- the lines that are left, with their visible texts
  obtain ⟨ps, hps⟩ : ∃ ps, ps = ((ts.zip us).drop k).take j0.lines.length := ⟨_, rfl⟩
  have hzl : (ts.zip us).length = ts.length := by rw [List.length_zip]; omega
  have hpslen : ps.length = j0.lines.length := by rw [hps]; simp only [List.length_take, List.length_drop, hzl]; omega
  have hps_get : ∀ (x : Nat) q, ps[x]? = some q → ts[k + x]? = some q.1 ∧ us[k + x]? = some q.2 ∧ Text q.1 q.2 ∧ ∀ c ∈ q.1, ¬ Forbidden db c := by
    intro x q hx
    have hlt := (List.getElem?_eq_some_iff.1 hx).1
    rw [hps, List.getElem?_take, if_pos (by omega), List.getElem?_drop, List.getElem?_zip_eq_some] at hx
    exact ⟨hx.1, hx.2, hus _ _ _ hx.1 hx.2, hchar _ (List.mem_of_getElem? hx.1)⟩
  have htexts : j0.lines.map Line.text = ps.map (fun q => fromUnicode db q.1) := by
    apply List.ext_getElem?
    intro x
    rw [List.getElem?_map, List.getElem?_map]
    by_cases hx : x < j0.lines.length
    · have hl := List.getElem?_eq_getElem hx
      have hq := List.getElem?_eq_getElem (l := ps) (i := x) (by omega)
      obtain ⟨t, l0, e1, -, e3⟩ := r6 x _ hl
      obtain ⟨e4, -⟩ := hps_get x _ hq
      rw [e1] at e4
      obtain rfl := Option.some.inj e4
      rw [hl, hq, e3]; rfl
    · rw [List.getElem?_eq_none_iff.2 (by omega), List.getElem?_eq_none_iff.2 (by omega)]; rfl
  have hps_mem : ∀ q ∈ ps, Text q.1 q.2 ∧ ∀ c ∈ q.2, ¬ Forbidden db c := by
    intro q hq
    obtain ⟨x, hx⟩ := List.getElem?_of_mem hq
    obtain ⟨-, -, e1, e2⟩ := hps_get x q hx
    exact ⟨e1, fun c hc => e2 c (text_mem e1 c hc)⟩
  obtain ⟨j1, s1, s2, s3⟩ : ∃ j1, applySubstitutions db d [] j0 = .ok j1 ∧ j1.lines = j0.lines ∧ j1.finalNewline = j0.finalNewline := by
    unfold applySubstitutions
    rw [substLines_nil, Res.ok_bind]
    by_cases hm : d.indentmode = 't'
    · rw [if_pos hm]
      obtain ⟨n, hn, -⟩ := getIndent_eq (lines := j0.lines) (ts := ps.map (fun q => (fromUnicode db q.1).getD emptyBxs)) (by
        unfold HasTexts
        rw [htexts, List.map_map]
        apply List.map_congr_left
        intro q hq
        obtain ⟨b, hb⟩ := analysed db (hps_mem q hq).1 (hps_mem q hq).2
        simp [hb])
      rw [hn, Res.ok_bind]
      exact ⟨_, rfl, rfl, rfl⟩
    · rw [if_neg hm]
      exact ⟨_, rfl, rfl, rfl⟩
  obtain ⟨j, out, o1, -, -, o4, o5, -, o7, o8⟩ := C68_printed db { opt with killblank := kb } false j1 ps ⟨by
      rw [s2, htexts], fun q hq => hps_mem q hq, fun hk => absurd hk htab.2, hts1⟩
  have o7 := o7 rfl
  refine ⟨j, out, k, k', ?_, by omega, by rw [o4, s3, r5], by omega, ?_, ?_, ?_, ?_⟩
  · unfold handleRemoveBox
    simp only [hkb]
    rw [← hkbd, r1, Res.ok_bind, s1, Res.ok_bind]
    have : decide (opt.mend > 0) = false := decide_eq_false (by omega)
    simp only [this]
    exact o1
  · intro h0
    have h1 : kb ≠ 0 := fun h => h0 (hkb0.1 h)
    rw [if_pos (.inl h1)] at r3
    simpa only [maxRemovable, h1, and_false, if_false] using r3
  · intro h0 h1
    have h2 := hkb0.2 h0
    rw [if_neg (by simp [h2, h1])] at r3
    exact r3
  · intro h0 h1
    have h2 := hkb0.2 h0
    rw [if_pos (.inr h1)] at r3
    have h3 : (opt.mend ≠ 0 ∧ kb = 0) := ⟨h1, h2⟩
    simpa only [maxRemovable, if_pos h3] using r3
  · intro x p hx
    have hlt : x < ps.length := by have := (List.getElem?_eq_some_iff.1 hx).1; omega
    have hu := List.getElem?_eq_getElem hlt
    obtain ⟨s, v, l, e1, -, e3, e4⟩ := o8 x _ hu
    obtain ⟨q, e5, e6⟩ := e4 rfl
    rw [hx] at e5
    obtain rfl := Option.some.inj e5
    obtain ⟨g1, g2, -⟩ := hps_get x _ hu
    refine ⟨_, _, s, v, _, g1, g2, e1, e3, rfl, e6.plain htab.1 htab.2, ?_⟩
    simp only [o7, s3, r5]

/-- the same with another minimum size, padding and indentation mode -/
theorem inColour_shape {db : CharDb} {d e e3 : Design} (hd : InColour db d e) (hs : e3.shape = e.shape) (hg : GoodDesign db e3) :
    InColour db { e3 with shape := d.shape } e3 where
  plain := by
    refine recognisable_shape hd.plain rfl ⟨hd.plain.ready.good.shapes, hd.plain.ready.good.corner, hd.plain.ready.good.north, hd.plain.ready.good.south, hd.plain.ready.good.west,
      hd.plain.ready.good.east, hd.plain.ready.good.top, hd.plain.ready.good.bottom, hd.plain.ready.good.left, hd.plain.ready.good.right, ?_, ?_⟩
    · have := hg.minwidth
      rw [hs, (hd.same.shapes NW).width, (hd.same.shapes NE).width] at this
      exact this
    · have := hg.minheight
      rw [hs, (hd.same.shapes NW).height, (hd.same.shapes SW).height] at this
      exact this
  same := ⟨by rw [hs]; exact hd.same.shapes, rfl, rfl, rfl, rfl⟩
  colour := by rw [hs]; exact hd.colour
  clean := by rw [hs]; exact hd.clean
  west := by rw [hs]; exact hd.west
  east := by rw [hs]; exact hd.east
  westAlike := by rw [hs]; exact hd.westAlike
  eastAlike := by rw [hs]; exact hd.eastAlike
  room := by rw [hs]; exact hd.room

/-- The rows `out` are a box in colour around the lines. -/
structure ColouredRowsOf (db : CharDb) (opt : Opt) (d0 d : Design) (lines : List (Str × Str)) (vis : Str → Str) (n above below w : Nat) (out : List (Bxs × Str)) : Prop where
  least : LeastIndent db (lines.map (fun p => vis p.1)) n
  room : opt.reqheight = 0 → wanted opt.padding.top d.padding.top ≤ above ∧ wanted opt.padding.bottom d.padding.bottom ≤ below
  rows : DrawnColoured db d0 d (if d.indentmode = 'b' then n else 0) (wanted opt.padding.left d.padding.left) w
    (innerPairs above below (if d.indentmode = 't' then 0 else n) (lines.map (fun p => (p.1, vis p.1)))) out
  pieces : ∀ q ∈ innerPairs above below (if d.indentmode = 't' then 0 else n) (lines.map (fun p => (p.1, vis p.1))), Piece db q
  ends : ∀ (x : Nat) p, out[x]? = some p →
    (EndsInBreak (lines.map (fun p => p.1 ++ p.2)) ∨ x + 1 ≠ out.length → p.2 = opt.eol) ∧
    (¬ EndsInBreak (lines.map (fun p => p.1 ++ p.2)) → x + 1 = out.length → p.2 = [])

theorem colouredRowsOf (db : CharDb) (hdb : Sane db) (hbr : BreaksSane db) (opt : Opt) (ho : PlainDrawing opt) (d0 d : Design) (hd : InColour db d0 d) (hroomy : Roomy d0) (junk : Nat)
    (lines : List (Str × Str)) (vis : Str → Str) (hl : ∀ p ∈ lines, ColouredLine db p.1 (vis p.1) ∧ LineEnd p.2) (hne : lines ≠ []) (fuel : Nat)
    {r : Res (List (Bxs × Str))} (h : drawOnce db opt d [] junk (lines.map (fun p => p.1 ++ p.2)) fuel = some r) :
    ∃ out n above below w, r = .ok out ∧ ColouredRowsOf db opt d0 d lines vis n above below w out := by
  obtain ⟨out, n, above, below, w, h1, h2, h3, h4, h5, h6⟩ := tinted_rows db hdb hbr opt ho d0 d hd hroomy junk lines vis hl hne fuel h
  exact ⟨out, n, above, below, w, h1, h2, h3, h4, h5, h6⟩

/-- from the rows of a box in colour back to the lines inside -/
theorem tinted_restored (db : CharDb) (hdb : Sane db) (hesc : db.ucBlank 0x1b = false) (hbr : BreaksSane db) (opt opt' : Opt) (ho : PlainDrawing opt) (ho' : PlainRemoving opt')
    (d0 d d' : Design) (hd0 : Restorable db d0) (hd : InColour db d0 d) (hd' : GoodDesign db d') (hshape : d'.shape = d.shape)
    (hpad : wanted opt'.padding.left d'.padding.left = wanted opt.padding.left d.padding.left)
    (hmode : d.indentmode = 'b' → opt'.indentmode = 'b' ∨ opt'.indentmode = '\x00') (junk' : Nat)
    (lines : List (Str × Str)) (vis : Str → Str) (hl : ∀ p ∈ lines, ColouredLine db p.1 (vis p.1) ∧ LineEnd p.2) (hne : lines ≠ [])
    {n above below w : Nat} {out : List (Bxs × Str)} (hbox : ColouredRowsOf db opt d0 d lines vis n above below w out) :
    RestoredRows db opt' d d' junk' lines vis n above below out := by
  obtain ⟨h2, hroom, h3, hpc, h4⟩ := hbox
  unfold RestoredRows
  refine ⟨_, _, rfl, rfl, by rw [h3.count, innerPairs_length]; simp; omega, fun hshort => ?_⟩
  obtain ⟨ts, hts⟩ : ∃ ts, ts = List.replicate above [] ++ lines.map (fun p => comesBack d.indentmode n p.1) ++ List.replicate below [] := ⟨_, rfl⟩
  obtain ⟨vs, hvs0⟩ : ∃ vs, vs = List.replicate above [] ++ lines.map (fun p => comesBack d.indentmode n (vis p.1)) ++ List.replicate below [] := ⟨_, rfl⟩
  obtain ⟨ind, hind⟩ : ∃ ind, ind = if d.indentmode = 'b' then n else 0 := ⟨_, rfl⟩
  obtain ⟨m, hm⟩ : ∃ m, m = if d.indentmode = 't' then 0 else n := ⟨_, rfl⟩
  obtain ⟨lp, hlp⟩ : ∃ lp, lp = wanted opt.padding.left d.padding.left := ⟨_, rfl⟩
  rw [← hts, ← hvs0]
  rw [← hind, ← hm, ← hlp] at h3
  rw [← hm] at hpc
  -- the texts between the sides
  obtain ⟨prs, hprs⟩ : ∃ prs, prs = List.replicate above ((([], []), ([], [])) : (Str × Str) × (Str × Str)) ++
    lines.map (fun p => ((p.1.drop m, (vis p.1).drop m), (comesBack d.indentmode n p.1, comesBack d.indentmode n (vis p.1)))) ++
    List.replicate below (([], []), ([], [])) := ⟨_, rfl⟩
  have hvs : innerPairs above below m (lines.map (fun p => (p.1, vis p.1))) = prs.map Prod.fst := by
    rw [hprs]; simp [innerPairs, Function.comp_def]
  rw [hvs] at h3 hpc
  have hts' : ts = prs.map (fun z => z.2.1) := by rw [hprs, hts]; simp [Function.comp_def]
  have hvs' : vs = prs.map (fun z => z.2.2) := by rw [hprs, hvs0]; simp [Function.comp_def]
  have hpr : ∀ z ∈ prs, Piece db z.1 ∧ ((z.1 = ([], []) ∧ z.2 = ([], [])) ∨
      (z.2.1 = spaces ind ++ z.1.1 ∧ z.2.2 = spaces ind ++ z.1.2 ∧ ∃ u c, z.1.2 = u ++ [c] ∧ ¬ Blank db c)) := by
    intro z hz
    refine ⟨hpc _ (List.mem_map.2 ⟨z, hz, rfl⟩), ?_⟩
    rw [hprs] at hz
    simp only [List.mem_append, List.mem_replicate, List.mem_map] at hz
    rcases hz with (⟨-, rfl⟩ | ⟨p, hp, rfl⟩) | ⟨-, rfl⟩
    · exact .inl ⟨rfl, rfl⟩
    · have hpl := (hl p hp).1
      by_cases h0 : p.1 = []
      · have hv0 : vis p.1 = [] := by have := hpl.text; rw [h0] at this ⊢; exact text_nil_inv this
        left
        simp only
        rw [hv0, h0]
        simp [comesBack]
      · right
        have hcols : 0 < columns db (vis p.1) := by
          rcases hpl.shows with h1 | h1
          · exact absurd h1 h0
          · exact seen_columns h1
        have hn := h2.le (vis p.1) (List.mem_map.2 ⟨p, hp, rfl⟩) hcols
        have hmn : m ≤ leadingBlanks db (vis p.1) := by rw [hm]; split <;> omega
        obtain ⟨f1, f2, -⟩ := coloured_parts hdb hpl h0 hmn
        obtain ⟨u, c, hu, hc⟩ := coloured_last hbr hpl h0
        have hback : ∀ x, x = spaces m ++ x.drop m → comesBack d.indentmode n x = spaces ind ++ x.drop m := by
          intro x hx
          by_cases hb : d.indentmode = 'b'
          · have e1 : m = n := by rw [hm, if_neg (by rw [hb]; decide)]
            have e2 : ind = n := by rw [hind, if_pos hb]
            simp only [comesBack, hb, true_or, if_true]
            rw [e2, ← e1]; exact hx
          · have e2 : ind = 0 := by rw [hind, if_neg hb]
            by_cases ht : d.indentmode = 't'
            · have e1 : m = 0 := by rw [hm, if_pos ht]
              simp only [comesBack, ht, or_true, if_true]
              rw [e1, e2]; rfl
            · have e1 : m = n := by rw [hm, if_neg ht]
              simp only [comesBack, hb, ht, or_self, if_false]
              rw [e1, e2]; rfl
        refine ⟨hback _ f1, hback _ f2, u.drop m, c, ?_, hc⟩
        obtain ⟨c0, hc0, -⟩ := leading_first db (v := vis p.1) ⟨c, by rw [hu]; simp, hc⟩
        have hlt := (List.getElem?_eq_some_iff.1 hc0).1
        simp only
        rw [hu, List.drop_append_of_le_length]
        rw [hu] at hlt hmn
        simp at hlt; omega
    · exact .inl ⟨rfl, rfl⟩
  -- reading
  have heol : opt.eol ≠ [] := by rcases ho.eol with e | e <;> simp [e]
  obtain ⟨raw, i, i1, i2, i3, i4, -, -, i6⟩ := tinted_reread hdb ho'.removes ho'.tabstop junk' d' hd0 hd h3 hpc (by
      intro p hp
      obtain ⟨x, hx⟩ := List.getElem?_of_mem hp
      obtain ⟨g1, g2⟩ := h4 x p hx
      by_cases hb : EndsInBreak (lines.map (fun p => p.1 ++ p.2)) ∨ x + 1 ≠ out.length
      · rw [g1 hb]; exact .inr ho.eol
      · have hb1 := fun h => hb (.inl h)
        have hb2 : x + 1 = out.length := Classical.byContradiction fun h => hb (.inr h)
        exact .inl (g2 hb1 hb2)) hshort
  obtain ⟨p1, p2, p3, -⟩ := C21_padding opt' d' i
  have hpt : opt'.reqheight = 0 → (adjustSizeAndPadding opt' d' i).padding.top = wanted opt'.padding.top d'.padding.top ∧
      (adjustSizeAndPadding opt' d' i).padding.bottom = wanted opt'.padding.bottom d'.padding.bottom := by
    intro h0
    by_cases h1 : i.lines.length + ((d'.shape NW).height + (d'.shape SW).height) + (wanted opt'.padding.top d'.padding.top + wanted opt'.padding.bottom d'.padding.bottom) ≤ d'.minheight ∨
        wanted opt'.padding.top d'.padding.top + wanted opt'.padding.bottom d'.padding.bottom = 0
    · exact ⟨(p1.enough h1).1, (p1.enough h1).2.1⟩
    · have := p1.grow (by omega) (by omega) (by simp [h0])
      exact ⟨this.1, this.2.1⟩
  have hlpad : (adjustSizeAndPadding opt' d' i).padding.left = lp := by
    rw [hlp, ← hpad]
    by_cases h1 : i.maxline + ((d'.shape NW).width + (d'.shape NE).width) + (wanted opt'.padding.left d'.padding.left + wanted opt'.padding.right d'.padding.right) ≤ d'.minwidth ∨
        wanted opt'.padding.left d'.padding.left + wanted opt'.padding.right d'.padding.right = 0
    · exact (p2.enough h1).1
    · exact (p2.grow (by omega) (by omega) (by have := ho'.reqwidth; simp [this])).1
  have hshape3 : (adjustSizeAndPadding opt' d' i).shape = d.shape := p3.trans hshape
  have hbox := i6 { adjustSizeAndPadding opt' d' i with shape := d0.shape } (adjustSizeAndPadding opt' d' i) rfl hshape3 hlpad
  have hR : restored opt' i.indent = ind := by
    rw [i3]
    unfold restored
    by_cases hb : d.indentmode = 'b'
    · rw [if_pos (hmode hb)]
    · rw [hind, if_neg hb]; split <;> rfl
  obtain ⟨j, back, k, k', b1, bl, bf, b2, b3, b4, b5, b6⟩ := C83_printed db hdb hesc opt' ho'.tabs ho'.tabstop ho'.mend _ _
    (inColour_shape hd hshape3 (C20_adjusted_design db opt' d' hd' i).2) i ind _
    (prs.map (fun z => spaces ind ++ z.1.1 ++ spaces (w - columns db z.1.2))) (prs.map (fun z => spaces ind ++ z.1.2 ++ spaces (w - columns db z.1.2))) hbox (by
      rw [List.map_map, List.map_map]
      apply List.map_congr_left
      intro z hz
      simp only [Function.comp]
      rw [hR, hlpad, List.append_assoc (spaces lp), List.drop_append_of_le_length (by simp [spaces])]
      simp [spaces]) (by simp) (by
      intro x t u ht hu
      rw [List.getElem?_map] at ht hu
      cases hz : prs[x]? with
      | none => rw [hz] at ht; simp at ht
      | some z =>
        rw [hz] at ht hu
        obtain rfl := Option.some.inj ht
        obtain rfl := Option.some.inj hu
        exact ((Text.plain (spaces_ne _)).append (hpr z (List.mem_of_getElem? hz)).1.text).append (Text.plain (spaces_ne _)))
  have hlen : (prs.map (fun z => spaces ind ++ z.1.2 ++ spaces (w - columns db z.1.2))).length = vs.length := by rw [hvs']; simp
  have hlents : ts.length = vs.length := by rw [hts', hvs']; simp
  have hblank : ∀ z ∈ prs, BlankText db (spaces ind ++ z.1.2 ++ spaces (w - columns db z.1.2)) ↔ BlankText db z.2.2 := by
    intro z hz
    obtain ⟨hpz, h0⟩ := hpr z hz
    rcases h0 with ⟨e1, e2⟩ | ⟨-, e1, u, c, e2, e3⟩
    · rw [e1, e2]
      refine ⟨fun _ => by intro c hc; simp at hc, fun _ => ?_⟩
      intro c hc
      simp only [List.append_nil, List.mem_append] at hc
      exact .inl (hc.elim (spaces_blank hdb _ c) (spaces_blank hdb _ c))
    · have hcc := (hpz.chars c (text_mem hpz.text c (by rw [e2]; simp))).2.2.1
      constructor
      · intro hb
        rcases hb c (by rw [e2]; simp) with h | h
        · exact absurd h e3
        · exact absurd h hcc
      · intro hb
        rcases hb c (by rw [e1, e2]; simp) with h | h
        · exact absurd h e3
        · exact absurd h hcc
  have hcongr : ∀ (x : Nat) a b, (prs.map (fun z => spaces ind ++ z.1.2 ++ spaces (w - columns db z.1.2)))[x]? = some a → vs[x]? = some b →
      (BlankText db a ↔ BlankText db b) := by
    intro x a b ha hb
    rw [hvs', List.getElem?_map] at hb
    rw [List.getElem?_map] at ha
    cases hq : prs[x]? with
    | none => rw [hq] at ha; simp at ha
    | some q =>
      rw [hq] at ha hb
      obtain rfl := Option.some.inj ha
      obtain rfl := Option.some.inj hb
      exact hblank q (List.mem_of_getElem? hq)
  have hlast : i.finalNewline = true ↔ EndsInBreak (lines.map (fun p => p.1 ++ p.2)) := by
    rw [i4]
    have hne' : out ≠ [] := by
      intro h0
      have := h3.count
      have hp : 0 < (d.shape NE).height := (hd.ready.good.corner NE (by simp)).2.2
      rw [h0] at this; simp at this; omega
    have hlt : out.length - 1 < out.length := by have := List.length_pos_iff.2 hne'; omega
    have hg := List.getElem?_eq_getElem hlt
    rw [List.getLast?_eq_getElem?, hg]
    obtain ⟨f1, f2⟩ := h4 _ _ hg
    constructor
    · rintro ⟨p, hp, hp2⟩
      obtain rfl := Option.some.inj hp
      exact Classical.byContradiction fun hb => hp2 (f2 hb (by omega))
    · intro hb
      exact ⟨_, rfl, by rw [f1 (.inl hb)]; exact heol⟩
  have hcongr2 : ∀ (x : Nat) a b, ((prs.map (fun z => spaces ind ++ z.1.2 ++ spaces (w - columns db z.1.2))).drop k).reverse[x]? = some a →
      (vs.drop k).reverse[x]? = some b → (BlankText db a ↔ BlankText db b) := by
    intro x a b ha hb
    have hx := (List.getElem?_eq_some_iff.1 ha).1
    have hx' := (List.getElem?_eq_some_iff.1 hb).1
    rw [List.length_reverse] at hx hx'
    rw [List.getElem?_reverse hx, List.getElem?_drop] at ha
    rw [List.getElem?_reverse hx', List.getElem?_drop] at hb
    simp only [List.length_drop] at ha hb
    rw [hlen] at ha
    exact hcongr _ a b ha hb
  have hlen2 : ((prs.map (fun z => spaces ind ++ z.1.2 ++ spaces (w - columns db z.1.2))).drop k).reverse.length = (vs.drop k).reverse.length := by
    rw [List.length_reverse, List.length_reverse, List.length_drop, List.length_drop, hlen]
  have hline : ∀ (x : Nat) p, back[x]? = some p → ∃ t e l, ts[k + x]? = some t ∧ p.1 = t ++ spaces e ∧ (t ≠ [] → e = 0) ∧
      j.lines[x]? = some l ∧ l.text = fromUnicode db p.1 ∧ p.2 = (if x + 1 = back.length ∧ i.finalNewline = false then [] else opt'.eol) := by
    intro x p hx
    obtain ⟨t', u', s, v, l, g1, g2, g3, g4, g5, g6, g7⟩ := b6 x p hx
    rw [List.getElem?_map] at g1 g2
    cases hz : prs[k + x]? with
    | none => rw [hz] at g1; simp at g1
    | some z =>
      rw [hz] at g1 g2
      obtain rfl := Option.some.inj g1
      obtain rfl := Option.some.inj g2
      obtain ⟨hpz, h0⟩ := hpr z (List.mem_of_getElem? hz)
      simp only at g3
      have htx : ts[k + x]? = some z.2.1 := by rw [hts', List.getElem?_map, hz]; rfl
      rcases h0 with ⟨e1, e2⟩ | ⟨e1, e2, u, c, e3, e4⟩
      · rw [e1] at g3
        simp only [List.append_nil] at g3
        rw [spaces_append] at g3
        have hq := printed_same (spaces_ne _) g3 g6
        have hs := (printed_plain (spaces_ne _) g3 g6).1 (spaces_blank hdb _)
        refine ⟨z.2.1, ind + (w - columns db []), l, htx, ?_, fun h => absurd (by rw [e2]) h, g4, by rw [g5, hq], g7⟩
        rw [hs, e2]; rfl
      · have hA : Text z.2.1 z.2.2 := by rw [e1, e2]; exact (Text.plain (spaces_ne _)).append hpz.text
        rw [← e1, ← e2] at g3
        obtain ⟨q1, q2⟩ := coloured_printed hdb hA (by rw [e1]; exact frontKept_indent hpz.front) (by rw [e1]; exact backKept_prefix (spaces_ne _) hpz.back)
          ⟨spaces ind ++ u, c, by rw [e2, e3]; simp, e4⟩ g3 g6
        exact ⟨z.2.1, 0, l, htx, by rw [q2]; simp [spaces], fun _ => rfl, g4, by rw [g5, q1, q2], g7⟩
  refine ⟨raw, i, j, back, k, k', i1, i2, b1, ⟨bl, fun x p hx => ?_⟩, by rw [bf]; exact hlast, by rw [hlents, ← hlen]; simpa using b2, ?_, b4, ?_, ?_⟩
  · obtain ⟨t, e, l, -, -, -, h1, h2, -⟩ := hline x p hx
    exact ⟨l, h1, h2⟩
  · intro h0
    obtain ⟨d1, d2⟩ := b3 h0
    exact ⟨blankLinesDropped_congr hlen hcongr d1, blankLinesDropped_congr hlen2 hcongr2 d2⟩
  · intro h0 h1 h2
    obtain ⟨d1, d2⟩ := b5 h0 h1
    rw [(hpt h2).1] at d1
    rw [(hpt h2).2] at d2
    exact ⟨blankLinesDropped_congr hlen hcongr d1, blankLinesDropped_congr hlen2 hcongr2 d2⟩
  · intro x p hx
    obtain ⟨t, e, l, g1, g2, g3, -, -, g4⟩ := hline x p hx
    refine ⟨t, e, g1, g2, g3, ?_⟩
    rw [g4]
    constructor
    · intro h1 h2
      rw [if_pos ⟨h1, by cases hf : i.finalNewline with | false => rfl | true => exact absurd (hlast.1 hf) h2⟩]
    · intro h1
      refine if_neg ?_
      rintro ⟨h2, h3⟩
      rcases h1 with h1 | h1
      · exact h1 h2
      · rw [hlast.2 h1] at h3; simp at h3
/-- C84: a box is drawn with a design in colour around text parts of which may be in colour, the printed lines (with all escape sequences) are read again, and the box is
removed (the two runs may use different options, and the prepared design may differ in minimum size and indentation mode).  Both runs succeed.  Of the text (with
the empty lines that the design adds above and below) blank lines are dropped at the beginning and at the end if that was asked for.  Every line that is printed is the
original line with all its escape sequences (without the common indentation if it was dropped when drawing); an empty line may come back as a line of
blanks.  Nothing of the colours of the box is left. -/
theorem C84_restored (db : CharDb) (hdb : Sane db) (hesc : db.ucBlank 0x1b = false) (hbr : BreaksSane db) (opt opt' : Opt) (ho : PlainDrawing opt) (ho' : PlainRemoving opt')
    (d0 d d' : Design) (hd0 : Restorable db d0) (hd : InColour db d0 d) (hd' : GoodDesign db d') (hshape : d'.shape = d.shape)
    (hpad : wanted opt'.padding.left d'.padding.left = wanted opt.padding.left d.padding.left)
    (hmode : d.indentmode = 'b' → opt'.indentmode = 'b' ∨ opt'.indentmode = '\x00') (junk junk' : Nat)
    (lines : List (Str × Str)) (vis : Str → Str) (hl : ∀ p ∈ lines, ColouredLine db p.1 (vis p.1) ∧ LineEnd p.2) (hne : lines ≠ []) (fuel : Nat)
    {r : Res (List (Bxs × Str))} (h : drawOnce db opt d [] junk (lines.map (fun p => p.1 ++ p.2)) fuel = some r) :
    ∃ out n above below ts vs, r = .ok out ∧ LeastIndent db (lines.map (fun p => vis p.1)) n ∧
      ts = List.replicate above [] ++ lines.map (fun p => comesBack d.indentmode n p.1) ++ List.replicate below [] ∧
      vs = List.replicate above [] ++ lines.map (fun p => comesBack d.indentmode n (vis p.1)) ++ List.replicate below [] ∧
      out.length = (d.shape NE).height + ts.length + (d.shape SE).height ∧
      (opt.reqheight = 0 → wanted opt.padding.top d.padding.top ≤ above ∧ wanted opt.padding.bottom d.padding.bottom ≤ below) ∧
      ((∀ p ∈ out, p.1.memory.length < 16370) → ∃ raw i j back k k',
        readAllInput db opt' junk' (out.map (fun p => p.1.memory ++ p.2)) = .ok raw ∧ analyzeInput db opt' d' [] raw = .ok i ∧
        handleRemoveBox db opt' (adjustSizeAndPadding opt' d' i) [] i = .ok (j, back) ∧ LeftTexts db j back ∧
        (j.finalNewline = true ↔ EndsInBreak (lines.map (fun p => p.1 ++ p.2))) ∧ k + back.length + k' = ts.length ∧
        (opt'.killblank ≠ 0 → BlankLinesDropped db none vs k ∧ BlankLinesDropped db none (vs.drop k).reverse k') ∧
        (opt'.killblank = 0 → opt'.mend = 0 → k = 0 ∧ k' = 0) ∧
        (opt'.killblank = 0 → opt'.mend ≠ 0 → opt'.reqheight = 0 → BlankLinesDropped db (some (wanted opt'.padding.top d'.padding.top)) vs k ∧
          BlankLinesDropped db (some (wanted opt'.padding.bottom d'.padding.bottom)) (vs.drop k).reverse k') ∧
        ∀ (x : Nat) p, back[x]? = some p → ∃ t e, ts[k + x]? = some t ∧ p.1 = t ++ spaces e ∧ (t ≠ [] → e = 0) ∧
          (x + 1 = back.length → ¬ EndsInBreak (lines.map (fun p => p.1 ++ p.2)) → p.2 = []) ∧
          (x + 1 ≠ back.length ∨ EndsInBreak (lines.map (fun p => p.1 ++ p.2)) → p.2 = opt'.eol)) := by
  obtain ⟨out, n, above, below, w, h1, h2⟩ := colouredRowsOf db hdb hbr opt ho d0 d hd hd0.roomy junk lines vis hl hne fuel h
  obtain ⟨ts, vs, e1, e2, e3, e4⟩ := tinted_restored db hdb hesc hbr opt opt' ho ho' d0 d d' hd0 hd hd' hshape hpad hmode junk' lines vis hl hne h2
  exact ⟨out, n, above, below, ts, vs, h1, h2.least, e1, e2, e3, h2.room, e4⟩
/-- C84: unless the user asked to keep blank lines, exactly the lines of the text come back if its first and last line are not empty. -/
theorem C84_lines (db : CharDb) (hdb : Sane db) (hesc : db.ucBlank 0x1b = false) (hbr : BreaksSane db) (opt opt' : Opt) (ho : PlainDrawing opt) (ho' : PlainRemoving opt')
    (d0 d d' : Design) (hd0 : Restorable db d0) (hd : InColour db d0 d) (hd' : GoodDesign db d') (hshape : d'.shape = d.shape)
    (hpad : wanted opt'.padding.left d'.padding.left = wanted opt.padding.left d.padding.left)
    (hmode : d.indentmode = 'b' → opt'.indentmode = 'b' ∨ opt'.indentmode = '\x00') (hkill : opt'.killblank ≠ 0) (junk junk' : Nat)
    (lines : List (Str × Str)) (vis : Str → Str) (hl : ∀ p ∈ lines, ColouredLine db p.1 (vis p.1) ∧ LineEnd p.2) (hne : lines ≠ [])
    (hfirst : ∀ p, lines[0]? = some p → p.1 ≠ []) (hlast : ∀ p, lines.getLast? = some p → p.1 ≠ []) (fuel : Nat)
    {r : Res (List (Bxs × Str))} (h : drawOnce db opt d [] junk (lines.map (fun p => p.1 ++ p.2)) fuel = some r) :
    ∃ out n, r = .ok out ∧ LeastIndent db (lines.map (fun p => vis p.1)) n ∧
      ((∀ p ∈ out, p.1.memory.length < 16370) → ∃ raw i j back,
        readAllInput db opt' junk' (out.map (fun p => p.1.memory ++ p.2)) = .ok raw ∧ analyzeInput db opt' d' [] raw = .ok i ∧
        handleRemoveBox db opt' (adjustSizeAndPadding opt' d' i) [] i = .ok (j, back) ∧ LeftTexts db j back ∧
        (j.finalNewline = true ↔ EndsInBreak (lines.map (fun p => p.1 ++ p.2))) ∧ back.length = lines.length ∧
        ∀ (x : Nat) q, lines[x]? = some q → ∃ p e, back[x]? = some p ∧ p.1 = comesBack d.indentmode n q.1 ++ spaces e ∧ (q.1 ≠ [] → e = 0) ∧
          (x + 1 = lines.length → q.2 = [] → p.2 = []) ∧ (x + 1 ≠ lines.length ∨ q.2 ≠ [] → p.2 = opt'.eol)) := by
  obtain ⟨out, n, above, below, w, h1, h2⟩ := colouredRowsOf db hdb hbr opt ho d0 d hd hd0.roomy junk lines vis hl hne fuel h
  exact ⟨out, n, h1, h2.least, fun hshort =>
    lines_back_of db hdb hbr opt opt' d d' junk' lines vis hl hne hfirst hlast h2.least h2.room
      (tinted_restored db hdb hesc hbr opt opt' ho ho' d0 d d' hd0 hd hd' hshape hpad hmode junk' lines vis hl hne h2) hshort (.inl hkill)⟩

/-- C84: drawing a box in colour and removing it again prints exactly the text, with all its escape sequences and none of those of the box. -/
theorem C84_identity (db : CharDb) (hdb : Sane db) (hesc : db.ucBlank 0x1b = false) (hbr : BreaksSane db) (opt opt' : Opt) (ho : PlainDrawing opt) (ho' : PlainRemoving opt')
    (d0 d d' : Design) (hd0 : Restorable db d0) (hd : InColour db d0 d) (hd' : GoodDesign db d') (hshape : d'.shape = d.shape)
    (hpad : wanted opt'.padding.left d'.padding.left = wanted opt.padding.left d.padding.left)
    (hmode : d.indentmode = 't' ∨ (d.indentmode = 'b' ∧ (opt'.indentmode = 'b' ∨ opt'.indentmode = '\x00'))) (hkill : opt'.killblank ≠ 0) (junk junk' : Nat)
    (lines : List (Str × Str)) (hl : ∀ p ∈ lines, (∃ v, ColouredLine db p.1 v) ∧ p.1 ≠ []) (hne : lines ≠ [])
    (hterm : ∀ (x : Nat) p, lines[x]? = some p → p.2 = opt'.eol ∨ (x + 1 = lines.length ∧ p.2 = [])) (heol : opt'.eol = [0x0a] ∨ opt'.eol = [0x0d, 0x0a])
    (fuel : Nat) {r : Res (List (Bxs × Str))} (h : drawOnce db opt d [] junk (lines.map (fun p => p.1 ++ p.2)) fuel = some r) :
    ∃ out, r = .ok out ∧ ((∀ p ∈ out, p.1.memory.length < 16370) → ∃ raw i j,
        readAllInput db opt' junk' (out.map (fun p => p.1.memory ++ p.2)) = .ok raw ∧ analyzeInput db opt' d' [] raw = .ok i ∧
        handleRemoveBox db opt' (adjustSizeAndPadding opt' d' i) [] i = .ok (j, lines) ∧ LeftTexts db j lines ∧
        (j.finalNewline = true ↔ EndsInBreak (lines.map (fun p => p.1 ++ p.2)))) := by
  have hmem : ∀ p ∈ lines, p.2 = opt'.eol ∨ p.2 = [] := by
    intro p hp
    obtain ⟨x, hx⟩ := List.getElem?_of_mem hp
    exact (hterm x p hx).imp id And.right
  obtain ⟨vis, hvis⟩ : ∃ vis : Str → Str, ∀ p ∈ lines, ColouredLine db p.1 (vis p.1) := by
    classical
    refine ⟨fun s => if h : ∃ v, ColouredLine db s v then h.choose else [], fun p hp => ?_⟩
    simp only [dif_pos (hl p hp).1]
    exact (hl p hp).1.choose_spec
  obtain ⟨out, n, above, below, w, h1, h2⟩ := colouredRowsOf db hdb hbr opt ho d0 d hd hd0.roomy junk lines vis
    (by
      intro p hp
      refine ⟨hvis p hp, ?_⟩
      rcases hmem p hp with h | h
      · rw [h]; exact .inr heol
      · exact .inl h) hne fuel h
  exact ⟨out, h1, identity_of db hdb hbr opt opt' d d' junk' hmode hkill lines vis (fun p hp => ⟨hvis p hp, (hl p hp).2⟩) hne hterm heol h2.least h2.room
    (tinted_restored db hdb hesc hbr opt opt' ho ho' d0 d d' hd0 hd hd' hshape hpad (fun hb => by rcases hmode with h | h; (rw [h] at hb; simp at hb); exact h.2) junk' lines vis
      (fun p hp => ⟨hvis p hp, by
        rcases hmem p hp with h | h
        · rw [h]; exact .inr heol
        · exact .inl h⟩) hne h2)⟩

theorem inColour_prepared {db : CharDb} (hdb : Sane db) (opt : Opt) {d0 d : Design} (hd0 : Restorable db d0) (hd : InColour db d0 d) :
    InColour db (prepareDesign opt d0) (prepareDesign opt d) := by
  obtain ⟨h1, -, -, -⟩ := prepareDesign_fields opt d
  refine ⟨(restorable_prepared opt hd0).recognisable, prepare_same (opt := opt) hdb hd.plain.ready hd.same, ?_, ?_, ?_, ?_, ?_, ?_, ?_⟩
  · rw [h1]; exact hd.colour
  · rw [h1]; exact hd.clean
  · rw [h1]; exact hd.west
  · rw [h1]; exact hd.east
  · rw [h1]; exact hd.westAlike
  · rw [h1]; exact hd.eastAlike
  · rw [h1]; exact hd.room

/-- the second run, which reads the rows of a box in colour -/
theorem second_run_colour (s' : Setup) (hdb : Sane s'.db) (hesc : s'.db.ucBlank 0x1b = false) (hbr : BreaksSane s'.db) (opt opt' : Opt) (ho : PlainDrawing opt)
    (ho' : PlainRemoving opt') (d0 d : Design) (ds' : List Design) (hd0 : Restorable s'.db d0) (hd : InColour s'.db d0 d)
    (hpad : wanted opt'.padding.left d.padding.left = wanted opt.padding.left d.padding.left)
    (mode : Char) (hmode : mode = if opt.indentmode = '\x00' then d.indentmode else opt.indentmode)
    (hmode' : mode = 't' ∨ (mode = 'b' ∧ (opt'.indentmode = 'b' ∨ opt'.indentmode = '\x00'))) (hkill : opt'.killblank ≠ 0)
    (hrev : s'.revRules 0 = []) (hu : s'.byUser = true)
    (lines : List (Str × Str)) (vis : Str → Str) (hl : ∀ p ∈ lines, ColouredLine s'.db p.1 (vis p.1) ∧ p.1 ≠ []) (hne : lines ≠ [])
    (hterm : ∀ (x : Nat) p, lines[x]? = some p → p.2 = opt'.eol ∨ (x + 1 = lines.length ∧ p.2 = [])) (heol : opt'.eol = [0x0a] ∨ opt'.eol = [0x0d, 0x0a])
    (n' : Nat) {n above below w : Nat} {out : List (Bxs × Str)} (hbox : ColouredRowsOf s'.db opt (prepareDesign opt d0) (prepareDesign opt d) lines vis n above below w out)
    (hshort : ∀ p ∈ out, p.1.memory.length < 16370) (hp : s'.pieces = out.map (fun p => p.1.memory ++ p.2)) :
    runProgram s' opt' (d :: ds') (n' + 1) = some (.ok [.read, .removed lines]) := by
  obtain ⟨f1, f2, -, f4⟩ := prepareDesign_fields opt d
  obtain ⟨g1, g2, -, -⟩ := prepareDesign_fields opt' d
  have hk1 : killblankDefault opt'.killblank d ≠ 0 := by
    unfold killblankDefault
    have hside := (recoloured_sides hdb hd.plain.ready hd.ready hd.same).trans (side_seen hdb hd.plain)
    split
    · rw [if_neg]
      · decide
      · intro h
        have := congrArg Sides.top hside
        simp only [determineEmptySides] at this
        rw [h.1] at this; simp at this
    · exact hkill
  have hmend' := ho'.mend
  have hd1 := inColour_prepared hdb opt hd0 hd
  have hrest := tinted_restored s'.db hdb hesc hbr opt { opt' with mend := opt'.mend - 1, killblank := killblankDefault opt'.killblank d } ho
    ⟨ho'.removes, ho'.tabs, ho'.reqwidth, ho'.tabstop, by simp only; omega⟩ (prepareDesign opt d0) (prepareDesign opt d) (prepareDesign opt' d) (restorable_prepared opt hd0) hd1
    (inColour_prepared hdb opt' hd0 hd).ready.good (g1.trans f1.symm) (by rw [g2, f2]; exact hpad) (by
      intro hb
      rw [f4, ← hmode] at hb
      rcases hmode' with h | h
      · rw [h] at hb; simp at hb
      · exact h.2) s'.junk lines vis (fun p hp => ⟨(hl p hp).1, lineEnds hterm heol p hp⟩) hne hbox
  obtain ⟨raw, i, j, j1, j2, j3, -⟩ := identity_of s'.db hdb hbr opt { opt' with mend := opt'.mend - 1, killblank := killblankDefault opt'.killblank d }
    (prepareDesign opt d) (prepareDesign opt' d) s'.junk (by rw [f4, ← hmode]; exact hmode') hk1 lines vis hl hne hterm heol hbox.least hbox.room hrest hshort
  have hlen : 0 < out.length := by
    rw [hbox.rows.count]
    have : 0 < ((prepareDesign opt d).shape NE).height := (hd1.ready.good.corner NE (by simp)).2.2
    omega
  rw [← hp] at j1
  refine run_removed s' opt' ho'.mend ho'.removes hu hrev d ds' n' rfl j1 j2 ?_ j3
  intro h0
  have e1 := readAll_count j1
  rw [← analyze_removing ho'.removes j2, h0, hp] at e1
  simp at e1
  omega
/-- rows are read as they were printed -/
theorem rows_readIn {db : CharDb} {opt : Opt} (heol : opt.eol = [0x0a] ∨ opt.eol = [0x0d, 0x0a]) {P : Prop} {ind : Nat} {o : List (Bxs × Str)}
    (hpr : ∀ p ∈ o, ∃ v, PrintedRow db ind p.1.memory v)
    (hends : ∀ (x : Nat) p, o[x]? = some p → (P ∨ x + 1 ≠ o.length → p.2 = opt.eol) ∧ (¬ P → x + 1 = o.length → p.2 = [])) :
    ReadInLines (o.map (fun p => p.1.memory ++ p.2)).flatten (o.map (fun p => p.1.memory ++ p.2)) := by
  have := readInLines_rows (rows := o.map (fun p => (p.1.memory, p.2))) (by
    intro q hq
    obtain ⟨p, hp, rfl⟩ := List.mem_map.1 hq
    obtain ⟨v, hv⟩ := hpr p hp
    refine ⟨fun hc => (hv.chars _ hc).2.1 rfl, ?_, ?_⟩
    · obtain ⟨z, hz, -⟩ := hv.seen
      have := text_mem hv.text z hz
      intro h0
      simp only at h0
      rw [h0] at this; simp at this
    · obtain ⟨x, hx⟩ := List.getElem?_of_mem hp
      obtain ⟨g1, g2⟩ := hends x p hx
      by_cases hbr : P ∨ x + 1 ≠ o.length
      · simp only; rw [g1 hbr]; exact .inr heol
      · exact .inl (g2 (fun h => hbr (.inl h)) (Classical.byContradiction fun h => hbr (.inr h)))) (by
    intro x q hx hq
    rw [List.getElem?_map] at hq
    cases hp : o[x]? with
    | none => rw [hp] at hq; simp at hq
    | some p =>
      rw [hp] at hq
      obtain rfl := Option.some.inj hq
      simp only
      rw [(hends x p hp).1 (.inr (by simp at hx; omega))]
      rcases heol with e | e <;> simp [e])
  simpa [List.map_map, Function.comp_def] using this

/-- C84, for the complete program (`boxes -d X | boxes -d X -r`, where X is a design in colour): the program is run with a design chosen by name on lines that may be in colour;
it is run again, with the same options and -r, and reads what the first run printed, from wherever it was printed to.  The second run prints exactly what the first
one read if escape sequences are output, and the same lines without their escape sequences if they are not. -/
theorem C84_pipeline (m : Machine) (hdb : Sane m.db) (hesc : m.db.ucBlank 0x1b = false) (hbr : BreaksSane m.db) (c : CommandLine) (hc : DrawsWith c) (fuel : Nat) {a : Args}
    (hopts : optionLoop c.options createNewOpt = some (a, false)) (hfiles : UsableFiles m.canRead m.canWrite c.files)
    (htab : a.opt.tabexp ≠ 'u' ∧ a.opt.tabexp ≠ 'k') (heol : a.opt.eol = [0x0a] ∨ a.opt.eol = [0x0d, 0x0a]) (hkill : a.opt.killblank ≠ 0)
    {file : Bxs} {d : DesignDef} {ds : List DesignDef} {ps : List Bxs} (h : Loaded m a fuel file d ds ps) (d0 : Design) (hd0 : Restorable m.db d0) (hd : InColour m.db d0 d.core)
    (hrules : d.reprules = []) (hrev : d.revrules = [])
    (mode : Char) (hmode : mode = if a.opt.indentmode = '\x00' then d.core.indentmode else a.opt.indentmode) (hmode' : mode = 't' ∨ mode = 'b')
    (lines : List (Str × Str)) (vis : Str → Str) (hl : ∀ p ∈ lines, ColouredLine m.db p.1 (vis p.1) ∧ p.1 ≠ []) (hne : lines ≠ [])
    (hterm : ∀ (x : Nat) p, lines[x]? = some p → p.2 = a.opt.eol ∨ (x + 1 = lines.length ∧ p.2 = []))
    (hpieces : m.input (named c.files 0) = lines.map (fun p => p.1 ++ p.2))
    {r : Res Outcome} (hrun : wholeProgram m c fuel = some r) :
    ∃ text, r = .ok (.output (named c.files 1) text) ∧ ∀ (c' : CommandLine) (input' : Option Str → List Str), c'.first ≠ some (lit "-?") →
      c'.options = c.options ++ [.remove] → UsableFiles m.canRead m.canWrite c'.files →
      ReadInLines text (input' (named c'.files 0)) → (∀ p ∈ input' (named c'.files 0), p.length < 16370) →
      wholeProgram { m with input := input' } c' fuel = some (.ok (.output (named c'.files 1)
        (lines.map (fun p => (if colours c.options m.terminalColors then p.1 else vis p.1) ++ p.2)).flatten)) := by
  have hl' : ∀ p ∈ lines, ColouredLine m.db p.1 (vis p.1) ∧ LineEnd p.2 := fun p hp => ⟨(hl p hp).1, lineEnds hterm heol p hp⟩
  obtain ⟨ho, hm, hh, hqn, hln, hu, hdes⟩ := draws_opts hc hopts htab heol
  have e := whole_run m c fuel hc.first hopts hfiles hc.create hqn hln h
  rw [e] at hrun
  cases fuel with
  | zero => simp [runProgram, mainLoop] at hrun
  | succ n =>
  cases hev : runProgram (setupOf m a (m.input (named c.files 0)) (d :: ds) (n + 1)) a.opt (d.core :: ds.map (·.core)) (n + 1) with
  | none => rw [hev] at hrun; simp at hrun
  | some res =>
  obtain ⟨r', k1, k2⟩ := run_drawn _ a.opt (by rw [hm]; decide) ho.draws d.core (ds.map (·.core)) n hev
  have k1' : drawOnce m.db a.opt (prepareDesign a.opt d.core) [] m.junk (lines.map (fun p => p.1 ++ p.2)) (n + 1) = some r' := by
    rw [← k1, ← hpieces]
    show _ = drawOnce m.db a.opt (prepareDesign a.opt d.core) (rulesOf m (fun d => d.reprules) (d :: ds) 0) m.junk _ (n + 1)
    simp only [rulesOf, List.getElem?_cons_zero, hrules, List.map_nil]
    rfl
  have hd1 := inColour_prepared hdb a.opt hd0 hd
  have hd01 := restorable_prepared a.opt hd0
  obtain ⟨out, n1, above, below, w, rfl, hbox⟩ := colouredRowsOf m.db hdb hbr a.opt ho _ _ hd1 hd01.roomy m.junk lines vis hl' hne (n + 1) k1'
  -- the same box without colours
  obtain ⟨out1, plain, w1, w2, w3, w4⟩ := C82_drawn m.db hdb a.opt ho.draws ho.tabstop (prepareDesign a.opt d.core) (prepareDesign a.opt d0) hd1.ready (recoloured_symm hd1.same) m.junk _ (by
      intro s hs
      obtain ⟨p, hp, rfl⟩ := List.mem_map.1 hs
      exact coloured_readable hbr (hl' p hp).1 (hl' p hp).2) (n + 1) k1'
  obtain rfl := Res.ok.inj w1
  obtain ⟨plain', n2, above2, below2, wd2, w5, hbox2⟩ := rowsOf m.db hdb hbr a.opt ho _ hd01 m.junk lines vis hl' hne (n + 1) w2
  obtain rfl := Res.ok.inj w5
  obtain ⟨out', hbox', hlen', hvis⟩ := rowsOf_visible hdb hd01 hl' hbox2
  have hlen : out ≠ [] := by
    intro h0
    have := hbox.rows.count
    rw [h0] at this
    have h1 : 0 < ((prepareDesign a.opt d.core).shape NE).height := (hd1.ready.good.corner NE (by simp)).2.2
    simp at this; omega
  rw [k2 out rfl hlen] at hev
  rw [hev] at hrun
  have hrender := renderBox_rows m.db out out' (hlen'.trans w3) (by
    intro x p hp
    have hx := (List.getElem?_eq_some_iff.1 hp).1
    have hq := List.getElem?_eq_getElem (l := plain) (i := x) (by omega)
    obtain ⟨⟨v, v1, v2⟩, v3, -, v4, -⟩ := w4 x _ _ hp hq
    obtain ⟨p', e1, e2, e3⟩ := hvis x _ hq
    refine ⟨p', e1, v4, ?_, e3.trans v3⟩
    rw [e2.unique v2]; exact v1) (colours c.options m.terminalColors)
  simp only [Option.map_some, Res.ok_bind, renderEvents, hrender, List.append_nil, Option.some.injEq] at hrun
  refine ⟨_, hrun.symm, fun c' input' hfirst' hopts' hfiles' hread hshort => ?_⟩
  have ha' : optionLoop c'.options createNewOpt = some ({ a with opt := { a.opt with r := true } }, false) := by
    rw [hopts']
    exact optionLoop_more (x := .remove) c.options createNewOpt hopts rfl
  have e2 := whole_run { m with input := input' } c' (n + 1) hfirst' ha' hfiles' (by
    rw [hopts']
    intro s hs
    simp at hs
    exact hc.create s hs) hqn hln (loaded_again (Nat.le_refl _) h input' rfl rfl rfl hdes)
  have hmode2 : mode = 't' ∨ (mode = 'b' ∧ (({ a.opt with r := true } : Opt).indentmode = 'b' ∨ ({ a.opt with r := true } : Opt).indentmode = '\x00')) := by
    rcases hmode' with h | h
    · exact .inl h
    · refine .inr ⟨h, ?_⟩
      rw [hmode] at h
      by_cases h0 : a.opt.indentmode = '\x00'
      · exact .inr h0
      · rw [if_neg h0] at h; exact .inl h
  have hrem : PlainRemoving { a.opt with r := true } := ⟨rfl, ho.tabs, ho.reqwidth, ho.tabstop, by simp only; rw [hm]; decide⟩
  have hshort' : ∀ {o : List (Bxs × Str)}, input' (named c'.files 0) = o.map (fun p => p.1.memory ++ p.2) → ∀ p ∈ o, p.1.memory.length < 16370 := by
    intro o hin1 p hp
    have := hshort (p.1.memory ++ p.2) (by rw [hin1]; exact List.mem_map.2 ⟨p, hp, rfl⟩)
    simp at this; omega
  rw [e2]
  cases hcol : colours c.options m.terminalColors with
  | true =>
    rw [hcol] at hread
    have hin := readInLines_unique _ _ _ hread (rows_readIn heol (drawnColoured_rows hdb hd01 hd1 hbox.rows hbox.pieces) hbox.ends)
    have q3 := second_run_colour (setupOf { m with input := input' } { a with opt := { a.opt with r := true } } (input' (named c'.files 0)) (d :: ds) (n + 1)) hdb hesc hbr
      a.opt { a.opt with r := true } ho hrem d0 d.core (ds.map (·.core)) hd0 hd rfl mode hmode hmode2 hkill
      (by simp [setupOf, rulesOf, hrev]) hu lines vis hl hne hterm heol n hbox (hshort' hin) hin
    rw [show runProgram (setupOf { m with input := input' } { a with opt := { a.opt with r := true } } (input' (named c'.files 0)) (d :: ds) (n + 1))
      { a.opt with r := true } (d.core :: ds.map (·.core)) (n + 1) = _ from q3]
    simp only [Option.map_some, Res.ok_bind, renderEvents, List.append_nil, if_true]
  | false =>
    rw [hcol] at hread
    simp only [Bool.false_eq_true, if_false] at hread
    have hin := readInLines_unique _ _ _ hread (rows_readIn heol (drawnTexts_rows hdb hd01 hbox'.rows hbox'.pieces) hbox'.ends)
    have q3 := second_run (setupOf { m with input := input' } { a with opt := { a.opt with r := true } } (input' (named c'.files 0)) (d :: ds) (n + 1)) hdb hbr
      a.opt { a.opt with r := true } ho hrem d0 (ds.map (fun x : DesignDef => x.core)) hd0 rfl mode (by rw [← hd.same.indentmode]; exact hmode) hmode2 hkill
      (by simp [setupOf, rulesOf, hrev]) hu (lines.map (fun p : Str × Str => (vis p.1, p.2))) id (by
        intro p' hp'
        obtain ⟨p, hp, rfl⟩ := List.mem_map.1 hp'
        refine ⟨coloured_visible (hl p hp).1, ?_⟩
        obtain ⟨u, z, hz, -⟩ := coloured_last hbr (hl p hp).1 (hl p hp).2
        simp only
        rw [hz]; simp) (by simpa using hne) (by
        intro x p' hp'
        rw [List.getElem?_map] at hp'
        cases hp : lines[x]? with
        | none => rw [hp] at hp'; simp at hp'
        | some p =>
          rw [hp] at hp'
          obtain rfl := Option.some.inj hp'
          simpa using hterm x p hp) heol n hbox' (hshort' hin) hin
    have hsame := run_remove_same (setupOf { m with input := input' } { a with opt := { a.opt with r := true } } (input' (named c'.files 0)) (d :: ds) (n + 1))
      (setupOf { m with input := input' } { a with opt := { a.opt with r := true } } (input' (named c'.files 0)) (d :: ds) (n + 1)) hdb rfl rfl rfl hu hu rfl
      { a.opt with r := true } hrem.mend rfl d0 d.core (ds.map (·.core)) (ds.map (·.core)) hd.plain.ready hd.same (by
        intro t ht h1b
        have ht' : t ∈ input' (named c'.files 0) := ht
        rw [hin] at ht'
        obtain ⟨p, hp, rfl⟩ := List.mem_map.1 ht'
        obtain ⟨x, hx⟩ := List.getElem?_of_mem hp
        have hxl := (List.getElem?_eq_some_iff.1 hx).1
        rcases List.mem_append.1 h1b with h1 | h1
        · obtain ⟨p2, f1, f2, -⟩ := hvis x _ (List.getElem?_eq_getElem (by omega))
          rw [hx] at f1
          obtain rfl := Option.some.inj f1
          exact text_vis_ne f2 _ h1 rfl
        · obtain ⟨f1, f2⟩ := hbox'.ends x p hx
          by_cases hb : EndsInBreak ((lines.map (fun p => (vis p.1, p.2))).map (fun p => p.1 ++ p.2)) ∨ x + 1 ≠ out'.length
          · rw [f1 hb] at h1
            rcases heol with e | e <;> rw [e] at h1 <;> simp at h1
          · rw [f2 (fun h => hb (.inl h)) (Classical.byContradiction fun h => hb (.inr h))] at h1
            simp at h1) n
    rw [show runProgram (setupOf { m with input := input' } { a with opt := { a.opt with r := true } } (input' (named c'.files 0)) (d :: ds) (n + 1))
      { a.opt with r := true } (d.core :: ds.map (·.core)) (n + 1) = _ from hsame.trans q3]
    simp only [Option.map_some, Res.ok_bind, renderEvents, List.append_nil, List.map_map, Function.comp_def, Bool.false_eq_true, if_false]

/-! ## Examples -/

/-- the machine with a design in colour, whose input has lines in colour, and a terminal that can or cannot show colours -/
def redTinted (term : Bool) : Machine :=
  { tintedMachine with input := fun _ => [lit "  \x1b[31mab\x1b[0m\n", lit "  c\n"], terminalColors := term }

theorem redTinted_loaded (term : Bool) : Loaded (redTinted term) frArgs 20 (fileName "/h/.config/boxes/boxes-config") tintedDesign [] [] :=
  let h := tintedDesign_loaded
  { found := h.found, designs := h.designs }

/-- what is printed, and what is printed when it is read again to remove the box -/
theorem redTinted_pipe (term : Bool) {text : Str} (h : wholeProgram (redTinted term) { options := [.design (lit "fr")] } 20 = some (.ok (.output none text)))
    (box : List Str) (hbox : ReadInLines text box) (hshort : ∀ p ∈ box, p.length < 16370) :
    wholeProgram { redTinted term with input := fun _ => box } { options := [.design (lit "fr"), .remove] } 20 =
      some (.ok (.output none (if term then lit "  \x1b[31mab\x1b[0m\n  c\n" else lit "  ab\n  c\n"))) := by
  obtain ⟨text', h1, h2⟩ := C84_pipeline (redTinted term) sampleDb_sane (by cases term <;> decide) sampleDb_breaks { options := [.design (lit "fr")] } fr_draws 20 (a := frArgs) rfl
    ⟨by simp, by simp, by simp⟩ (by decide) (by decide) (by decide) (redTinted_loaded term) frDesign.core frDesign_restorable tintedDesign_inColour (by decide +kernel) (by decide +kernel)
    'b' (by decide +kernel) (by decide) redLines redVis red_lines (by simp [redLines]) (by
      intro x p hp
      left
      have : ∀ x < 2, ∀ p ∈ redLines[x]?, p.2 = frArgs.opt.eol := by decide +kernel
      exact this x (by have := (List.getElem?_eq_some_iff.1 hp).1; simpa [redLines] using this) p hp) (by cases term <;> decide +kernel) h
  obtain rfl : text = text' := by simp at h1; exact h1.2
  have := h2 { options := [.design (lit "fr"), .remove] } (fun _ => box) (by simp) rfl ⟨by simp, by simp, by simp⟩ hbox hshort
  rw [this]
  cases term <;> decide +kernel

/-- the hypotheses hold: the box is printed in colour, or without escape sequences -/
example : wholeProgram (redTinted true) { options := [.design (lit "fr")] } 20 =
    some (.ok (.output none (lit "  \x1b[31m+\x1b[0m--\x1b[31m*\x1b[0m\n  \x1b[31m|\x1b[0m\x1b[31mab\x1b[0m\x1b[31m!\x1b[0m\n  \x1b[31m|\x1b[0mc \x1b[31m!\x1b[0m\n  +\x1b[31m=\x1b[0m\x1b[31m=\x1b[0m+\n"))) := by decide +kernel

example : wholeProgram (redTinted false) { options := [.design (lit "fr")] } 20 =
    some (.ok (.output none (lit "  +--*\n  |ab!\n  |c !\n  +==+\n"))) := by decide +kernel

/-- the hypotheses of `C84_identity` hold of a concrete drawing -/
example {r : Res (List (Bxs × Str))} (h : drawOnce sampleDb {} tintedDesign.core [] 0 (redLines.map (fun p => p.1 ++ p.2)) 100 = some r) :
    ∃ out, r = .ok out ∧ ((∀ p ∈ out, p.1.memory.length < 16370) → ∃ raw i j,
      readAllInput sampleDb { r := true } 0 (out.map (fun p => p.1.memory ++ p.2)) = .ok raw ∧ analyzeInput sampleDb { r := true } tintedDesign.core [] raw = .ok i ∧
      handleRemoveBox sampleDb { r := true } (adjustSizeAndPadding { r := true } tintedDesign.core i) [] i = .ok (j, redLines)) := by
  obtain ⟨out, h1, h2⟩ := C84_identity sampleDb sampleDb_sane (by decide) sampleDb_breaks {} { r := true } plain_drawing plain_removing frDesign.core tintedDesign.core tintedDesign.core
    frDesign_restorable tintedDesign_inColour tintedDesign_inColour.ready.good rfl rfl (.inr ⟨by decide +kernel, .inr rfl⟩) (by decide) 0 0 redLines
    (fun p hp => ⟨⟨_, (red_lines p hp).1⟩, (red_lines p hp).2⟩) (by simp [redLines]) (by
      intro x p hp
      left
      have : ∀ x < 2, ∀ p ∈ redLines[x]?, p.2 = [0x0a] := by decide +kernel
      exact this x (by have := (List.getElem?_eq_some_iff.1 hp).1; simpa [redLines] using this) p hp) (by decide) 100 h
  refine ⟨out, h1, fun hs => ?_⟩
  obtain ⟨raw, i, j, e1, e2, e3, -⟩ := h2 hs
  exact ⟨raw, i, j, e1, e2, e3⟩

end Boxes
