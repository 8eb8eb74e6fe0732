import Verif.Lemmas.DrawnText
import Verif.Props.DrawRemove

/-!
# Drawing a box around text in colour and removing it again (C78)
-/
namespace Boxes
open Spec ShapeName
set_option linter.unusedSimpArgs false

theorem coloured_last {db : CharDb} (hbr : BreaksSane db) {t v : Str} (ht : ColouredLine db t v) (h0 : t ≠ []) :
    ∃ u c, v = u ++ [c] ∧ ¬ Blank db c := by
  rcases ht.ends with h | ⟨p, x, c, e, h1, hp, hc, hw, he⟩
  · exact absurd h h0
  · have hst : Text e [] := by
      rcases he with rfl | he
      · exact Text.nil
      · simpa using Text.esc e he.esc Text.nil
    have hv : v = x ++ [c] := ht.text.unique (by rw [h1]; exact hp.append (Text.vis c hc hst))
    refine ⟨x, c, hv, fun hb => ?_⟩
    have := ht.blanks c (by rw [hv]; simp) hb
    rw [this, hbr.space_white] at hw; simp at hw

theorem frontKept_indent {n : Nat} {s : Str} (h : FrontKept s) : FrontKept (spaces n ++ s) := by
  cases n with
  | zero => simpa [spaces] using h
  | succ n => exact frontKept_prefix (spaces_ne _) (by simp [spaces])

/-- a line in colour as it is printed -/
theorem coloured_printed {db : CharDb} (hdb : Sane db) {A V s v q : Str} {k : Nat} (hA : Text A V) (hf : FrontKept A) (hb : BackKept A)
    (hlast : ∃ u c, V = u ++ [c] ∧ ¬ Blank db c) (h1 : EndTrimmed db (A ++ spaces k) (V ++ spaces k) s v) (h2 : From 0 s v q) : s = A ∧ q = A := by
  obtain ⟨u, c, hV, hc⟩ := hlast
  have hd : dropTrailing db (V ++ spaces k) = V := by
    rw [hV, List.append_assoc]
    exact dropTrailing_app db u c (spaces k) hc (spaces_blank hdb k)
  have hs : s = A ∧ v = V := by
    obtain ⟨-, ⟨hbl, -⟩ | ⟨-, e1, e2⟩⟩ := h1
    · exact absurd (hbl c (by rw [hV]; simp)) hc
    · rw [hd] at e1
      subst e1
      refine ⟨?_, rfl⟩
      rcases e2 with ⟨e2, e3⟩ | ⟨-, p, e2, e3⟩
      · have : spaces k = [] := by
          have := congrArg List.length e2
          rw [List.length_append] at this
          exact List.eq_nil_of_length_eq_zero (by omega)
        rw [e3, this, List.append_nil]
      · have := from_unique (hA.append (Text.plain (spaces_ne k))) e3 (from_at hA (Text.plain (spaces_ne k)) hb (frontKept_plain (spaces_ne k)))
        rw [this] at e2
        exact (List.append_cancel_right e2).symm
  obtain ⟨rfl, rfl⟩ := hs
  refine ⟨rfl, from_unique hA h2 ?_⟩
  have := from_at Text.nil hA (backKept_plain (by simp)) hf
  simpa using this

/-- The rows `out` are a box around the lines: `n` is their common indentation, `above` and `below` are the numbers of empty lines that were added, `w` is the width inside. -/
structure RowsOf (db : CharDb) (opt : Opt) (d : Design) (lines : List (Str × Str)) (vis : Str → Str) (n above below w : Nat) (out : List (Bxs × Str)) : Prop where
  least : LeastIndent db (lines.map (fun p => vis p.1)) n
  room : opt.reqheight = 0 → wanted opt.padding.top d.padding.top ≤ above ∧ wanted opt.padding.bottom d.padding.bottom ≤ below
  rows : DrawnTexts db d (if d.indentmode = 'b' then n else 0) (wanted opt.padding.left d.padding.left) w
    (innerPairs above below (if d.indentmode = 't' then 0 else n) (lines.map (fun p => (p.1, vis p.1)))) out
  pieces : ∀ q ∈ innerPairs above below (if d.indentmode = 't' then 0 else n) (lines.map (fun p => (p.1, vis p.1))), Piece db q
  ends : ∀ (x : Nat) p, out[x]? = some p →
    (EndsInBreak (lines.map (fun p => p.1 ++ p.2)) ∨ x + 1 ≠ out.length → p.2 = opt.eol) ∧
    (¬ EndsInBreak (lines.map (fun p => p.1 ++ p.2)) → x + 1 = out.length → p.2 = [])

theorem rowsOf (db : CharDb) (hdb : Sane db) (hbr : BreaksSane db) (opt : Opt) (ho : PlainDrawing opt) (d : Design) (hd : Restorable db d) (junk : Nat)
    (lines : List (Str × Str)) (vis : Str → Str) (hl : ∀ p ∈ lines, ColouredLine db p.1 (vis p.1) ∧ LineEnd p.2) (hne : lines ≠ []) (fuel : Nat)
    {r : Res (List (Bxs × Str))} (h : drawOnce db opt d [] junk (lines.map (fun p => p.1 ++ p.2)) fuel = some r) :
    ∃ out n above below w, r = .ok out ∧ RowsOf db opt d lines vis n above below w out := by
  obtain ⟨out, n, above, below, w, h1, h2, h3, h4, h5, h6⟩ := text_rows db hdb hbr opt ho d hd junk lines vis hl hne fuel h
  exact ⟨out, n, above, below, w, h1, h2, h3, h4, h5, h6⟩

/-- What comes back when the rows `out`, drawn with `d`, are read again and the box is removed with the design `d'`: the lines, between the empty lines that were added, except for
blank lines at the beginning and at the end that are dropped. -/
def RestoredRows (db : CharDb) (opt' : Opt) (d d' : Design) (junk' : Nat) (lines : List (Str × Str)) (vis : Str → Str) (n above below : Nat) (out : List (Bxs × Str)) : Prop :=
    ∃ ts vs, ts = List.replicate above [] ++ lines.map (fun p => comesBack d.indentmode n p.1) ++ List.replicate below [] ∧
      vs = List.replicate above [] ++ lines.map (fun p => comesBack d.indentmode n (vis p.1)) ++ List.replicate below [] ∧
      out.length = (d.shape NE).height + ts.length + (d.shape SE).height ∧
      ((∀ p ∈ out, p.1.memory.length < 16370) → ∃ raw i j back k k',
        readAllInput db opt' junk' (out.map (fun p => p.1.memory ++ p.2)) = .ok raw ∧ analyzeInput db opt' d' [] raw = .ok i ∧
        handleRemoveBox db opt' (adjustSizeAndPadding opt' d' i) [] i = .ok (j, back) ∧ LeftTexts db j back ∧
        (j.finalNewline = true ↔ EndsInBreak (lines.map (fun p => p.1 ++ p.2))) ∧ k + back.length + k' = ts.length ∧
        (opt'.killblank ≠ 0 → BlankLinesDropped db none vs k ∧ BlankLinesDropped db none (vs.drop k).reverse k') ∧
        (opt'.killblank = 0 → opt'.mend = 0 → k = 0 ∧ k' = 0) ∧
        (opt'.killblank = 0 → opt'.mend ≠ 0 → opt'.reqheight = 0 → BlankLinesDropped db (some (wanted opt'.padding.top d'.padding.top)) vs k ∧
          BlankLinesDropped db (some (wanted opt'.padding.bottom d'.padding.bottom)) (vs.drop k).reverse k') ∧
        ∀ (x : Nat) p, back[x]? = some p → ∃ t e, ts[k + x]? = some t ∧ p.1 = t ++ spaces e ∧ (t ≠ [] → e = 0) ∧
          (x + 1 = back.length → ¬ EndsInBreak (lines.map (fun p => p.1 ++ p.2)) → p.2 = []) ∧
          (x + 1 ≠ back.length ∨ EndsInBreak (lines.map (fun p => p.1 ++ p.2)) → p.2 = opt'.eol))

/-- from the rows of a box back to the lines inside -/
theorem restored_rows (db : CharDb) (hdb : Sane db) (hbr : BreaksSane db) (opt opt' : Opt) (ho : PlainDrawing opt) (ho' : PlainRemoving opt')
    (d d' : Design) (hd : Restorable db d) (hd' : GoodDesign db d') (hshape : d'.shape = d.shape)
    (hpad : wanted opt'.padding.left d'.padding.left = wanted opt.padding.left d.padding.left)
    (hmode : d.indentmode = 'b' → opt'.indentmode = 'b' ∨ opt'.indentmode = '\x00') (junk' : Nat)
    (lines : List (Str × Str)) (vis : Str → Str) (hl : ∀ p ∈ lines, ColouredLine db p.1 (vis p.1) ∧ LineEnd p.2) (hne : lines ≠ [])
    {n above below w : Nat} {out : List (Bxs × Str)} (hbox : RowsOf db opt d lines vis n above below w out) :
    RestoredRows db opt' d d' junk' lines vis n above below out := by
  obtain ⟨h2, hroom, h3, hpc, h4⟩ := hbox
  unfold RestoredRows
  refine ⟨_, _, rfl, rfl, by rw [h3.count, innerPairs_length]; simp; omega, fun hshort => ?_⟩
  obtain ⟨ts, hts⟩ : ∃ ts, ts = List.replicate above [] ++ lines.map (fun p => comesBack d.indentmode n p.1) ++ List.replicate below [] := ⟨_, rfl⟩
  obtain ⟨vs, hvs0⟩ : ∃ vs, vs = List.replicate above [] ++ lines.map (fun p => comesBack d.indentmode n (vis p.1)) ++ List.replicate below [] := ⟨_, rfl⟩
  obtain ⟨ind, hind⟩ : ∃ ind, ind = if d.indentmode = 'b' then n else 0 := ⟨_, rfl⟩
  obtain ⟨m, hm⟩ : ∃ m, m = if d.indentmode = 't' then 0 else n := ⟨_, rfl⟩
  obtain ⟨lp, hlp⟩ : ∃ lp, lp = wanted opt.padding.left d.padding.left := ⟨_, rfl⟩
  rw [← hts, ← hvs0]
  rw [← hind, ← hm, ← hlp] at h3
  rw [← hm] at hpc
  -- the texts between the sides
  obtain ⟨prs, hprs⟩ : ∃ prs, prs = List.replicate above ((([], []), ([], [])) : (Str × Str) × (Str × Str)) ++
    lines.map (fun p => ((p.1.drop m, (vis p.1).drop m), (comesBack d.indentmode n p.1, comesBack d.indentmode n (vis p.1)))) ++
    List.replicate below (([], []), ([], [])) := ⟨_, rfl⟩
  have hvs : innerPairs above below m (lines.map (fun p => (p.1, vis p.1))) = prs.map Prod.fst := by
    rw [hprs]; simp [innerPairs, Function.comp_def]
  rw [hvs] at h3 hpc
  have hts' : ts = prs.map (fun z => z.2.1) := by rw [hprs, hts]; simp [Function.comp_def]
  have hvs' : vs = prs.map (fun z => z.2.2) := by rw [hprs, hvs0]; simp [Function.comp_def]
  have hpr : ∀ z ∈ prs, Piece db z.1 ∧ ((z.1 = ([], []) ∧ z.2 = ([], [])) ∨
      (z.2.1 = spaces ind ++ z.1.1 ∧ z.2.2 = spaces ind ++ z.1.2 ∧ ∃ u c, z.1.2 = u ++ [c] ∧ ¬ Blank db c)) := by
    intro z hz
    refine ⟨hpc _ (List.mem_map.2 ⟨z, hz, rfl⟩), ?_⟩
    rw [hprs] at hz
    simp only [List.mem_append, List.mem_replicate, List.mem_map] at hz
    rcases hz with (⟨-, rfl⟩ | ⟨p, hp, rfl⟩) | ⟨-, rfl⟩
    · exact .inl ⟨rfl, rfl⟩
    · have hpl := (hl p hp).1
      by_cases h0 : p.1 = []
      · have hv0 : vis p.1 = [] := by have := hpl.text; rw [h0] at this ⊢; exact text_nil_inv this
        left
        simp only
        rw [hv0, h0]
        simp [comesBack]
      · right
        have hcols : 0 < columns db (vis p.1) := by
          rcases hpl.shows with h1 | h1
          · exact absurd h1 h0
          · exact seen_columns h1
        have hn := h2.le (vis p.1) (List.mem_map.2 ⟨p, hp, rfl⟩) hcols
        have hmn : m ≤ leadingBlanks db (vis p.1) := by rw [hm]; split <;> omega
        obtain ⟨f1, f2, -⟩ := coloured_parts hdb hpl h0 hmn
        obtain ⟨u, c, hu, hc⟩ := coloured_last hbr hpl h0
        have hback : ∀ x, x = spaces m ++ x.drop m → comesBack d.indentmode n x = spaces ind ++ x.drop m := by
          intro x hx
          by_cases hb : d.indentmode = 'b'
          · have e1 : m = n := by rw [hm, if_neg (by rw [hb]; decide)]
            have e2 : ind = n := by rw [hind, if_pos hb]
            simp only [comesBack, hb, true_or, if_true]
            rw [e2, ← e1]; exact hx
          · have e2 : ind = 0 := by rw [hind, if_neg hb]
            by_cases ht : d.indentmode = 't'
            · have e1 : m = 0 := by rw [hm, if_pos ht]
              simp only [comesBack, ht, or_true, if_true]
              rw [e1, e2]; rfl
            · have e1 : m = n := by rw [hm, if_neg ht]
              simp only [comesBack, hb, ht, or_self, if_false]
              rw [e1, e2]; rfl
        refine ⟨hback _ f1, hback _ f2, u.drop m, c, ?_, hc⟩
        obtain ⟨c0, hc0, -⟩ := leading_first db (v := vis p.1) ⟨c, by rw [hu]; simp, hc⟩
        have hlt := (List.getElem?_eq_some_iff.1 hc0).1
        simp only
        rw [hu, List.drop_append_of_le_length]
        rw [hu] at hlt hmn
        simp at hlt; omega
    · exact .inl ⟨rfl, rfl⟩
  -- reading
  have heol : opt.eol ≠ [] := by rcases ho.eol with e | e <;> simp [e]
  obtain ⟨raw, i, i1, i2, i3, i4, -, -, i6⟩ := text_reread hdb ho'.removes ho'.tabstop junk' d' hd h3 hpc (by
      intro p hp
      obtain ⟨x, hx⟩ := List.getElem?_of_mem hp
      obtain ⟨g1, g2⟩ := h4 x p hx
      by_cases hb : EndsInBreak (lines.map (fun p => p.1 ++ p.2)) ∨ x + 1 ≠ out.length
      · rw [g1 hb]; exact .inr ho.eol
      · have hb1 := fun h => hb (.inl h)
        have hb2 : x + 1 = out.length := Classical.byContradiction fun h => hb (.inr h)
        exact .inl (g2 hb1 hb2)) hshort
  obtain ⟨p1, p2, p3, -⟩ := C21_padding opt' d' i
  have hpt : opt'.reqheight = 0 → (adjustSizeAndPadding opt' d' i).padding.top = wanted opt'.padding.top d'.padding.top ∧
      (adjustSizeAndPadding opt' d' i).padding.bottom = wanted opt'.padding.bottom d'.padding.bottom := by
    intro h0
    by_cases h1 : i.lines.length + ((d'.shape NW).height + (d'.shape SW).height) + (wanted opt'.padding.top d'.padding.top + wanted opt'.padding.bottom d'.padding.bottom) ≤ d'.minheight ∨
        wanted opt'.padding.top d'.padding.top + wanted opt'.padding.bottom d'.padding.bottom = 0
    · exact ⟨(p1.enough h1).1, (p1.enough h1).2.1⟩
    · have := p1.grow (by omega) (by omega) (by simp [h0])
      exact ⟨this.1, this.2.1⟩
  have hlpad : (adjustSizeAndPadding opt' d' i).padding.left = lp := by
    rw [hlp, ← hpad]
    by_cases h1 : i.maxline + ((d'.shape NW).width + (d'.shape NE).width) + (wanted opt'.padding.left d'.padding.left + wanted opt'.padding.right d'.padding.right) ≤ d'.minwidth ∨
        wanted opt'.padding.left d'.padding.left + wanted opt'.padding.right d'.padding.right = 0
    · exact (p2.enough h1).1
    · exact (p2.grow (by omega) (by omega) (by have := ho'.reqwidth; simp [this])).1
  have hshape3 : (adjustSizeAndPadding opt' d' i).shape = d.shape := p3.trans hshape
  have hbox := i6 (adjustSizeAndPadding opt' d' i) hshape3 hlpad
  have hR : restored opt' i.indent = ind := by
    rw [i3]
    unfold restored
    by_cases hb : d.indentmode = 'b'
    · rw [if_pos (hmode hb)]
    · rw [hind, if_neg hb]; split <;> rfl
  obtain ⟨j, back, k, k', b1, bl, bf, b2, b3, b4, b5, b6⟩ := C70_printed db hdb opt' ho'.tabs ho'.tabstop ho'.mend _
    (recognisable_shape hd.recognisable hshape3 (C20_adjusted_design db opt' d' hd' i).2) i ind _
    (prs.map (fun z => spaces ind ++ z.1.1 ++ spaces (w - columns db z.1.2))) (prs.map (fun z => spaces ind ++ z.1.2 ++ spaces (w - columns db z.1.2))) hbox (by
      rw [List.map_map, List.map_map]
      apply List.map_congr_left
      intro z hz
      simp only [Function.comp]
      rw [hR, hlpad, List.append_assoc (spaces lp), List.drop_append_of_le_length (by simp [spaces])]
      simp [spaces]) (by simp) (by
      intro x t u ht hu
      rw [List.getElem?_map] at ht hu
      cases hz : prs[x]? with
      | none => rw [hz] at ht; simp at ht
      | some z =>
        rw [hz] at ht hu
        obtain rfl := Option.some.inj ht
        obtain rfl := Option.some.inj hu
        exact ((Text.plain (spaces_ne _)).append (hpr z (List.mem_of_getElem? hz)).1.text).append (Text.plain (spaces_ne _)))
  have hlen : (prs.map (fun z => spaces ind ++ z.1.2 ++ spaces (w - columns db z.1.2))).length = vs.length := by rw [hvs']; simp
  have hlents : ts.length = vs.length := by rw [hts', hvs']; simp
  have hblank : ∀ z ∈ prs, BlankText db (spaces ind ++ z.1.2 ++ spaces (w - columns db z.1.2)) ↔ BlankText db z.2.2 := by
    intro z hz
    obtain ⟨hpz, h0⟩ := hpr z hz
    rcases h0 with ⟨e1, e2⟩ | ⟨-, e1, u, c, e2, e3⟩
    · rw [e1, e2]
      refine ⟨fun _ => by intro c hc; simp at hc, fun _ => ?_⟩
      intro c hc
      simp only [List.append_nil, List.mem_append] at hc
      exact .inl (hc.elim (spaces_blank hdb _ c) (spaces_blank hdb _ c))
    · have hcc := (hpz.chars c (text_mem hpz.text c (by rw [e2]; simp))).2.2.1
      constructor
      · intro hb
        rcases hb c (by rw [e2]; simp) with h | h
        · exact absurd h e3
        · exact absurd h hcc
      · intro hb
        rcases hb c (by rw [e1, e2]; simp) with h | h
        · exact absurd h e3
        · exact absurd h hcc
  have hcongr : ∀ (x : Nat) a b, (prs.map (fun z => spaces ind ++ z.1.2 ++ spaces (w - columns db z.1.2)))[x]? = some a → vs[x]? = some b →
      (BlankText db a ↔ BlankText db b) := by
    intro x a b ha hb
    rw [hvs', List.getElem?_map] at hb
    rw [List.getElem?_map] at ha
    cases hq : prs[x]? with
    | none => rw [hq] at ha; simp at ha
    | some q =>
      rw [hq] at ha hb
      obtain rfl := Option.some.inj ha
      obtain rfl := Option.some.inj hb
      exact hblank q (List.mem_of_getElem? hq)
  have hlast : i.finalNewline = true ↔ EndsInBreak (lines.map (fun p => p.1 ++ p.2)) := by
    rw [i4]
    have hne' : out ≠ [] := by
      intro h0
      have := h3.count
      have hp : 0 < (d.shape NE).height := (hd.recognisable.ready.good.corner NE (by simp)).2.2
      rw [h0] at this; simp at this; omega
    have hlt : out.length - 1 < out.length := by have := List.length_pos_iff.2 hne'; omega
    have hg := List.getElem?_eq_getElem hlt
    rw [List.getLast?_eq_getElem?, hg]
    obtain ⟨f1, f2⟩ := h4 _ _ hg
    constructor
    · rintro ⟨p, hp, hp2⟩
      obtain rfl := Option.some.inj hp
      exact Classical.byContradiction fun hb => hp2 (f2 hb (by omega))
    · intro hb
      exact ⟨_, rfl, by rw [f1 (.inl hb)]; exact heol⟩
  have hcongr2 : ∀ (x : Nat) a b, ((prs.map (fun z => spaces ind ++ z.1.2 ++ spaces (w - columns db z.1.2))).drop k).reverse[x]? = some a →
      (vs.drop k).reverse[x]? = some b → (BlankText db a ↔ BlankText db b) := by
    intro x a b ha hb
    have hx := (List.getElem?_eq_some_iff.1 ha).1
    have hx' := (List.getElem?_eq_some_iff.1 hb).1
    rw [List.length_reverse] at hx hx'
    rw [List.getElem?_reverse hx, List.getElem?_drop] at ha
    rw [List.getElem?_reverse hx', List.getElem?_drop] at hb
    simp only [List.length_drop] at ha hb
    rw [hlen] at ha
    exact hcongr _ a b ha hb
  have hlen2 : ((prs.map (fun z => spaces ind ++ z.1.2 ++ spaces (w - columns db z.1.2))).drop k).reverse.length = (vs.drop k).reverse.length := by
    rw [List.length_reverse, List.length_reverse, List.length_drop, List.length_drop, hlen]
  have hline : ∀ (x : Nat) p, back[x]? = some p → ∃ t e l, ts[k + x]? = some t ∧ p.1 = t ++ spaces e ∧ (t ≠ [] → e = 0) ∧
      j.lines[x]? = some l ∧ l.text = fromUnicode db p.1 ∧ p.2 = (if x + 1 = back.length ∧ i.finalNewline = false then [] else opt'.eol) := by
    intro x p hx
    obtain ⟨t', u', s, v, l, g1, g2, g3, g4, g5, g6, g7⟩ := b6 x p hx
    rw [List.getElem?_map] at g1 g2
    cases hz : prs[k + x]? with
    | none => rw [hz] at g1; simp at g1
    | some z =>
      rw [hz] at g1 g2
      obtain rfl := Option.some.inj g1
      obtain rfl := Option.some.inj g2
      obtain ⟨hpz, h0⟩ := hpr z (List.mem_of_getElem? hz)
      simp only at g3
      have htx : ts[k + x]? = some z.2.1 := by rw [hts', List.getElem?_map, hz]; rfl
      rcases h0 with ⟨e1, e2⟩ | ⟨e1, e2, u, c, e3, e4⟩
      · rw [e1] at g3
        simp only [List.append_nil] at g3
        rw [spaces_append] at g3
        have hq := printed_same (spaces_ne _) g3 g6
        have hs := (printed_plain (spaces_ne _) g3 g6).1 (spaces_blank hdb _)
        refine ⟨z.2.1, ind + (w - columns db []), l, htx, ?_, fun h => absurd (by rw [e2]) h, g4, by rw [g5, hq], g7⟩
        rw [hs, e2]; rfl
      · have hA : Text z.2.1 z.2.2 := by rw [e1, e2]; exact (Text.plain (spaces_ne _)).append hpz.text
        rw [← e1, ← e2] at g3
        obtain ⟨q1, q2⟩ := coloured_printed hdb hA (by rw [e1]; exact frontKept_indent hpz.front) (by rw [e1]; exact backKept_prefix (spaces_ne _) hpz.back)
          ⟨spaces ind ++ u, c, by rw [e2, e3]; simp, e4⟩ g3 g6
        exact ⟨z.2.1, 0, l, htx, by rw [q2]; simp [spaces], fun _ => rfl, g4, by rw [g5, q1, q2], g7⟩
  refine ⟨raw, i, j, back, k, k', i1, i2, b1, ⟨bl, fun x p hx => ?_⟩, by rw [bf]; exact hlast, by rw [hlents, ← hlen]; simpa using b2, ?_, b4, ?_, ?_⟩
  · obtain ⟨t, e, l, -, -, -, h1, h2, -⟩ := hline x p hx
    exact ⟨l, h1, h2⟩
  · intro h0
    obtain ⟨d1, d2⟩ := b3 h0
    exact ⟨blankLinesDropped_congr hlen hcongr d1, blankLinesDropped_congr hlen2 hcongr2 d2⟩
  · intro h0 h1 h2
    obtain ⟨d1, d2⟩ := b5 h0 h1
    rw [(hpt h2).1] at d1
    rw [(hpt h2).2] at d2
    exact ⟨blankLinesDropped_congr hlen hcongr d1, blankLinesDropped_congr hlen2 hcongr2 d2⟩
  · intro x p hx
    obtain ⟨t, e, l, g1, g2, g3, -, -, g4⟩ := hline x p hx
    refine ⟨t, e, g1, g2, g3, ?_⟩
    rw [g4]
    constructor
    · intro h1 h2
      rw [if_pos ⟨h1, by cases hf : i.finalNewline with | false => rfl | true => exact absurd (hlast.1 hf) h2⟩]
    · intro h1
      refine if_neg ?_
      rintro ⟨h2, h3⟩
      rcases h1 with h1 | h1
      · exact h1 h2
      · rw [hlast.2 h1] at h3; simp at h3

/-- C78: a box is drawn around text parts of which are in colour, the printed lines are read again, and the box is removed (the two runs may use
different options, and the prepared design may differ in minimum size and indentation mode).  Both runs succeed.  Of the text (with the empty lines
that the design adds above and below) blank lines are dropped at the beginning and at the end if that was asked for.  Every line that is printed is the
original line with all its escape sequences (without the common indentation if it was dropped when drawing); an empty line may come back as a line of
blanks. -/
theorem C78_restored (db : CharDb) (hdb : Sane db) (hbr : BreaksSane db) (opt opt' : Opt) (ho : PlainDrawing opt) (ho' : PlainRemoving opt')
    (d d' : Design) (hd : Restorable db d) (hd' : GoodDesign db d') (hshape : d'.shape = d.shape)
    (hpad : wanted opt'.padding.left d'.padding.left = wanted opt.padding.left d.padding.left)
    (hmode : d.indentmode = 'b' → opt'.indentmode = 'b' ∨ opt'.indentmode = '\x00') (junk junk' : Nat)
    (lines : List (Str × Str)) (vis : Str → Str) (hl : ∀ p ∈ lines, ColouredLine db p.1 (vis p.1) ∧ LineEnd p.2) (hne : lines ≠ []) (fuel : Nat)
    {r : Res (List (Bxs × Str))} (h : drawOnce db opt d [] junk (lines.map (fun p => p.1 ++ p.2)) fuel = some r) :
    ∃ out n above below ts vs, r = .ok out ∧ LeastIndent db (lines.map (fun p => vis p.1)) n ∧
      ts = List.replicate above [] ++ lines.map (fun p => comesBack d.indentmode n p.1) ++ List.replicate below [] ∧
      vs = List.replicate above [] ++ lines.map (fun p => comesBack d.indentmode n (vis p.1)) ++ List.replicate below [] ∧
      out.length = (d.shape NE).height + ts.length + (d.shape SE).height ∧
      (opt.reqheight = 0 → wanted opt.padding.top d.padding.top ≤ above ∧ wanted opt.padding.bottom d.padding.bottom ≤ below) ∧
      ((∀ p ∈ out, p.1.memory.length < 16370) → ∃ raw i j back k k',
        readAllInput db opt' junk' (out.map (fun p => p.1.memory ++ p.2)) = .ok raw ∧ analyzeInput db opt' d' [] raw = .ok i ∧
        handleRemoveBox db opt' (adjustSizeAndPadding opt' d' i) [] i = .ok (j, back) ∧ LeftTexts db j back ∧
        (j.finalNewline = true ↔ EndsInBreak (lines.map (fun p => p.1 ++ p.2))) ∧ k + back.length + k' = ts.length ∧
        (opt'.killblank ≠ 0 → BlankLinesDropped db none vs k ∧ BlankLinesDropped db none (vs.drop k).reverse k') ∧
        (opt'.killblank = 0 → opt'.mend = 0 → k = 0 ∧ k' = 0) ∧
        (opt'.killblank = 0 → opt'.mend ≠ 0 → opt'.reqheight = 0 → BlankLinesDropped db (some (wanted opt'.padding.top d'.padding.top)) vs k ∧
          BlankLinesDropped db (some (wanted opt'.padding.bottom d'.padding.bottom)) (vs.drop k).reverse k') ∧
        ∀ (x : Nat) p, back[x]? = some p → ∃ t e, ts[k + x]? = some t ∧ p.1 = t ++ spaces e ∧ (t ≠ [] → e = 0) ∧
          (x + 1 = back.length → ¬ EndsInBreak (lines.map (fun p => p.1 ++ p.2)) → p.2 = []) ∧
          (x + 1 ≠ back.length ∨ EndsInBreak (lines.map (fun p => p.1 ++ p.2)) → p.2 = opt'.eol)) := by
  obtain ⟨out, n, above, below, w, h1, h2⟩ := rowsOf db hdb hbr opt ho d hd junk lines vis hl hne fuel h
  obtain ⟨ts, vs, e1, e2, e3, e4⟩ := restored_rows db hdb hbr opt opt' ho ho' d d' hd hd' hshape hpad hmode junk' lines vis hl hne h2
  exact ⟨out, n, above, below, ts, vs, h1, h2.least, e1, e2, e3, h2.room, e4⟩

theorem coloured_endsInBreak {db : CharDb} {lines : List (Str × Str)} {vis : Str → Str} (hl : ∀ p ∈ lines, ColouredLine db p.1 (vis p.1) ∧ LineEnd p.2) :
    EndsInBreak (lines.map (fun p => p.1 ++ p.2)) ↔ ∃ p, lines.getLast? = some p ∧ p.2 ≠ [] := by
  rcases List.eq_nil_or_concat lines with h0 | ⟨a, p, h0⟩
  · subst h0
    simp [EndsInBreak]
  · rw [List.concat_eq_append] at h0
    subst h0
    obtain ⟨g1, g2⟩ := hl p (by simp)
    simp only [EndsInBreak, List.map_append, List.map_cons, List.map_nil, List.getLast?_append, List.getLast?_singleton, Option.some_or,
      Option.some.injEq, exists_eq_left']
    constructor
    · rintro ⟨x, q, c, hq, hc⟩ h0
      have := List.append_inj_right' hq (by simp)
      simp only [List.cons.injEq, and_true] at this
      rw [h0, List.append_nil] at this
      have hl := g1.chars c (by rw [this]; simp)
      omega
    · intro h0
      rcases g2 with g2 | g2 | g2
      · exact absurd g2 h0
      · exact ⟨_, p.1, 0x0a, by rw [g2], .inl rfl⟩
      · exact ⟨a.map (fun p => p.1 ++ p.2), p.1 ++ [0x0d], 0x0a, by rw [g2]; simp [List.append_assoc], .inl rfl⟩

theorem coloured_comesBack {db : CharDb} (hbr : BreaksSane db) {mode : Char} {n : Nat} {t v : Str} (ht : ColouredLine db t v) (h0 : t ≠ [])
    (hn : n ≤ leadingBlanks db v) : ¬ BlankText db (comesBack mode n v) := by
  obtain ⟨u, c0, hu, hc0⟩ := coloured_last hbr ht h0
  obtain ⟨c, h1, h2⟩ := leading_first db (v := v) ⟨c0, by rw [hu]; simp, hc0⟩
  intro hb
  have hc : c ∈ comesBack mode n v := by
    unfold comesBack
    split
    · exact List.mem_of_getElem? h1
    · refine List.mem_of_getElem? (i := leadingBlanks db v - n) ?_
      rw [List.getElem?_drop, ← h1]; congr 1; omega
  rcases hb c hc with h | h
  · exact h2 h
  · exact (ht.chars c (text_mem ht.text c (List.mem_of_getElem? h1))).2.2.1 h

/-- From the rows of a box back to the lines.  Exactly the lines of the text come back if its first and last line are not empty, provided that blank lines are removed, or that no more of them than the padding are in
the box and these are removed. -/
theorem lines_back_of (db : CharDb) (hdb : Sane db) (hbr : BreaksSane db) (opt opt' : Opt)
    (d d' : Design) (junk' : Nat)
    (lines : List (Str × Str)) (vis : Str → Str) (hl : ∀ p ∈ lines, ColouredLine db p.1 (vis p.1) ∧ LineEnd p.2) (hne : lines ≠ [])
    (hfirst : ∀ p, lines[0]? = some p → p.1 ≠ []) (hlast : ∀ p, lines.getLast? = some p → p.1 ≠ [])
    {n above below : Nat} {out : List (Bxs × Str)} (h2 : LeastIndent db (lines.map (fun p => vis p.1)) n)
    (hroom : opt.reqheight = 0 → wanted opt.padding.top d.padding.top ≤ above ∧ wanted opt.padding.bottom d.padding.bottom ≤ below)
    (hrest : RestoredRows db opt' d d' junk' lines vis n above below out) :
      ((∀ p ∈ out, p.1.memory.length < 16370) →
        (opt'.killblank ≠ 0 ∨ (opt'.killblank = 0 ∧ opt'.mend ≠ 0 ∧ opt.reqheight = 0 ∧ opt'.reqheight = 0 ∧
          wanted opt'.padding.top d'.padding.top = wanted opt.padding.top d.padding.top ∧
          wanted opt'.padding.bottom d'.padding.bottom = wanted opt.padding.bottom d.padding.bottom ∧
          out.length = (d.shape NE).height + wanted opt.padding.top d.padding.top + lines.length + wanted opt.padding.bottom d.padding.bottom + (d.shape SE).height)) →
        ∃ raw i j back,
        readAllInput db opt' junk' (out.map (fun p => p.1.memory ++ p.2)) = .ok raw ∧ analyzeInput db opt' d' [] raw = .ok i ∧
        handleRemoveBox db opt' (adjustSizeAndPadding opt' d' i) [] i = .ok (j, back) ∧ LeftTexts db j back ∧
        (j.finalNewline = true ↔ EndsInBreak (lines.map (fun p => p.1 ++ p.2))) ∧ back.length = lines.length ∧
        ∀ (x : Nat) q, lines[x]? = some q → ∃ p e, back[x]? = some p ∧ p.1 = comesBack d.indentmode n q.1 ++ spaces e ∧ (q.1 ≠ [] → e = 0) ∧
          (x + 1 = lines.length → q.2 = [] → p.2 = []) ∧ (x + 1 ≠ lines.length ∨ q.2 ≠ [] → p.2 = opt'.eol)) := by
  obtain ⟨ts, vs, h3, h3v, hcnt, h4⟩ := hrest
  intro hshort hkill
  obtain ⟨raw, i, j, back, k, k', e1, e2, e3, el, ef, e4, e5, -, e6, e7⟩ := h4 hshort
  have hshow : ∀ p ∈ lines, p.1 ≠ [] → ¬ BlankText db (comesBack d.indentmode n (vis p.1)) := by
    intro p hp h0
    have hpl := (hl p hp).1
    refine coloured_comesBack hbr hpl h0 (h2.le (vis p.1) (List.mem_map.2 ⟨p, hp, rfl⟩) ?_)
    rcases hpl.shows with h1 | h1
    · exact absurd h1 h0
    · exact seen_columns h1
  have hlen : 0 < lines.length := List.length_pos_iff.2 hne
  have hts : ts.length = above + lines.length + below := by rw [h3]; simp; omega
  have hvs : vs.length = above + lines.length + below := by rw [h3v]; simp; omega
  obtain ⟨l1, l2, hl1, hl2, d1, d2⟩ : ∃ l1 l2, (l1 = none ∨ l1 = some above) ∧ (l2 = none ∨ l2 = some below) ∧
      BlankLinesDropped db l1 vs k ∧ BlankLinesDropped db l2 (vs.drop k).reverse k' := by
    rcases hkill with h0 | ⟨h0, h1, h5, h6, h7, h8, h9⟩
    · exact ⟨none, none, .inl rfl, .inl rfl, e5 h0⟩
    · obtain ⟨r1, r2⟩ := hroom h5
      refine ⟨_, _, .inr ?_, .inr ?_, e6 h0 h1 h6⟩
      · rw [h7]; congr 1; omega
      · rw [h8]; congr 1; omega
  rw [h3v, List.append_assoc] at d1
  have hk : k = above := by
    have hg := List.getElem?_eq_getElem hlen
    refine dropped_exact hl1 d1 (t := comesBack d.indentmode n (vis lines[0].1)) ?_ (hshow _ (List.getElem_mem hlen) (hfirst _ hg))
    rw [List.getElem?_append_left (by simpa using hlen), List.getElem?_map, hg]; rfl
  have hk' : k' = below := by
    rw [h3v, hk, List.append_assoc, List.drop_append_of_le_length (by simp)] at d2
    simp only [List.drop_replicate, Nat.sub_self, List.replicate_zero, List.nil_append, List.reverse_append, List.reverse_replicate] at d2
    cases hg : lines.getLast? with
    | none => rw [List.getLast?_eq_none_iff] at hg; exact absurd hg hne
    | some p =>
      refine dropped_exact hl2 d2 (t := comesBack d.indentmode n (vis p.1)) ?_ (hshow p (List.mem_of_getLast? hg) (hlast p hg))
      rw [← List.map_reverse, List.getElem?_map]
      have : lines.reverse[0]? = some p := by rw [← List.head?_eq_getElem?, List.head?_reverse, hg]
      rw [this]; rfl
  have hb : back.length = lines.length := by omega
  have hbreak := coloured_endsInBreak hl
  refine ⟨raw, i, j, back, e1, e2, e3, el, ef, hb, ?_⟩
  intro x q hq
  have hx := (List.getElem?_eq_some_iff.1 hq).1
  have hx' : x < back.length := by omega
  obtain ⟨t, e, g1, g2, g3, g4, g5⟩ := e7 x _ (List.getElem?_eq_getElem hx')
  have ht : t = comesBack d.indentmode n q.1 := by
    rw [h3, hk, List.append_assoc, List.getElem?_append_right (by simp), List.length_replicate, Nat.add_sub_cancel_left,
      List.getElem?_append_left (by simpa using hx), List.getElem?_map, hq] at g1
    exact (Option.some.inj g1).symm
  subst ht
  refine ⟨_, e, List.getElem?_eq_getElem hx', g2, fun h0 => g3 ?_, ?_, ?_⟩
  · intro h9
    have hq' := List.mem_of_getElem? hq
    refine hshow q hq' h0 ?_
    have hpl := (hl q hq').1
    have hcols : 0 < columns db (vis q.1) := by
      rcases hpl.shows with h1 | h1
      · exact absurd h1 h0
      · exact seen_columns h1
    have hn := h2.le (vis q.1) (List.mem_map.2 ⟨q, hq', rfl⟩) hcols
    have hvn : comesBack d.indentmode n (vis q.1) = [] := by
      unfold comesBack at h9 ⊢
      split at h9
      · exact absurd h9 h0
      · rename_i hmode
        rw [if_neg hmode]
        have := (coloured_parts hdb hpl h0 hn).2.2.1
        rw [h9] at this
        exact text_nil_inv this
    rw [hvn]; intro c hc; simp at hc
  · intro h5 h6
    refine g4 (by omega) (fun hbr => ?_)
    obtain ⟨p, p1, p2⟩ := hbreak.1 hbr
    rw [List.getLast?_eq_getElem?, (by omega : lines.length - 1 = x), hq] at p1
    obtain rfl := Option.some.inj p1
    exact p2 h6
  · intro h5
    by_cases h6 : x + 1 = lines.length
    · refine g5 (.inr (hbreak.2 ⟨q, ?_, h5.resolve_left (fun h => h h6)⟩))
      rw [List.getLast?_eq_getElem?, (by omega : lines.length - 1 = x), hq]
    · exact g5 (.inl (by omega))

theorem coloured_lines_back (db : CharDb) (hdb : Sane db) (hbr : BreaksSane db) (opt opt' : Opt) (ho : PlainDrawing opt) (ho' : PlainRemoving opt')
    (d d' : Design) (hd : Restorable db d) (hd' : GoodDesign db d') (hshape : d'.shape = d.shape)
    (hpad : wanted opt'.padding.left d'.padding.left = wanted opt.padding.left d.padding.left)
    (hmode : d.indentmode = 'b' → opt'.indentmode = 'b' ∨ opt'.indentmode = '\x00') (junk' : Nat)
    (lines : List (Str × Str)) (vis : Str → Str) (hl : ∀ p ∈ lines, ColouredLine db p.1 (vis p.1) ∧ LineEnd p.2) (hne : lines ≠ [])
    (hfirst : ∀ p, lines[0]? = some p → p.1 ≠ []) (hlast : ∀ p, lines.getLast? = some p → p.1 ≠ [])
    {n above below w : Nat} {out : List (Bxs × Str)} (hbox : RowsOf db opt d lines vis n above below w out) :
      ((∀ p ∈ out, p.1.memory.length < 16370) →
        (opt'.killblank ≠ 0 ∨ (opt'.killblank = 0 ∧ opt'.mend ≠ 0 ∧ opt.reqheight = 0 ∧ opt'.reqheight = 0 ∧
          wanted opt'.padding.top d'.padding.top = wanted opt.padding.top d.padding.top ∧
          wanted opt'.padding.bottom d'.padding.bottom = wanted opt.padding.bottom d.padding.bottom ∧
          out.length = (d.shape NE).height + wanted opt.padding.top d.padding.top + lines.length + wanted opt.padding.bottom d.padding.bottom + (d.shape SE).height)) →
        ∃ raw i j back,
        readAllInput db opt' junk' (out.map (fun p => p.1.memory ++ p.2)) = .ok raw ∧ analyzeInput db opt' d' [] raw = .ok i ∧
        handleRemoveBox db opt' (adjustSizeAndPadding opt' d' i) [] i = .ok (j, back) ∧ LeftTexts db j back ∧
        (j.finalNewline = true ↔ EndsInBreak (lines.map (fun p => p.1 ++ p.2))) ∧ back.length = lines.length ∧
        ∀ (x : Nat) q, lines[x]? = some q → ∃ p e, back[x]? = some p ∧ p.1 = comesBack d.indentmode n q.1 ++ spaces e ∧ (q.1 ≠ [] → e = 0) ∧
          (x + 1 = lines.length → q.2 = [] → p.2 = []) ∧ (x + 1 ≠ lines.length ∨ q.2 ≠ [] → p.2 = opt'.eol)) :=
  lines_back_of db hdb hbr opt opt' d d' junk' lines vis hl hne hfirst hlast hbox.least hbox.room
    (restored_rows db hdb hbr opt opt' ho ho' d d' hd hd' hshape hpad hmode junk' lines vis hl hne hbox)

/-- C78: unless the user asked to keep blank lines, exactly the lines of the text come back if its first and last line are not empty. -/
theorem C78_lines (db : CharDb) (hdb : Sane db) (hbr : BreaksSane db) (opt opt' : Opt) (ho : PlainDrawing opt) (ho' : PlainRemoving opt')
    (d d' : Design) (hd : Restorable db d) (hd' : GoodDesign db d') (hshape : d'.shape = d.shape)
    (hpad : wanted opt'.padding.left d'.padding.left = wanted opt.padding.left d.padding.left)
    (hmode : d.indentmode = 'b' → opt'.indentmode = 'b' ∨ opt'.indentmode = '\x00') (hkill : opt'.killblank ≠ 0) (junk junk' : Nat)
    (lines : List (Str × Str)) (vis : Str → Str) (hl : ∀ p ∈ lines, ColouredLine db p.1 (vis p.1) ∧ LineEnd p.2) (hne : lines ≠ [])
    (hfirst : ∀ p, lines[0]? = some p → p.1 ≠ []) (hlast : ∀ p, lines.getLast? = some p → p.1 ≠ []) (fuel : Nat)
    {r : Res (List (Bxs × Str))} (h : drawOnce db opt d [] junk (lines.map (fun p => p.1 ++ p.2)) fuel = some r) :
    ∃ out n, r = .ok out ∧ LeastIndent db (lines.map (fun p => vis p.1)) n ∧
      ((∀ p ∈ out, p.1.memory.length < 16370) → ∃ raw i j back,
        readAllInput db opt' junk' (out.map (fun p => p.1.memory ++ p.2)) = .ok raw ∧ analyzeInput db opt' d' [] raw = .ok i ∧
        handleRemoveBox db opt' (adjustSizeAndPadding opt' d' i) [] i = .ok (j, back) ∧ LeftTexts db j back ∧
        (j.finalNewline = true ↔ EndsInBreak (lines.map (fun p => p.1 ++ p.2))) ∧ back.length = lines.length ∧
        ∀ (x : Nat) q, lines[x]? = some q → ∃ p e, back[x]? = some p ∧ p.1 = comesBack d.indentmode n q.1 ++ spaces e ∧ (q.1 ≠ [] → e = 0) ∧
          (x + 1 = lines.length → q.2 = [] → p.2 = []) ∧ (x + 1 ≠ lines.length ∨ q.2 ≠ [] → p.2 = opt'.eol)) := by
  obtain ⟨out, n, above, below, w, h1, h2⟩ := rowsOf db hdb hbr opt ho d hd junk lines vis hl hne fuel h
  exact ⟨out, n, h1, h2.least, fun hshort =>
    coloured_lines_back db hdb hbr opt opt' ho ho' d d' hd hd' hshape hpad hmode junk' lines vis hl hne hfirst hlast h2 hshort (.inl hkill)⟩

/-- from the rows of a box around lines that are not empty back to exactly these lines -/
theorem identity_of (db : CharDb) (hdb : Sane db) (hbr : BreaksSane db) (opt opt' : Opt)
    (d d' : Design) (junk' : Nat)
    (hmode : d.indentmode = 't' ∨ (d.indentmode = 'b' ∧ (opt'.indentmode = 'b' ∨ opt'.indentmode = '\x00'))) (hkill : opt'.killblank ≠ 0)
    (lines : List (Str × Str)) (vis : Str → Str) (hl : ∀ p ∈ lines, ColouredLine db p.1 (vis p.1) ∧ p.1 ≠ []) (hne : lines ≠ [])
    (hterm : ∀ (x : Nat) p, lines[x]? = some p → p.2 = opt'.eol ∨ (x + 1 = lines.length ∧ p.2 = [])) (heol : opt'.eol = [0x0a] ∨ opt'.eol = [0x0d, 0x0a])
    {n above below : Nat} {out : List (Bxs × Str)} (h2 : LeastIndent db (lines.map (fun p => vis p.1)) n)
    (hroom : opt.reqheight = 0 → wanted opt.padding.top d.padding.top ≤ above ∧ wanted opt.padding.bottom d.padding.bottom ≤ below)
    (hrest : RestoredRows db opt' d d' junk' lines vis n above below out) :
    ((∀ p ∈ out, p.1.memory.length < 16370) → ∃ raw i j,
        readAllInput db opt' junk' (out.map (fun p => p.1.memory ++ p.2)) = .ok raw ∧ analyzeInput db opt' d' [] raw = .ok i ∧
        handleRemoveBox db opt' (adjustSizeAndPadding opt' d' i) [] i = .ok (j, lines) ∧ LeftTexts db j lines ∧
        (j.finalNewline = true ↔ EndsInBreak (lines.map (fun p => p.1 ++ p.2)))) := by

  have hmem : ∀ p ∈ lines, p.2 = opt'.eol ∨ p.2 = [] := by
    intro p hp
    obtain ⟨x, hx⟩ := List.getElem?_of_mem hp
    exact (hterm x p hx).imp id And.right
  intro hshort
  obtain h3 := lines_back_of db hdb hbr opt opt' d d' junk' lines vis
    (by
      intro p hp
      refine ⟨(hl p hp).1, ?_⟩
      rcases hmem p hp with h | h
      · rw [h]; exact .inr heol
      · exact .inl h) hne (fun p hp => (hl p (List.mem_of_getElem? hp)).2) (fun p hp => (hl p (List.mem_of_getLast? hp)).2) h2 hroom hrest hshort (.inl hkill)
  obtain ⟨raw, i, j, back, e1, e2, e3, el, ef, e4, e5⟩ := h3
  refine ⟨raw, i, j, e1, e2, ?_⟩
  have : back = lines := by
    apply List.ext_getElem?
    intro x
    cases hq : lines[x]? with
    | none => rw [List.getElem?_eq_none_iff] at hq ⊢; omega
    | some q =>
      obtain ⟨p, e, f1, f2, f3, f4, f5⟩ := e5 x q hq
      rw [f1]
      congr 1
      have hm : comesBack d.indentmode n q.1 = q.1 := by
        unfold comesBack
        rw [if_pos (by rcases hmode with h | h; exact .inr h; exact .inl h.1)]
      refine Prod.ext ?_ ?_
      · rw [f2, f3 (hl q (List.mem_of_getElem? hq)).2, hm]; simp [spaces]
      · have hne' : opt'.eol ≠ [] := by rcases heol with h | h <;> simp [h]
        rcases hterm x q hq with h | ⟨h, h'⟩
        · rw [f5 (.inr (by rw [h]; exact hne')), h]
        · rw [f4 h h', h']
  exact ⟨by rw [← this]; exact e3, by rw [← this]; exact el, ef⟩

theorem identity_rows (db : CharDb) (hdb : Sane db) (hbr : BreaksSane db) (opt opt' : Opt) (ho : PlainDrawing opt) (ho' : PlainRemoving opt')
    (d d' : Design) (hd : Restorable db d) (hd' : GoodDesign db d') (hshape : d'.shape = d.shape)
    (hpad : wanted opt'.padding.left d'.padding.left = wanted opt.padding.left d.padding.left)
    (hmode : d.indentmode = 't' ∨ (d.indentmode = 'b' ∧ (opt'.indentmode = 'b' ∨ opt'.indentmode = '\x00'))) (hkill : opt'.killblank ≠ 0) (junk' : Nat)
    (lines : List (Str × Str)) (vis : Str → Str) (hl : ∀ p ∈ lines, ColouredLine db p.1 (vis p.1) ∧ p.1 ≠ []) (hne : lines ≠ [])
    (hterm : ∀ (x : Nat) p, lines[x]? = some p → p.2 = opt'.eol ∨ (x + 1 = lines.length ∧ p.2 = [])) (heol : opt'.eol = [0x0a] ∨ opt'.eol = [0x0d, 0x0a])
    {n above below w : Nat} {out : List (Bxs × Str)} (hbox : RowsOf db opt d lines vis n above below w out) :
    ((∀ p ∈ out, p.1.memory.length < 16370) → ∃ raw i j,
        readAllInput db opt' junk' (out.map (fun p => p.1.memory ++ p.2)) = .ok raw ∧ analyzeInput db opt' d' [] raw = .ok i ∧
        handleRemoveBox db opt' (adjustSizeAndPadding opt' d' i) [] i = .ok (j, lines) ∧ LeftTexts db j lines ∧
        (j.finalNewline = true ↔ EndsInBreak (lines.map (fun p => p.1 ++ p.2)))) :=
  identity_of db hdb hbr opt opt' d d' junk' hmode hkill lines vis hl hne hterm heol hbox.least hbox.room
    (restored_rows db hdb hbr opt opt' ho ho' d d' hd hd' hshape hpad (fun hb => by rcases hmode with h | h; (rw [h] at hb; simp at hb); exact h.2) junk' lines vis
      (fun p hp => ⟨(hl p hp).1, by
        obtain ⟨x, hx⟩ := List.getElem?_of_mem hp
        rcases hterm x p hx with h | h
        · rw [h]; exact .inr heol
        · exact .inl h.2⟩) hne hbox)

/-- C78: drawing a box around a text in colour and removing it again prints exactly the text with all its escape sequences: lines that are not empty, in
the first or second indentation mode (box indented, or text indented inside of the box). -/
theorem C78_identity (db : CharDb) (hdb : Sane db) (hbr : BreaksSane db) (opt opt' : Opt) (ho : PlainDrawing opt) (ho' : PlainRemoving opt')
    (d d' : Design) (hd : Restorable db d) (hd' : GoodDesign db d') (hshape : d'.shape = d.shape)
    (hpad : wanted opt'.padding.left d'.padding.left = wanted opt.padding.left d.padding.left)
    (hmode : d.indentmode = 't' ∨ (d.indentmode = 'b' ∧ (opt'.indentmode = 'b' ∨ opt'.indentmode = '\x00'))) (hkill : opt'.killblank ≠ 0) (junk junk' : Nat)
    (lines : List (Str × Str)) (hl : ∀ p ∈ lines, (∃ v, ColouredLine db p.1 v) ∧ p.1 ≠ []) (hne : lines ≠ [])
    (hterm : ∀ (x : Nat) p, lines[x]? = some p → p.2 = opt'.eol ∨ (x + 1 = lines.length ∧ p.2 = [])) (heol : opt'.eol = [0x0a] ∨ opt'.eol = [0x0d, 0x0a])
    (fuel : Nat) {r : Res (List (Bxs × Str))} (h : drawOnce db opt d [] junk (lines.map (fun p => p.1 ++ p.2)) fuel = some r) :
    ∃ out, r = .ok out ∧ ((∀ p ∈ out, p.1.memory.length < 16370) → ∃ raw i j,
        readAllInput db opt' junk' (out.map (fun p => p.1.memory ++ p.2)) = .ok raw ∧ analyzeInput db opt' d' [] raw = .ok i ∧
        handleRemoveBox db opt' (adjustSizeAndPadding opt' d' i) [] i = .ok (j, lines) ∧ LeftTexts db j lines ∧
        (j.finalNewline = true ↔ EndsInBreak (lines.map (fun p => p.1 ++ p.2)))) := by

  have hmem : ∀ p ∈ lines, p.2 = opt'.eol ∨ p.2 = [] := by
    intro p hp
    obtain ⟨x, hx⟩ := List.getElem?_of_mem hp
    exact (hterm x p hx).imp id And.right
  obtain ⟨vis, hvis⟩ : ∃ vis : Str → Str, ∀ p ∈ lines, ColouredLine db p.1 (vis p.1) := by
    classical
    refine ⟨fun s => if h : ∃ v, ColouredLine db s v then h.choose else [], fun p hp => ?_⟩
    simp only [dif_pos (hl p hp).1]
    exact (hl p hp).1.choose_spec
  obtain ⟨out, n, above, below, w, h1, h2⟩ := rowsOf db hdb hbr opt ho d hd junk lines vis
    (by
      intro p hp
      refine ⟨hvis p hp, ?_⟩
      rcases hmem p hp with h | h
      · rw [h]; exact .inr heol
      · exact .inl h) hne fuel h
  exact ⟨out, h1, identity_rows db hdb hbr opt opt' ho ho' d d' hd hd' hshape hpad hmode hkill junk' lines vis
    (fun p hp => ⟨hvis p hp, (hl p hp).2⟩) hne hterm heol h2⟩

/-! ## Examples -/

/-- lines, one of them in colour -/
def colourLines : List (Str × Str) := [(lit "  \x1b[31ma \x1b[32mb\x1b[0m", [0x0a]), (lit " cd", [0x0a])]

theorem csi_sgr {params : Str} (h : ∀ p ∈ params, 0x30 ≤ p ∧ p ≤ 0x3f) : EscSeq (0x1b :: 0x5b :: (params ++ [0x6d])) :=
  .csi 0x5b params 0x6d (.inl rfl) (by intro p hp; have := h p hp; omega) (by decide) (by decide)

theorem colour_lines : ∀ p ∈ colourLines, (∃ v, ColouredLine sampleDb p.1 v) ∧ p.1 ≠ [] := by
  have red : EscSeq (lit "\x1b[31m") := csi_sgr (params := [0x33, 0x31]) (by decide)
  have green : EscSeq (lit "\x1b[32m") := csi_sgr (params := [0x33, 0x32]) (by decide)
  have hred : ¬ ResetSeq (lit "\x1b[31m") := by
    intro h
    generalize hs : lit "\x1b[31m" = s at h
    cases h with
    | mk o params f h1 h2 h3 h4 =>
      simp only [List.mem_cons, List.not_mem_nil, or_false] at h2
      rcases h2 with rfl | rfl | rfl | rfl | rfl | rfl | rfl <;> simp [lit] at hs <;> omega
  have hreset : ResetSeq (lit "\x1b[0m") := .mk 0x5b [0x30] 0x6d (.inl rfl) (by decide) (by decide) (by decide)
  intro p hp
  simp only [colourLines, List.mem_cons, List.not_mem_nil, or_false] at hp
  rcases hp with rfl | rfl
  · refine ⟨⟨lit "  a b", ?_, by unfold Forbidden; decide +kernel, by decide +kernel, .inr ⟨2, lit "\x1b[31m", 0x61, lit " \x1b[32mb\x1b[0m", by decide, by decide,
      by decide +kernel, .inr ⟨red, hred⟩⟩, .inr ⟨lit "  \x1b[31ma \x1b[32m", lit "  a ", 0x62, lit "\x1b[0m", by decide, ?_, by decide, by decide +kernel, .inr hreset⟩,
      .inr ⟨0x61, by decide, by unfold ShowsChar; decide +kernel⟩, by decide⟩, by decide⟩
    · exact .vis 0x20 (by decide) (.vis 0x20 (by decide) (.esc _ red (.vis 0x61 (by decide) (.vis 0x20 (by decide) (.esc _ green
        (.vis 0x62 (by decide) (.esc _ hreset.esc .nil)))))))
    · exact .vis 0x20 (by decide) (.vis 0x20 (by decide) (.esc _ red (.vis 0x61 (by decide) (.vis 0x20 (by decide) (.esc _ green .nil)))))
  · exact ⟨⟨lit " cd", .plain (by decide), by unfold Forbidden; decide +kernel, by decide +kernel, .inr ⟨1, [], 0x63, lit "d", by decide, by decide,
      by decide +kernel, .inl rfl⟩, .inr ⟨lit " c", lit " c", 0x64, [], by decide, .plain (by decide), by decide, by decide +kernel, .inl rfl⟩,
      .inr ⟨0x63, by decide, by unfold ShowsChar; decide +kernel⟩, by decide⟩, by decide⟩

/-- the hypotheses of `C78_identity` hold of a concrete drawing -/
example {r : Res (List (Bxs × Str))} (h : drawOnce sampleDb {} sampleDesign [] 0 (colourLines.map (fun p => p.1 ++ p.2)) 100 = some r) :
    ∃ out, r = .ok out ∧ ((∀ p ∈ out, p.1.memory.length < 16370) → ∃ raw i j,
        readAllInput sampleDb { r := true } 0 (out.map (fun p => p.1.memory ++ p.2)) = .ok raw ∧ analyzeInput sampleDb { r := true } sampleDesign [] raw = .ok i ∧
        handleRemoveBox sampleDb { r := true } (adjustSizeAndPadding { r := true } sampleDesign i) [] i = .ok (j, colourLines)) := by
  obtain ⟨out, h1, h2⟩ := C78_identity sampleDb sampleDb_sane sampleDb_breaks {} { r := true } plain_drawing plain_removing sampleDesign sampleDesign
    sampleDesign_restorable sampleDesign_good rfl rfl (.inr ⟨rfl, .inr rfl⟩) (by decide) 0 0 colourLines colour_lines (by decide)
    (by
      intro x p hx
      left
      have := List.mem_of_getElem? hx
      simp only [colourLines, List.mem_cons, List.not_mem_nil, or_false] at this
      rcases this with rfl | rfl <;> rfl) (.inl rfl) 100 h
  refine ⟨out, h1, fun hs => ?_⟩
  obtain ⟨raw, i, j, e1, e2, e3, -⟩ := h2 hs
  exact ⟨raw, i, j, e1, e2, e3⟩

/-- the colours come back -/
example : drawAndRemove sampleDb {} { r := true } sampleDesign (colourLines.map (fun p => p.1 ++ p.2)) 100 = some colourLines := by decide +kernel

/-- C78: a sequence in front of the indentation is lost. -/
theorem C78_indentation_disagrees :
    drawAndRemove sampleDb {} { r := true } sampleDesign [lit "\x1b[31m  ab\x1b[0m\n"] 100 = some [(lit "  ab\x1b[0m", [0x0a])] := by decide +kernel

/-- C78: of two sequences in a row behind the indentation, the first one is lost. -/
theorem C78_sequences_disagrees :
    drawAndRemove sampleDb {} { r := true } sampleDesign [lit "  \x1b[1m\x1b[31mab\x1b[0m\n"] 100 = some [(lit "  \x1b[31mab\x1b[0m", [0x0a])] := by decide +kernel

/-- C78: a sequence behind the last character is lost if it is no reset and the box has no room between text and right side. -/
theorem C78_end_disagrees :
    drawAndRemove sampleDb {} { r := true } sampleDesign [lit "  ab\x1b[31m\n", lit "  c\n"] 100 = some [(lit "  ab", [0x0a]), (lit "  c", [0x0a])] := by decide +kernel

end Boxes
