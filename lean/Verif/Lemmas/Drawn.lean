import Verif.Lemmas.Assembled
import Verif.Lemmas.ReadBack
import Verif.Props.RoundTrip

/-!
# Lemmas: the rows of a drawn box, read back
-/
namespace Boxes
open Spec ShapeName
set_option linter.unusedSimpArgs false

/-! ## texts -/

theorem plain_trimmed {db : CharDb} {s : Str} {b r : Bxs} (hp : ∀ c ∈ s, c ≠ 0x1b) (hb : fromUnicode db s = some b)
    (hs : ∃ c ∈ s, ¬ Blank db c) (hr : b.rtrim db = some r) : r.memory = dropTrailing db s ∧ fromUnicode db r.memory = some r := by
  obtain ⟨r', h1, h2, h3, h4⟩ := C04_rtrim db (Text.plain hp) hb hs
  rw [hr] at h1
  obtain rfl := Option.some.inj h1
  obtain ⟨z, hz⟩ := h3
  have := Spec.Text.unique (Text.plain (v := r.memory) (fun c hc => hp c (by rw [← hz]; simp [hc]))) h4
  exact ⟨this, h2⟩

theorem text_of_plain {s v : Str} (hp : ∀ c ∈ s, c ≠ 0x1b) (h : Text s v) : v = s := Spec.Text.unique h (Text.plain hp)

/-- a plain line that is read: itself -/
theorem plain_read {db : CharDb} (hbr : BreaksSane db) {t e q z y : Str} (ht : PlainLine db t)
    (he : LineEnd e) (h1 : t ++ e = q ++ z) (h2 : Text z y) (h3 : ∀ c ∈ y, db.white c = true) (h4 : EndsVisibly db q z) : q = t := by
  have hlf := hbr.lf_white
  have hcr := hbr.cr_white
  have hesc : ∀ c ∈ t ++ e, c ≠ 0x1b := by
    intro c hc
    rcases List.mem_append.1 hc with hc | hc
    · exact (ht.chars c hc).1
    · rcases he with rfl | rfl | rfl <;> simp at hc <;> omega
  have hew : ∀ c ∈ e, db.white c = true := by
    intro c hc
    rcases he with rfl | rfl | rfl
    · simp at hc
    · simp at hc; rw [hc]; exact hlf
    · simp at hc
      rcases hc with rfl | rfl
      · exact hcr
      · exact hlf
  have hz : y = z := text_of_plain (fun c hc => hesc c (by rw [h1]; simp [hc])) h2
  subst hz
  have hqe : q = [] ∨ ∃ p c, q = p ++ [c] ∧ db.white c = false := by
    rcases h4 with h4 | ⟨p, x, c, e', rfl, -, -, h5, h6⟩
    · exact .inl h4
    · rcases h6 with h6 | ⟨rfl, -⟩
      · obtain ⟨e1, e2⟩ : ∃ r, e' = 0x1b :: r := by cases h6 <;> exact ⟨_, rfl⟩
        exact absurd rfl (hesc 0x1b (by rw [h1, e2]; simp))
      · exact .inr ⟨p, c, rfl, h5⟩
  rcases List.append_eq_append_iff.1 h1 with ⟨a, ha, hb⟩ | ⟨a, ha, hb⟩
  · -- q = t ++ a, e = a ++ z
    rcases hqe with h0 | ⟨p, c, h0, hc⟩
    · rw [h0] at ha
      have := List.append_eq_nil_iff.1 ha.symm
      rw [h0, this.1]
    · rcases List.eq_nil_or_concat a with h9 | ⟨a', x, h9⟩
      · rw [ha, h9, List.append_nil]
      · rw [List.concat_eq_append] at h9
        rw [ha, h9, ← List.append_assoc] at h0
        have := (List.append_inj' h0 rfl).2
        simp only [List.cons.injEq, and_true] at this
        have := hew x (by rw [hb, h9]; simp)
        simp_all
  · -- t = q ++ a, z = a ++ e
    rcases List.eq_nil_or_concat a with h9 | ⟨a', x, h9⟩
    · rw [ha, h9, List.append_nil]
    · rw [List.concat_eq_append] at h9
      have h10 := ht.last x (by rw [ha, h9]; simp)
      have h11 := h3 x (by rw [hb, h9]; simp)
      rw [h10] at h11; simp at h11

theorem plain_legit {db : CharDb} {t : Str} (ht : PlainLine db t) : Legit db t := by
  refine ⟨fun c hc => (ht.chars c hc).2.2.2.1, fun c hc hb => ?_⟩
  rw [(ht.chars c hc).2.2.2.2 hb]; simp [Spec.width]

theorem plain_readable {db : CharDb} (hbr : BreaksSane db) {ts : Nat} {t e : Str} (ht : PlainLine db t) (he : LineEnd e) :
    Readable db ts (t ++ e) := by
  have hb : ¬ Blank db 0x0a ∧ ¬ Blank db 0x0d := by
    unfold Blank; rw [hbr.lf_not_blank, hbr.cr_not_blank]; simp
  have hmem : ∀ c ∈ e, c = 0x0a ∨ c = 0x0d := by
    intro c hc
    rcases he with rfl | rfl | rfl <;> simp at hc <;> omega
  have hlen : e.length ≤ 2 := by rcases he with rfl | rfl | rfl <;> simp
  have htab : ¬ (0x09 ∈ t) := by
    intro h
    have := (ht.chars _ h).2.2.2.2 (.inl rfl)
    omega
  refine ⟨t ++ e, t ++ e, Text.plain ?_, ⟨?_, ?_⟩, expand_plain _ _ _ ?_, ?_⟩
  · intro c hc
    rcases List.mem_append.1 hc with hc | hc
    · exact (ht.chars c hc).1
    · have := hmem c hc; omega
  · intro c hc
    rcases List.mem_append.1 hc with hc | hc
    · exact (ht.chars c hc).2.2.2.1
    · intro hf
      rcases hmem c hc with rfl | rfl
      · exact hf.2.2.2.1 rfl
      · exact hf.2.2.1 rfl
  · intro c hc hbl
    rcases List.mem_append.1 hc with hc | hc
    · exact (plain_legit ht).2 c hc hbl
    · rcases hmem c hc with rfl | rfl
      · exact absurd hbl hb.1
      · exact absurd hbl hb.2
  · intro c hc h9
    subst h9
    rcases List.mem_append.1 hc with hc | hc
    · exact htab hc
    · have := hmem _ hc; omega
  · have := ht.short
    rw [List.length_append]; omega

theorem replicate_get {α : Type} {n x : Nat} {a : α} (h : x < n) : (List.replicate n a)[x]? = some a := by
  rw [List.getElem?_replicate, if_pos h]

theorem spaces_append (a b : Nat) : spaces a ++ spaces b = spaces (a + b) := by simp [spaces]

/-- the texts between the sides of a box: empty lines, the lines, empty lines -/
def innerTexts (above below n : Nat) (ts : List Str) : List Str :=
  List.replicate above [] ++ ts.map (List.drop n) ++ List.replicate below []

theorem innerTexts_length (above below n : Nat) (ts : List Str) : (innerTexts above below n ts).length = above + ts.length + below := by
  simp [innerTexts]; omega

/-- the content of row `y` between the sides -/
theorem rowAt_inv {db : CharDb} {opt : Opt} {d : Design} {input : Input} {ls : List (Str × Str)} {ts : List Str} {box : Sides Shape}
    {above below lp rp n y i : Nat} {m : Str} (hj : opt.justify = '\x00') (hw : lp + input.maxline + rp = box.top.width)
    (hlen : ls.length = ts.length)
    (hls : ∀ (x : Nat) p, ls[x]? = some p → ∃ t, ts[x]? = some t ∧ p.2 = t.drop n ∧ p.1 <:+ t ∧ ∀ c ∈ t, c ≠ 0x1b)
    (hfit : ∀ p ∈ ls, columns db p.2 ≤ input.maxline)
    (h : RowAt db opt d input ls box above below lp rp y i m) :
    (y < box.top.height ∧ m = lineText box.top y) ∨
    (∃ k v, (innerTexts above below n ts)[k]? = some v ∧ y = box.top.height + k ∧ columns db v ≤ input.maxline ∧
      m = spaces lp ++ v ++ spaces (rp + (input.maxline - columns db v))) ∨
    (∃ x, x < box.bottom.height ∧ y = box.top.height + (innerTexts above below n ts).length + x ∧ m = lineText box.bottom x) := by
  have hsp : spaces box.top.width = spaces lp ++ [] ++ spaces (rp + (input.maxline - columns db [])) := by
    rw [List.append_nil, spaces_append]
    congr 1
    simp [columns]; omega
  rcases h with ⟨_, h⟩ | ⟨x, h⟩ | ⟨x, p, k, _, h1, h2, h3⟩ | ⟨x, h⟩ | ⟨x, h⟩
  · exact .inl ⟨h, rfl⟩
  · refine .inr (.inl ⟨x, [], ?_, rfl, by simp [columns], hsp⟩)
    unfold innerTexts
    rw [List.append_assoc, List.getElem?_append_left (by simpa using h), replicate_get h]
  · obtain ⟨t, e1, e2, e3, e4⟩ := hls i p h1
    have hk : k = 0 := h2.unjustified (by rw [hj]; decide)
    subst hk
    obtain ⟨t', f1, f2, -, f3, f4⟩ := h3.row
    have hx : i < ts.length := (List.getElem?_eq_some_iff.1 e1).1
    simp only [Int.neg_zero, Int.toNat_zero, List.drop_zero] at f3
    have f5 : t' = p.2 := by
      refine (text_of_plain (fun c hc => e4 c ?_) f3).symm
      exact e3.subset (f1.subset hc)
    refine .inr (.inl ⟨above + i, p.2, ?_, by omega, hfit p (List.mem_of_getElem? h1), ?_⟩)
    · unfold innerTexts
      rw [List.append_assoc, List.getElem?_append_right (by simp), List.length_replicate, Nat.add_sub_cancel_left,
        List.getElem?_append_left (by simpa using hx), List.getElem?_map, e1, e2]
      rfl
    · rw [f4, f5]
      have := hfit p (List.mem_of_getElem? h1)
      congr 2
      omega
  · refine .inr (.inl ⟨above + ts.length + x, [], ?_, by omega, by simp [columns], hsp⟩)
    unfold innerTexts
    rw [List.getElem?_append_right (by simp), List.length_append, List.length_replicate, List.length_map, Nat.add_sub_cancel_left,
      replicate_get h]
  · exact .inr (.inr ⟨x, h, by rw [innerTexts_length]; omega, rfl⟩)

/-- The printed rows are a box indented by `ind` around the texts `vs`, padded as `f` says. -/
structure DrawnRows (db : CharDb) (d : Design) (ind : Nat) (f : Str → Str) (vs : List Str) (out : List (Bxs × Str)) : Prop where
  count : out.length = (d.shape NE).height + vs.length + (d.shape SE).height
  read : ∀ p ∈ out, fromUnicode db p.1.memory = some p.1
  top : ∀ (y : Nat) p, y < (d.shape NE).height → out[y]? = some p → EdgeRow db d true ind y p.1.memory
  body : ∀ (k : Nat) p v, vs[k]? = some v → out[(d.shape NE).height + k]? = some p → BodyRow db d ind (f v) p.1.memory
  bottom : ∀ (y : Nat) p, y < (d.shape SE).height → out[(d.shape NE).height + vs.length + y]? = some p → EdgeRow db d false ind y p.1.memory

theorem seen_not_blankShape {db : CharDb} {d : Design} (hd : Recognisable db d) {n : ShapeName} (hn : n ∈ [NW, NE, SW, SE]) :
    ¬ BlankShape db (d.shape n) := by
  intro h
  have hp : Present (d.shape n) := hd.ready.good.corner n (by revert hn; cases n <;> decide)
  have hlt : 0 < (d.shape n).lines.length := by rw [(hd.ready.good.shapes n hp).height]; exact hp.2.2
  have hm := List.getElem_mem hlt
  obtain ⟨c, h1, h2, -, h3⟩ := hd.corners n hn _ hm
  rcases h hp _ hm _ (Text.plain (hd.plain n hp _ hm)) c h1 with h4 | h4
  · exact h2 h4
  · exact h3 h4

theorem seen_columns {db : CharDb} {s : Str} (h : Seen db s) : 0 < columns db s := by
  obtain ⟨c, h1, -, -, h2⟩ := h
  obtain ⟨a, b, rfl⟩ := List.append_of_mem h1
  simp [columns] 
  omega

theorem line_all {P : Nat → Prop} {d : Design} (hsh : ∀ n, Present (d.shape n) → ∀ b ∈ (d.shape n).lines, ∀ c ∈ b.memory, P c) {n : ShapeName}
    (hp : Present (d.shape n)) {y : Nat} : ∀ c ∈ lineText (d.shape n) y, P c := by
  intro c hc
  unfold lineText at hc
  cases hl : (d.shape n).lines[y]? with
  | none => rw [hl] at hc; simp at hc
  | some b => rw [hl] at hc; exact hsh n hp b (List.mem_of_getElem? hl) c (by simpa using hc)

theorem spaces_all {P : Nat → Prop} (h : P 0x20) (n : Nat) : ∀ c ∈ spaces n, P c := by
  intro c hc
  rw [spaces, List.mem_replicate] at hc
  rw [hc.2]; exact h

/-- the characters of a row of the top or bottom part -/
theorem edge_all {P : Nat → Prop} {db : CharDb} {d : Design} (hd : GoodDesign db d) (hsp : P 0x20)
    (hsh : ∀ n, Present (d.shape n) → ∀ b ∈ (d.shape n).lines, ∀ c ∈ b.memory, P c) {n0 n1 n2 n3 n4 : ShapeName} (h0 : n0 ∈ [NW, NE, SE, SW])
    (h4 : n4 ∈ [NW, NE, SE, SW]) {a b c ind y : Nat} (ha : OccursIn (d.shape n1) a) (hb : OccursIn (d.shape n2) b) (hc : OccursIn (d.shape n3) c) :
    ∀ x ∈ spaces ind ++ lineText (d.shape n0) y ++ times a (lineText (d.shape n1) y) ++ times b (lineText (d.shape n2) y) ++
      times c (lineText (d.shape n3) y) ++ lineText (d.shape n4) y, P x := by
  intro x hx
  have hshape : ∀ n m, OccursIn (d.shape n) m → x ∈ times m (lineText (d.shape n) y) → P x := by
    intro n m ho hm
    obtain ⟨h1, h2⟩ := times_mem hm
    have hp : Present (d.shape n) := Classical.byContradiction fun h => by have := ho.1 h; omega
    exact line_all hsh hp x h2
  simp only [List.mem_append] at hx
  rcases hx with ((((hx | hx) | hx) | hx) | hx) | hx
  · exact spaces_all hsp _ x hx
  · exact line_all hsh (hd.corner n0 h0) x hx
  · exact hshape _ _ ha hx
  · exact hshape _ _ hb hx
  · exact hshape _ _ hc hx
  · exact line_all hsh (hd.corner n4 h4) x hx

theorem edgeRow_all {P : Nat → Prop} {db : CharDb} {d : Design} (hd : GoodDesign db d) (hsp : P 0x20)
    (hsh : ∀ n, Present (d.shape n) → ∀ b ∈ (d.shape n).lines, ∀ c ∈ b.memory, P c) {top : Bool} {ind y : Nat} {row : Str}
    (h : EdgeRow db d top ind y row) : ∀ c ∈ row, P c := by
  obtain ⟨a, b, c, ha, hb, hc, rfl⟩ := h
  intro x hx
  exact edge_all hd hsp hsh (by cases top <;> simp) (by cases top <;> simp) ha hb hc x (dropTrailing_mem hx)

theorem bodyRow_all {P : Nat → Prop} {db : CharDb} {d : Design} (hsp : P 0x20)
    (hsh : ∀ n, Present (d.shape n) → ∀ b ∈ (d.shape n).lines, ∀ c ∈ b.memory, P c) {ind : Nat} {m row : Str} (hm : ∀ c ∈ m, P c)
    (h : BodyRow db d ind m row) : ∀ c ∈ row, P c := by
  obtain ⟨n, -, n', -, hp, hp', b, hb, b', hb', rfl⟩ := h
  intro x hx
  have hx := dropTrailing_mem hx
  simp only [List.mem_append] at hx
  rcases hx with ((hx | hx) | hx) | hx
  · exact spaces_all hsp _ x hx
  · exact hsh n hp b hb x hx
  · exact hm x hx
  · exact hsh n' hp' b' hb' x hx

theorem corner_nonblank {db : CharDb} {d : Design} (hd : Recognisable db d) {n : ShapeName} (hn : n ∈ [NW, NE, SW, SE]) {y : Nat}
    (hy : y < (d.shape n).height) : ∃ c ∈ lineText (d.shape n) y, ¬ Blank db c := by
  have hp : Present (d.shape n) := hd.ready.good.corner n (by revert hn; cases n <;> decide)
  have hlt : y < (d.shape n).lines.length := by rw [(hd.ready.good.shapes n hp).height]; exact hy
  obtain ⟨c, h1, h2, -⟩ := hd.corners n hn _ (List.getElem_mem hlt)
  exact ⟨c, by simp [lineText, List.getElem?_eq_getElem hlt, h1], h2⟩

theorem drawn_rows (db : CharDb) (hdb : Sane db) (hbr : BreaksSane db) (opt : Opt) (ho : PlainDrawing opt) (d : Design) (hd : Restorable db d) (junk : Nat)
    (lines : List (Str × Str)) (hl : ∀ p ∈ lines, PlainLine db p.1 ∧ LineEnd p.2) (hne : lines ≠ []) (fuel : Nat)
    {r : Res (List (Bxs × Str))} (h : drawOnce db opt d [] junk (lines.map (fun p => p.1 ++ p.2)) fuel = some r) :
    ∃ out n above below w, r = .ok out ∧ LeastIndent db (lines.map Prod.fst) n ∧
      (opt.reqheight = 0 → wanted opt.padding.top d.padding.top ≤ above ∧ wanted opt.padding.bottom d.padding.bottom ≤ below) ∧
      DrawnRows db d (if d.indentmode = 'b' then n else 0)
        (fun v => spaces (wanted opt.padding.left d.padding.left) ++ v ++ spaces (w - columns db v))
        (innerTexts above below (if d.indentmode = 't' then 0 else n) (lines.map Prod.fst)) out ∧
      ∀ (x : Nat) p, out[x]? = some p →
        (EndsInBreak (lines.map (fun p => p.1 ++ p.2)) ∨ x + 1 ≠ out.length → p.2 = opt.eol) ∧
        (¬ EndsInBreak (lines.map (fun p => p.1 ++ p.2)) → x + 1 = out.length → p.2 = []) := by
  have hrec := hd.recognisable
  obtain ⟨j, d', box, us, ls, out, above, below, lp, rp, s, e, c1, rfl, c3, c4, c5, c6, c7, c8, c9, c10, c11, c12, c13, c14, c15, c16, c17, c18⟩ :=
    C16_drawing db hdb opt ho.draws ho.tabstop d hrec.ready.good junk _ (by
      intro s hs
      obtain ⟨p, hp, rfl⟩ := List.mem_map.1 hs
      exact plain_readable hbr (hl p hp).1 (hl p hp).2) (by simpa using hne) fuel h
  obtain ⟨p1, p2, p3, p4⟩ := C21_padding opt d j
  have hlpad : (adjustSizeAndPadding opt d j).padding.left = wanted opt.padding.left d.padding.left := by
    by_cases h1 : j.maxline + ((d.shape NW).width + (d.shape NE).width) + (wanted opt.padding.left d.padding.left + wanted opt.padding.right d.padding.right) ≤ d.minwidth ∨
        wanted opt.padding.left d.padding.left + wanted opt.padding.right d.padding.right = 0
    · exact (p2.enough h1).1
    · exact (p2.grow (by omega) (by omega) (by have := ho.reqwidth; simp [this])).1
  have hroom : opt.reqheight = 0 → wanted opt.padding.top d.padding.top ≤ above ∧ wanted opt.padding.bottom d.padding.bottom ≤ below := by
    intro h0
    obtain ⟨box', e1, -, e3⟩ := C20_room db opt d hrec.ready.good j fuel c3
    obtain rfl := Res.ok.inj e1
    have e4 := e3.vertical
    have hn : j.lines.length = ls.length := c6.trans c5.symm
    have hpt : (adjustSizeAndPadding opt d j).padding.top = wanted opt.padding.top d.padding.top ∧
        (adjustSizeAndPadding opt d j).padding.bottom = wanted opt.padding.bottom d.padding.bottom := by
      by_cases h1 : j.lines.length + ((d.shape NW).height + (d.shape SW).height) + (wanted opt.padding.top d.padding.top + wanted opt.padding.bottom d.padding.bottom) ≤ d.minheight ∨
          wanted opt.padding.top d.padding.top + wanted opt.padding.bottom d.padding.bottom = 0
      · exact ⟨(p1.enough h1).1, (p1.enough h1).2.1⟩
      · have := p1.grow (by omega) (by omega) (by simp [h0])
        exact ⟨this.1, this.2.1⟩
    rw [hn] at e4
    have c11 := c11
    rw [linesAbove] at c11
    rw [hpt.1, hpt.2] at c11 e4
    have hs : ∀ x, shareAbove opt.valign x ≤ x := by
      intro x; unfold shareAbove; split
      · omega
      · split <;> omega
    have := hs (box.right.height - (box.top.height + box.bottom.height + ls.length + (wanted opt.padding.top d.padding.top + wanted opt.padding.bottom d.padding.bottom)))
    omega
  have hlp : lp = wanted opt.padding.left d.padding.left := by
    rw [c13, columnsLeft, if_neg (by intro h; exact ho.halign.2 h.2), shareLeft, if_neg ho.halign.1, if_neg ho.halign.2, hlpad]; rfl
  -- no side is left out
  have hs0 : s = 0 := c15.2 (fun hb => seen_not_blankShape hrec (n := NW) (by simp) (hb NW (by simp)))
  have he0 : e = 0 := c16.2 (fun hb => seen_not_blankShape hrec (n := SW) (by simp) (hb SW (by simp)))
  have hleft : ¬ BlankSide db d [SW, WSW, W, WNW, NW] := fun hb => seen_not_blankShape hrec (n := NW) (by simp) (hb NW (by simp))
  subst hs0; subst he0
  -- the lines
  have hu : ∀ (x : Nat) (t : Str × Str), lines[x]? = some t → us[x]? = some (t.1, t.1) ∧ ∃ p, ls[x]? = some p ∧
      Unindented db (if d.indentmode = 't' then 0 else j.indent) (t.1, t.1) p := by
    intro x t ht
    obtain ⟨u, p, q, z, y, g1, g2, g3, g4, g5, g6, g7, g8, g9⟩ := c10 x _ (by rw [List.getElem?_map, ht]; rfl)
    obtain ⟨hl1, hl2⟩ := hl t (List.mem_of_getElem? ht)
    obtain rfl := plain_read hbr hl1 hl2 g3 g4 g5 g6
    have htab : ∀ c ∈ t.1, c ≠ 0x09 := by
      intro c hc h9
      have := (hl1.chars c hc).2.2.2.2 (.inl h9)
      omega
    have e1 : u.1 = t.1 := Spec.Expand.unique g7 (expand_plain _ _ _ htab)
    have e2 : u.2 = t.1 := by rw [e1] at g8; exact text_of_plain (fun c hc => (hl1.chars c hc).1) g8
    have e3 : u = (t.1, t.1) := Prod.ext e1 e2
    rw [e3] at g1 g9
    exact ⟨g1, p, g2, g9⟩
  have hus : us.map Prod.snd = lines.map Prod.fst := by
    apply List.ext_getElem?
    intro x
    rw [List.getElem?_map, List.getElem?_map]
    cases hx : lines[x]? with
    | none =>
      have : us[x]? = none := by
        rw [List.getElem?_eq_none_iff] at hx ⊢
        rw [c4, List.length_map]; exact hx
      rw [this]; rfl
    | some t => rw [(hu x t hx).1]; rfl
  rw [hus] at c7
  have hls : ∀ (x : Nat) p, ls[x]? = some p → ∃ t, (lines.map Prod.fst)[x]? = some t ∧
      p.2 = t.drop (if d.indentmode = 't' then 0 else j.indent) ∧ p.1 <:+ t ∧ ∀ c ∈ t, c ≠ 0x1b := by
    intro x p hp
    have hx : x < lines.length := by
      have := (List.getElem?_eq_some_iff.1 hp).1
      rw [c5, List.length_map] at this; exact this
    have ht := List.getElem?_eq_getElem hx
    obtain ⟨-, p', f1, f2⟩ := hu x _ ht
    rw [hp] at f1
    obtain rfl := Option.some.inj f1
    have hpl := (hl _ (List.mem_of_getElem? ht)).1
    refine ⟨lines[x].1, by rw [List.getElem?_map, ht]; rfl, ?_, ?_, fun c hc => (hpl.chars c hc).1⟩
    · rcases f2 with f2 | ⟨f2, -, rfl⟩
      · exact f2.2.1
      · have : lines[x].1 = [] := by
          rcases hpl.shows with h0 | h0
          · exact h0
          · have := seen_columns h0; simp only at f2; omega
        simp [this]
    · rcases f2 with f2 | ⟨f2, -, rfl⟩
      · exact f2.2.2.1
      · exact List.suffix_refl _
  obtain ⟨hgt, hside⟩ := generateBox_rows (C20_adjusted_design db opt d hrec.ready.good j).2 (by
    unfold Roomy
    rw [p3]
    have h0 : d.minwidth ≤ (adjustSizeAndPadding opt d j).minwidth := by
      by_cases h1 : j.maxline + ((d.shape NW).width + (d.shape NE).width) + (wanted opt.padding.left d.padding.left + wanted opt.padding.right d.padding.right) ≤ d.minwidth ∨
          wanted opt.padding.left d.padding.left + wanted opt.padding.right d.padding.right = 0
      · rw [(p2.enough h1).2.2]; exact Nat.le_refl _
      · rw [(p2.grow (by omega) (by omega) (by have := ho.reqwidth; simp [this])).2.2]; omega
    have := hd.roomy
    unfold Roomy at this
    omega) c3
  have hh := hside.height
  have htop := hside.topHeight
  have hbot := hside.bottomHeight
  rw [p3] at hh htop hbot
  have hcount : out.length = (d.shape NE).height + (innerTexts above below (if d.indentmode = 't' then 0 else j.indent) (lines.map Prod.fst)).length +
      (d.shape SE).height := by
    rw [innerTexts_length, List.length_map]
    rw [c5, List.length_map] at c12
    omega
  have hgt' : hgt = (innerTexts above below (if d.indentmode = 't' then 0 else j.indent) (lines.map Prod.fst)).length := by omega
  -- every row
  have hrow : ∀ (x : Nat) p, out[x]? = some p → ∃ i m, RowAt db opt (adjustSizeAndPadding opt d j) j ls box above below lp rp x i m ∧
      ∀ s, s = spaces (if d.indentmode = 'b' then j.indent else 0) ++ lineText box.left x ++ m ++ lineText box.right x → (∀ c ∈ s, c ≠ 0x1b) →
        (∃ c ∈ s, ¬ Blank db c) → fromUnicode db p.1.memory = some p.1 ∧ p.1.memory = dropTrailing db s := by
    intro x p hx
    obtain ⟨row, i, m, r', g1, g2, g3, g4, g5, -⟩ := c18 x (List.getElem?_eq_some_iff.1 hx).1
    rw [hx] at g5
    obtain rfl := Option.some.inj g5
    rw [Nat.zero_add] at g1 g2
    refine ⟨i, m, g1, ?_⟩
    rintro s rfl hesc hnb
    obtain ⟨ind, left, e1, -, e3, e4⟩ := g2.parts
    have e3 := e3 hleft
    have hind : ind = spaces (if d.indentmode = 'b' then j.indent else 0) := by
      by_cases hb : d.indentmode = 'b'
      · rw [if_pos hb]; exact e1.expanded (by rw [p4]; exact hb) ho.tabs.1 ho.tabs.2
      · rw [if_neg hb]; exact e1.off (by rw [p4]; exact hb)
    rw [e3, hind] at e4
    rw [← e4] at hesc hnb
    obtain ⟨q1, q2⟩ := plain_trimmed hesc g3 hnb g4
    rw [e4] at q1
    exact ⟨q2, q1⟩
  have hinv : ∀ (x i : Nat) m, RowAt db opt (adjustSizeAndPadding opt d j) j ls box above below lp rp x i m → _ := fun x i m h =>
    rowAt_inv (n := if d.indentmode = 't' then 0 else j.indent) ho.justify c14 (by rw [c5]; simp) hls c8 h
  have hplain := hrec.plain
  have hNW : (d.shape NE).height = (d.shape NW).height := hrec.ready.good.north NE (by simp) (hrec.ready.good.corner NE (by simp))
  have hSW : (d.shape SE).height = (d.shape SW).height := hrec.ready.good.south SE (by simp) (hrec.ready.good.corner SE (by simp))
  have gt : ∀ (y : Nat) p, y < (d.shape NE).height → out[y]? = some p → fromUnicode db p.1.memory = some p.1 ∧
      EdgeRow db d true (if d.indentmode = 'b' then j.indent else 0) y p.1.memory := by
    intro y p hy hp
    obtain ⟨i, m, g1, g2⟩ := hrow y p hp
    have hm : m = lineText box.top y := by
      rcases hinv y i m g1 with g | ⟨k, v, -, g, -⟩ | ⟨x, -, g, -⟩
      · exact g.2
      · omega
      · omega
    obtain ⟨a, b, c, o1, o2, o3, o4⟩ := hside.top
    have s1 := hside.leftTop y
    have s2 := hside.rightTop y
    rw [p3] at o1 o2 o3 o4 s1 s2
    have := g2 _ rfl
    rw [hm, o4 y hy, s1 hy, s2 hy] at this
    simp only [← List.append_assoc] at this
    obtain ⟨q1, q2⟩ := this (edge_all hrec.ready.good (by decide) hplain (by simp) (by simp) o1 o2 o3) (by
      obtain ⟨z, z1, z2⟩ := corner_nonblank hrec (n := NE) (by simp) hy
      exact ⟨z, List.mem_append_right _ z1, z2⟩)
    exact ⟨q1, a, b, c, o1, o2, o3, q2⟩
  have gb : ∀ (y : Nat) p, y < (d.shape SE).height → out[(d.shape NE).height + (innerTexts above below (if d.indentmode = 't' then 0 else j.indent) (lines.map Prod.fst)).length + y]? = some p →
      fromUnicode db p.1.memory = some p.1 ∧
      EdgeRow db d false (if d.indentmode = 'b' then j.indent else 0) y p.1.memory := by
    intro y p hy hp
    obtain ⟨i, m, g1, g2⟩ := hrow _ p hp
    have hm : m = lineText box.bottom y := by
      rcases hinv _ i m g1 with g | ⟨k, v, g0, g, -⟩ | ⟨x, -, g, g'⟩
      · omega
      · have := (List.getElem?_eq_some_iff.1 g0).1
        omega
      · rw [g']; congr 1; omega
    obtain ⟨a, b, c, o1, o2, o3, o4⟩ := hside.bottom
    have s1 := hside.leftBottom y
    have s2 := hside.rightBottom y
    rw [p3] at o1 o2 o3 o4 s1 s2
    rw [hgt'] at s1 s2
    have := g2 _ rfl
    rw [hm, o4 y hy, s1 hy, s2 hy] at this
    simp only [← List.append_assoc] at this
    obtain ⟨q1, q2⟩ := this (edge_all hrec.ready.good (by decide) hplain (by simp) (by simp) o1 o2 o3) (by
      obtain ⟨z, z1, z2⟩ := corner_nonblank hrec (n := SE) (by simp) hy
      exact ⟨z, List.mem_append_right _ z1, z2⟩)
    exact ⟨q1, a, b, c, o1, o2, o3, q2⟩
  have gm : ∀ (k : Nat) p v, (innerTexts above below (if d.indentmode = 't' then 0 else j.indent) (lines.map Prod.fst))[k]? = some v →
      out[(d.shape NE).height + k]? = some p → fromUnicode db p.1.memory = some p.1 ∧
      BodyRow db d (if d.indentmode = 'b' then j.indent else 0) (spaces lp ++ v ++ spaces (rp + j.maxline - columns db v)) p.1.memory := by
    intro k p v hv hp
    obtain ⟨i, m, g1, g2⟩ := hrow _ p hp
    have hk := (List.getElem?_eq_some_iff.1 hv).1
    have hm : m = spaces lp ++ v ++ spaces (rp + j.maxline - columns db v) := by
      rcases hinv _ i m g1 with g | ⟨k', v', g0, g, g', g''⟩ | ⟨x, -, g, -⟩
      · omega
      · have hkk : k' = k := by omega
        rw [hkk, hv] at g0
        obtain rfl := Option.some.inj g0
        rw [g'']; congr 2; omega
      · omega
    obtain ⟨n, hn, hp1, b, hb, hbm⟩ := hside.leftBody k (by omega)
    obtain ⟨n', hn', hp1', b', hb', hbm'⟩ := hside.rightBody k (by omega)
    rw [p3] at hp1 hb hbm hp1' hb' hbm'
    have hv' : ∀ c ∈ v, c ≠ 0x1b := by
      intro c hc
      have := List.mem_of_getElem? hv
      simp only [innerTexts, List.mem_append, List.mem_replicate, List.mem_map] at this
      rcases this with (⟨-, rfl⟩ | ⟨t, ⟨q, hq, rfl⟩, rfl⟩) | ⟨-, rfl⟩
      · simp at hc
      · exact ((hl q hq).1.chars c (List.mem_of_mem_drop hc)).1
      · simp at hc
    have := g2 _ rfl
    rw [hm, hbm, hbm'] at this
    obtain ⟨q1, q2⟩ := this (by
      intro c hc
      simp only [List.mem_append] at hc
      rcases hc with ((hc | hc) | ((hc | hc) | hc)) | hc
      · exact spaces_all (P := fun c => c ≠ 0x1b) (by decide) _ c hc
      · exact hplain n hp1 b hb c hc
      · exact spaces_all (P := fun c => c ≠ 0x1b) (by decide) _ c hc
      · exact hv' c hc
      · exact spaces_all (P := fun c => c ≠ 0x1b) (by decide) _ c hc
      · exact hplain n' hp1' b' hb' c hc) (by
      obtain ⟨z, z1, z2⟩ := seen_nonblank (hrec.east n' hn' hp1' b' hb')
      exact ⟨z, List.mem_append_right _ z1, z2⟩)
    exact ⟨q1, n, hn, n', hn', hp1, hp1', b, hb, b', hb', q2⟩
  refine ⟨out, j.indent, above, below, rp + j.maxline, c1, c7, hroom, ⟨hcount, ?_, fun y p h1 h2 => (gt y p h1 h2).2, ?_, fun y p h1 h2 => (gb y p h1 h2).2⟩, ?_⟩
  · intro p hp
    obtain ⟨x, hx⟩ := List.getElem?_of_mem hp
    have hlt := (List.getElem?_eq_some_iff.1 hx).1
    by_cases a1 : x < (d.shape NE).height
    · exact (gt x p a1 hx).1
    · by_cases a2 : x < (d.shape NE).height + (innerTexts above below (if d.indentmode = 't' then 0 else j.indent) (lines.map Prod.fst)).length
      · exact (gm (x - (d.shape NE).height) p _ (List.getElem?_eq_getElem (by omega)) (by rw [← hx]; congr 1; omega)).1
      · exact (gb (x - ((d.shape NE).height + (innerTexts above below (if d.indentmode = 't' then 0 else j.indent) (lines.map Prod.fst)).length)) p
          (by omega) (by rw [← hx]; congr 1; omega)).1
  · intro k p v h1 h2
    rw [← hlp]
    exact (gm k p v h1 h2).2
  · intro x p hx
    obtain ⟨row, i, m, r', -, -, -, -, g5, g6, -⟩ := c18 x (List.getElem?_eq_some_iff.1 hx).1
    rw [hx] at g5
    obtain rfl := Option.some.inj g5
    constructor
    · intro h1
      exact if_pos (h1.imp g6.2 id)
    · intro h1 h2
      refine if_neg ?_
      rintro (h3 | h3)
      · exact h1 (g6.1 h3)
      · exact h3 h2

/-- a character that may occur in the rows that are printed -/
def CleanChar (db : CharDb) (c : Nat) : Prop :=
  c ≠ 0x1b ∧ ¬ Forbidden db c ∧ (Blank db c → Spec.width db c = 1) ∧ c ≠ 0x09 ∧ c ≠ 0x0a ∧ c ≠ 0x0d

theorem cleanChar_space {db : CharDb} (hdb : Sane db) : CleanChar db 0x20 := by
  refine ⟨by decide, ?_, fun _ => by simp [Spec.width], by decide, by decide, by decide⟩
  intro h
  have := h.1
  rw [hdb.space_ok] at this; simp at this

theorem cleanChar_plain {db : CharDb} {t : Str} (h : PlainLine db t) : ∀ c ∈ t, CleanChar db c := by
  intro c hc
  obtain ⟨h1, h2, h3, h4, h5⟩ := h.chars c hc
  refine ⟨h1, h4, fun hb => by rw [h5 hb]; simp [Spec.width], fun h9 => ?_, h2, h3⟩
  have := h5 (.inl h9); omega

theorem cleanChar_shape {db : CharDb} {d : Design} (hd : Restorable db d) (n : ShapeName) (hp : Present (d.shape n)) :
    ∀ b ∈ (d.shape n).lines, ∀ c ∈ b.memory, CleanChar db c := by
  intro b hb c hc
  obtain ⟨h1, h2⟩ := rowChar_shape hd.recognisable hp hb c hc
  obtain ⟨⟨v, g⟩, -⟩ := (hd.recognisable.ready.good.shapes n hp).lines b hb
  have := text_of_plain (hd.recognisable.plain n hp b hb) g.text
  subst this
  exact ⟨h1, g.allowed c hc, h2, hd.clean n hp b hb c hc⟩

theorem leading_le_length (db : CharDb) (v : Str) : leadingBlanks db v ≤ v.length := by
  unfold leadingBlanks
  exact (List.takeWhile_prefix _).length_le

/-- a row that begins with `ind` spaces and shows something behind them -/
theorem leading_ge {db : CharDb} (hdb : Sane db) {ind : Nat} {w : Str} (h : ∃ c ∈ w, ¬ Blank db c) :
    ind ≤ leadingBlanks db (dropTrailing db (spaces ind ++ w)) := by
  rw [dropTrailing_row db _ _ h, leading_before db _ _ (spaces_blank hdb ind)]
  simp [spaces]

theorem leading_flush {db : CharDb} (hdb : Sane db) {ind c : Nat} {w : Str} (h : ¬ Blank db c) :
    leadingBlanks db (dropTrailing db (spaces ind ++ c :: w)) = ind := by
  rw [dropTrailing_row db _ _ ⟨c, by simp, h⟩, leading_before db _ _ (spaces_blank hdb ind)]
  have : ∃ w', dropTrailing db (c :: w) = c :: w' := by
    obtain ⟨x, c', y, e1, e2, e3, e4⟩ := dropTrailing_split db (v := c :: w) ⟨c, by simp, h⟩
    cases x with
    | nil => simp at e1; exact ⟨[], by rw [e4, ← e1.1]; rfl⟩
    | cons a x => simp at e1; exact ⟨x ++ [c'], by rw [e4, ← e1.1]; rfl⟩
  obtain ⟨w', e⟩ := this
  rw [e]
  simp [leadingBlanks, spaces, h]

theorem edge_parts {db : CharDb} {d : Design} (hd : Recognisable db d) {top : Bool} {ind y : Nat} {row : Str}
    (hy : y < (d.shape (if top then NE else SE)).height) (h : EdgeRow db d top ind y row) :
    ∃ w, row = dropTrailing db (spaces ind ++ (lineText (d.shape (if top then NW else SW)) y ++ w)) ∧
      ∃ c ∈ lineText (d.shape (if top then NW else SW)) y ++ w, ¬ Blank db c := by
  obtain ⟨a, b, c, -, -, -, rfl⟩ := h
  refine ⟨_, by simp only [List.append_assoc]; rfl, ?_⟩
  obtain ⟨z, z1, z2⟩ := corner_nonblank hd (n := if top then NE else SE) (by cases top <;> simp) hy
  exact ⟨z, by simp only [List.mem_append]; right; right; right; right; exact z1, z2⟩

theorem body_parts {db : CharDb} {d : Design} (hd : Recognisable db d) {ind : Nat} {m row : Str} (h : BodyRow db d ind m row) :
    ∃ w, row = dropTrailing db (spaces ind ++ w) ∧ Seen db w := by
  obtain ⟨n, hn, n', hn', hp, hp', b, hb, b', hb', rfl⟩ := h
  refine ⟨b.memory ++ m ++ b'.memory, by simp only [List.append_assoc], ?_⟩
  obtain ⟨z, z1, z2⟩ := hd.west n hn hp b hb
  exact ⟨z, by simp [z1], z2⟩

/-- the characters of the rows, and that every row shows something behind the indentation -/
theorem drawn_clean {db : CharDb} (hdb : Sane db) {d : Design}
    (hd : Restorable db d) {ind lp w : Nat} {vs : List Str} {out : List (Bxs × Str)}
    (hrows : DrawnRows db d ind (fun v => spaces lp ++ v ++ spaces (w - columns db v)) vs out) (hvs : ∀ v ∈ vs, ∀ c ∈ v, CleanChar db c) :
    (∀ p ∈ out, ∀ c ∈ p.1.memory, CleanChar db c) ∧ ∀ p ∈ out, Seen db p.1.memory ∧ ind ≤ leadingBlanks db p.1.memory := by
  have hrec := hd.recognisable
  have hm : ∀ v ∈ vs, ∀ c ∈ spaces lp ++ v ++ spaces (w - columns db v), CleanChar db c := by
    intro v hv c hc
    simp only [List.mem_append] at hc
    rcases hc with (hc | hc) | hc
    · exact spaces_all (cleanChar_space hdb) _ c hc
    · exact hvs v hv c hc
    · exact spaces_all (cleanChar_space hdb) _ c hc
  have hcases : ∀ p ∈ out, (∃ top y, y < (d.shape (if top then NE else SE)).height ∧ EdgeRow db d top ind y p.1.memory) ∨
      ∃ v ∈ vs, BodyRow db d ind (spaces lp ++ v ++ spaces (w - columns db v)) p.1.memory := by
    intro p hp
    obtain ⟨x, hx⟩ := List.getElem?_of_mem hp
    have hlt := (List.getElem?_eq_some_iff.1 hx).1
    have hc := hrows.count
    by_cases a1 : x < (d.shape NE).height
    · exact .inl ⟨true, x, a1, hrows.top x p a1 hx⟩
    · by_cases a2 : x < (d.shape NE).height + vs.length
      · have hk : x - (d.shape NE).height < vs.length := by omega
        exact .inr ⟨_, List.getElem_mem hk, hrows.body _ p _ (List.getElem?_eq_getElem hk) (by rw [← hx]; congr 1; omega)⟩
      · exact .inl ⟨false, x - ((d.shape NE).height + vs.length), by simp; omega, hrows.bottom _ p (by omega) (by rw [← hx]; congr 1; omega)⟩
  have hchars : ∀ p ∈ out, ∀ c ∈ p.1.memory, CleanChar db c := by
    intro p hp
    rcases hcases p hp with ⟨top, y, -, h⟩ | ⟨v, hv, h⟩
    · exact edgeRow_all hrec.ready.good (cleanChar_space hdb) (cleanChar_shape hd) h
    · exact bodyRow_all (cleanChar_space hdb) (cleanChar_shape hd) (hm v hv) h
  have hseen : ∀ p ∈ out, Seen db p.1.memory ∧ ind ≤ leadingBlanks db p.1.memory := by
    intro p hp
    rcases hcases p hp with ⟨top, y, hy, h⟩ | ⟨v, hv, h⟩
    · refine ⟨edgeRow_seen hrec hy h, ?_⟩
      obtain ⟨w, e1, e2⟩ := edge_parts hrec hy h
      rw [e1]; exact leading_ge hdb e2
    · obtain ⟨w, e1, e2⟩ := body_parts hrec h
      rw [e1]
      refine ⟨seen_drop ?_, leading_ge hdb (seen_nonblank e2)⟩
      obtain ⟨c, c1, c2⟩ := e2
      exact ⟨c, by simp [c1], c2⟩
  exact ⟨hchars, hseen⟩

/-- the printed rows, read to remove the box -/
theorem drawn_reread {db : CharDb} (hdb : Sane db) {opt : Opt} (hr : opt.r = true) (ht : 1 ≤ opt.tabstop) (junk : Nat) (d2 : Design) {d : Design}
    (hd : Restorable db d) {ind lp w : Nat} {vs : List Str} {out : List (Bxs × Str)}
    (hrows : DrawnRows db d ind (fun v => spaces lp ++ v ++ spaces (w - columns db v)) vs out) (hvs : ∀ v ∈ vs, ∀ c ∈ v, CleanChar db c)
    (hend : ∀ p ∈ out, p.2 = [] ∨ p.2 = [0x0a] ∨ p.2 = [0x0d, 0x0a]) (hshort : ∀ p ∈ out, p.1.memory.length < 16370) :
    ∃ i j, readAllInput db opt junk (out.map (fun p => p.1.memory ++ p.2)) = .ok i ∧ analyzeInput db opt d2 [] i = .ok j ∧
      j.indent = ind ∧ (j.finalNewline = true ↔ ∃ p, out.getLast? = some p ∧ p.2 ≠ []) ∧
      (∀ l ∈ j.lines, l.tabpos.Pairwise (fun a b => a + tabCols opt.tabstop a ≤ b)) ∧
      j.lines.map Line.text = out.map (fun p => some p.1) ∧
      ∀ d3 : Design, d3.shape = d.shape → d3.padding.left = lp →
        BoxAround db d3 ind (vs.map (fun v => spaces lp ++ v ++ spaces (w - columns db v))) j.lines := by
  have hrec := hd.recognisable
  have hpNE := hrec.ready.good.corner NE (by decide)
  have hNE : 0 < (d.shape NE).height := hpNE.2.2
  have hm : ∀ v ∈ vs, ∀ c ∈ spaces lp ++ v ++ spaces (w - columns db v), CleanChar db c := by
    intro v hv c hc
    simp only [List.mem_append] at hc
    rcases hc with (hc | hc) | hc
    · exact spaces_all (cleanChar_space hdb) _ c hc
    · exact hvs v hv c hc
    · exact spaces_all (cleanChar_space hdb) _ c hc
  obtain ⟨hchars, hseen⟩ := drawn_clean hdb hd hrows hvs
  have hne : out ≠ [] := by
    intro h0
    have := hrows.count
    rw [h0] at this; simp at this; omega
  obtain ⟨i, j, j1, j2, j3, j4, j5, j6⟩ := reread (db := db) hr ht junk d2 (out.map (fun p => (p.1.memory, p.2))) (by simpa using hne) (by
    intro q hq
    obtain ⟨p, hp, rfl⟩ := List.mem_map.1 hq
    refine ⟨⟨?_, fun c hc => (hchars p hp c hc).2.2.2.1, ?_, hshort p hp⟩, hend p hp⟩
    · obtain ⟨c, hc, -⟩ := (hseen p hp).1
      intro h0
      simp only at h0
      rw [h0] at hc; simp at hc
    · intro c hc
      have := (hchars p hp c (List.mem_of_getLast? hc)).2.2.2
      exact ⟨this.2.1, this.2.2⟩) (by
    intro q hq
    obtain ⟨p, hp, rfl⟩ := List.mem_map.1 hq
    exact ⟨fun c hc => (hchars p hp c hc).1, fun c hc => (hchars p hp c hc).2.1, fun c hc => (hchars p hp c hc).2.2.1⟩)
  rw [List.map_map] at j1 j3 j6
  have hline : ∀ (x : Nat) l b, j.lines[x]? = some l → l.text = some b → ∃ p, out[x]? = some p ∧ b = p.1 := by
    intro x l b hl hb
    have := congrArg (fun l : List (Option Bxs) => l[x]?) j3
    simp only [List.getElem?_map, hl, Option.map_some, hb] at this
    cases hx : out[x]? with
    | none => rw [hx] at this; simp at this
    | some p =>
      rw [hx] at this
      simp only [Option.map_some, Function.comp, Option.some.injEq] at this
      rw [hrows.read p (List.mem_of_getElem? hx)] at this
      exact ⟨p, rfl, Option.some.inj this⟩
  have hlen : j.lines.length = out.length := by simpa using congrArg List.length j3
  refine ⟨i, j, j1, j2, ?_, ?_, j4, ?_, ?_⟩
  · -- the indentation
    obtain ⟨n, hn, b, hb, c, r, hbm, hc⟩ := hd.flush
    have hNW : (d.shape NE).height = (d.shape NW).height := hrec.ready.good.north NE (by simp) hpNE
    have hSW : (d.shape SE).height = (d.shape SW).height := hrec.ready.good.south SE (by simp) (hrec.ready.good.corner SE (by simp))
    obtain ⟨y, hy⟩ := List.getElem?_of_mem hb
    have hlt := (List.getElem?_eq_some_iff.1 hy).1
    have hflush : ∃ p ∈ out, leadingBlanks db p.1.memory = ind := by
      have hlm : lineText (d.shape n) y = c :: r := by simp [lineText, hy, hbm]
      simp only [List.mem_cons, List.not_mem_nil, or_false] at hn
      have hcnt := hrows.count
      rcases hn with rfl | rfl
      · rw [(hrec.ready.good.shapes NW (hrec.ready.good.corner NW (by simp))).height] at hlt
        have hlt' : y < out.length := by omega
        have hp := List.getElem?_eq_getElem hlt'
        obtain ⟨w, e1, -⟩ := edge_parts hrec (top := true) (by simp; omega) (hrows.top y _ (by omega) hp)
        refine ⟨_, List.mem_of_getElem? hp, ?_⟩
        rw [e1]
        simp only [if_true, hlm]
        exact leading_flush hdb hc
      · rw [(hrec.ready.good.shapes SW (hrec.ready.good.corner SW (by simp))).height] at hlt
        have hlt' : (d.shape NE).height + vs.length + y < out.length := by omega
        have hp := List.getElem?_eq_getElem hlt'
        obtain ⟨w, e1, -⟩ := edge_parts hrec (top := false) (by simp; omega) (hrows.bottom y _ (by omega) hp)
        refine ⟨_, List.mem_of_getElem? hp, ?_⟩
        rw [e1]
        simp only [Bool.false_eq_true, if_false, hlm]
        exact leading_flush hdb hc
    obtain ⟨p, hp, hpi⟩ := hflush
    have hle := j6.le p.1.memory (List.mem_map.2 ⟨p, hp, rfl⟩) (seen_columns (hseen p hp).1)
    rcases j6.attained ⟨p.1.memory, List.mem_map.2 ⟨p, hp, rfl⟩, seen_columns (hseen p hp).1⟩ with h0 | ⟨v, hv, -, h0⟩
    · have := leading_le_length db p.1.memory
      have := hshort p hp
      omega
    · obtain ⟨q, hq, rfl⟩ := List.mem_map.1 hv
      have := (hseen q hq).2
      simp only [Function.comp] at h0
      omega
  · rw [j5, List.getLast?_map]
    cases hx : out.getLast? with
    | none => simp
    | some p => simp
  · rw [j3]
    refine List.map_congr_left (fun p hp => ?_)
    exact hrows.read p hp
  · intro d3 h3 hp3
    refine ⟨?_, ?_, ?_, ?_, ?_, ?_, ?_, ?_, ?_⟩
    · rw [h3, hlen, hrows.count, List.length_map]
    · intro l hl
      obtain ⟨x, hx⟩ := List.getElem?_of_mem hl
      have := congrArg (fun l : List (Option Bxs) => l[x]?) j3
      simp only [List.getElem?_map, hx, Option.map_some] at this
      cases ho : out[x]? with
      | none => rw [ho] at this; simp at this
      | some p =>
        rw [ho] at this
        simp only [Option.map_some, Function.comp, Option.some.injEq] at this
        have hread := hrows.read p (List.mem_of_getElem? ho)
        rw [hread] at this
        exact ⟨p.1, this, hread⟩
    · intro y l b hy hl hb
      obtain ⟨p, hp, rfl⟩ := hline y l b hl hb
      have := hrows.top y p (by rw [← h3]; exact hy) hp
      simpa only [EdgeRow, h3] using this
    · intro k l b m hm' hl hb
      obtain ⟨p, hp, rfl⟩ := hline _ l b hl hb
      rw [List.getElem?_map] at hm'
      cases hv : vs[k]? with
      | none => rw [hv] at hm'; simp at hm'
      | some v =>
        rw [hv] at hm'
        obtain rfl := Option.some.inj hm'
        have := hrows.body k p v hv (by rw [← h3]; exact hp)
        simpa only [BodyRow, h3] using this
    · intro y l b hy hl hb
      obtain ⟨p, hp, rfl⟩ := hline _ l b hl hb
      have := hrows.bottom y p (by rw [← h3]; exact hy) (by rw [← hp, h3, List.length_map])
      simpa only [EdgeRow, h3] using this
    · intro m hm'
      obtain ⟨v, hv, rfl⟩ := List.mem_map.1 hm'
      rw [hp3]
      constructor
      · simp [spaces]
      · intro c hc
        rw [List.append_assoc, List.take_append_of_le_length (by simp [spaces])] at hc
        have hc := List.mem_of_mem_take hc
        exact ⟨spaces_blank hdb lp c hc, spaces_all (P := fun c => c ≠ 0x1b) (by decide) _ c hc⟩
    · intro m hm'
      obtain ⟨v, hv, rfl⟩ := List.mem_map.1 hm'
      exact ⟨_, Spec.Text.plain (fun c hc => (hm v hv c hc).1), fun c hc => (hm v hv c hc).2.2.1⟩
    · intro m hm'
      obtain ⟨v, hv, rfl⟩ := List.mem_map.1 hm'
      exact fun c hc => (hm v hv c hc).2.1
    · intro m hm'
      obtain ⟨v, hv, rfl⟩ := List.mem_map.1 hm'
      exact ⟨frontKept_plain (fun c hc => (hm v hv c (List.mem_of_mem_drop hc)).1), backKept_plain (fun c hc => (hm v hv c hc).1)⟩

end Boxes
