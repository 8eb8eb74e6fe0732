import Verif.Lemmas.InColour
import Verif.Lemmas.DrawnText
import Verif.Props.Text

/-!
# Drawing a box in colour
-/
namespace Boxes
open Spec ShapeName
set_option linter.unusedSimpArgs false

theorem inColour_memory {db : CharDb} {d e : Design} (hd : InColour db d e) {n : ShapeName} (hp : Present (e.shape n)) {y : Nat} {b : Bxs}
    (hb : (e.shape n).lines[y]? = some b) : ∃ b', (d.shape n).lines[y]? = some b' ∧ Text b.memory b'.memory := by
  have hs := hd.same.shapes n
  have hy := (List.getElem?_eq_some_iff.1 hb).1
  have hy' : y < (d.shape n).lines.length := by rw [← hs.count]; exact hy
  have hb' := List.getElem?_eq_getElem hy'
  obtain ⟨⟨v, h1, h2⟩, -⟩ := hs.lines y _ _ hb' hb
  have := (Text.plain (hd.plain.plain n (hd.present.1 hp) _ (List.mem_of_getElem? hb'))).unique h1
  exact ⟨_, hb', by rw [this]; exact h2⟩

theorem inColour_line {db : CharDb} {d e : Design} (hd : InColour db d e) {n : ShapeName} (hp : Present (e.shape n)) (y : Nat) :
    Text (lineText (e.shape n) y) (lineText (d.shape n) y) := by
  unfold lineText
  cases hb : (e.shape n).lines[y]? with
  | none =>
    have : (d.shape n).lines[y]? = none := by
      rw [List.getElem?_eq_none_iff] at hb ⊢
      rw [← (hd.same.shapes n).count]; exact hb
    rw [this]; exact .nil
  | some b =>
    obtain ⟨b', h1, h2⟩ := inColour_memory hd hp hb
    rw [h1]; exact h2

theorem text_times {s v : Str} (h : Text s v) : ∀ a, Text (times a s) (times a v)
  | 0 => .nil
  | a + 1 => by
    simp only [times, List.replicate_succ, List.flatten_cons]
    exact h.append (text_times h a)

theorem inColour_occurs {db : CharDb} {d e : Design} (hd : InColour db d e) {n : ShapeName} {a : Nat} (h : OccursIn (e.shape n) a) : OccursIn (d.shape n) a := by
  unfold OccursIn at *
  rw [hd.present, (hd.same.shapes n).elastic] at h
  exact h

theorem inColour_times {db : CharDb} {d e : Design} (hd : InColour db d e) {n : ShapeName} {a : Nat} (h : OccursIn (e.shape n) a) (y : Nat) :
    Text (times a (lineText (e.shape n) y)) (times a (lineText (d.shape n) y)) := by
  by_cases hp : Present (e.shape n)
  · exact text_times (inColour_line hd hp y) a
  · rw [h.1 hp]; exact .nil

theorem inColour_corner {db : CharDb} {d e : Design} (hd : InColour db d e) {n : ShapeName} (hn : n ∈ [NW, NE, SE, SW]) : Present (e.shape n) :=
  hd.present.2 (hd.plain.ready.good.corner n hn)

theorem inColour_notBlank {db : CharDb} {d e : Design} (hd : InColour db d e) {n : ShapeName} (hn : n ∈ [NW, NE, SE, SW]) : ¬ BlankShape db (e.shape n) := by
  intro hb
  refine seen_not_blankShape hd.plain (n := n) (by revert hn; cases n <;> decide) ?_
  intro hp b hbm v hv c hc
  obtain ⟨y, hy⟩ := List.getElem?_of_mem hbm
  have hlt : y < (e.shape n).lines.length := by rw [(hd.same.shapes n).count]; exact (List.getElem?_eq_some_iff.1 hy).1
  obtain ⟨b', h1, h2⟩ := inColour_memory hd (hd.present.2 hp) (List.getElem?_eq_getElem hlt)
  rw [hy] at h1
  obtain rfl := Option.some.inj h1
  have := (Text.plain (hd.plain.plain n hp _ hbm)).unique hv
  exact hb (hd.present.2 hp) _ (List.getElem_mem hlt) b.memory h2 c (by rw [this]; exact hc)

theorem inColour_roomy {db : CharDb} {d e : Design} (hd : InColour db d e) (h : Roomy d) : Roomy e := by
  unfold Roomy at *
  simp only [(hd.same.shapes _).width, hd.same.minwidth]
  exact h

/-- an edge in colour -/
theorem inColour_edge {db : CharDb} {d e : Design} (hd : InColour db d e) {n0 n1 n2 n3 n4 : ShapeName} (h0 : n0 ∈ [NW, NE, SE, SW])
    (h4 : n4 ∈ [NW, NE, SE, SW]) {a b c ind y : Nat} (ha : OccursIn (e.shape n1) a) (hb : OccursIn (e.shape n2) b) (hc : OccursIn (e.shape n3) c) :
    Text (spaces ind ++ lineText (e.shape n0) y ++ times a (lineText (e.shape n1) y) ++ times b (lineText (e.shape n2) y) ++
      times c (lineText (e.shape n3) y) ++ lineText (e.shape n4) y)
      (spaces ind ++ lineText (d.shape n0) y ++ times a (lineText (d.shape n1) y) ++ times b (lineText (d.shape n2) y) ++
      times c (lineText (d.shape n3) y) ++ lineText (d.shape n4) y) :=
  (((((Text.plain (spaces_ne _)).append (inColour_line hd (inColour_corner hd h0) y)).append (inColour_times hd ha y)).append (inColour_times hd hb y)).append
    (inColour_times hd hc y)).append (inColour_line hd (inColour_corner hd h4) y)

/-- a row that ends in something to see is not trimmed -/
theorem ends_untrimmed {db : CharDb} {s v : Str} {c : Nat} {x r : Bxs} (h : Text s (v ++ [c])) (hc : ¬ Blank db c) (hx : fromUnicode db s = some x)
    (hr : x.rtrim db = some r) : r.memory = s ∧ fromUnicode db r.memory = some r := by
  obtain ⟨m1, -, -, -, -, -, -, -, m9⟩ := C01_metrics db h hx
  have : x.trailing = 0 := m9 v c [] rfl hc (by simp)
  rw [Bxs.rtrim, if_pos this] at hr
  obtain rfl := Option.some.inj hr
  rw [m1]; exact ⟨rfl, hx⟩

/-- A row of a box in colour around the text `m`. -/
def ColouredRow (e : Design) (ind : Nat) (m row : Str) : Prop :=
  ∃ n ∈ [WNW, W, WSW], ∃ n' ∈ [ENE, E, ESE], Present (e.shape n) ∧ Present (e.shape n') ∧
    ∃ w ∈ (e.shape n).lines, ∃ x ∈ (e.shape n').lines, row = spaces ind ++ w.memory ++ m ++ x.memory

/-- The printed rows are a box indented by `ind` around the texts `qs`, behind `lp` spaces, filled up to `w` columns, drawn with `e`, which is `d` in colour. -/
structure DrawnColoured (db : CharDb) (d e : Design) (ind lp w : Nat) (qs : List (Str × Str)) (out : List (Bxs × Str)) : Prop where
  count : out.length = (e.shape NE).height + qs.length + (e.shape SE).height
  read : ∀ p ∈ out, fromUnicode db p.1.memory = some p.1
  top : ∀ (y : Nat) p, y < (e.shape NE).height → out[y]? = some p →
    (∀ c ∈ p.1.memory, RowCharOk db c) ∧ ∃ row, Text p.1.memory row ∧ EdgeRow db d true ind y row
  body : ∀ (k : Nat) p q, qs[k]? = some q → out[(e.shape NE).height + k]? = some p →
    ColouredRow e ind (spaces lp ++ q.1 ++ spaces (w - columns db q.2)) p.1.memory
  bottom : ∀ (y : Nat) p, y < (e.shape SE).height → out[(e.shape NE).height + qs.length + y]? = some p →
    (∀ c ∈ p.1.memory, RowCharOk db c) ∧ ∃ row, Text p.1.memory row ∧ EdgeRow db d false ind y row

theorem tinted_rows (db : CharDb) (hdb : Sane db) (hbr : BreaksSane db) (opt : Opt) (ho : PlainDrawing opt) (d0 d : Design) (hd : InColour db d0 d) (hroomy : Roomy d0) (junk : Nat)
    (lines : List (Str × Str)) (vis : Str → Str) (hl : ∀ p ∈ lines, ColouredLine db p.1 (vis p.1) ∧ LineEnd p.2) (hne : lines ≠ []) (fuel : Nat)
    {r : Res (List (Bxs × Str))} (h : drawOnce db opt d [] junk (lines.map (fun p => p.1 ++ p.2)) fuel = some r) :
    ∃ out n above below w, r = .ok out ∧ LeastIndent db (lines.map (fun p => vis p.1)) n ∧
      (opt.reqheight = 0 → wanted opt.padding.top d.padding.top ≤ above ∧ wanted opt.padding.bottom d.padding.bottom ≤ below) ∧
      DrawnColoured db d0 d (if d.indentmode = 'b' then n else 0) (wanted opt.padding.left d.padding.left) w
        (innerPairs above below (if d.indentmode = 't' then 0 else n) (lines.map (fun p => (p.1, vis p.1)))) out ∧
      (∀ q ∈ innerPairs above below (if d.indentmode = 't' then 0 else n) (lines.map (fun p => (p.1, vis p.1))), Piece db q) ∧
      ∀ (x : Nat) p, out[x]? = some p →
        (EndsInBreak (lines.map (fun p => p.1 ++ p.2)) ∨ x + 1 ≠ out.length → p.2 = opt.eol) ∧
        (¬ EndsInBreak (lines.map (fun p => p.1 ++ p.2)) → x + 1 = out.length → p.2 = []) := by
  have hrec := hd.plain
  obtain ⟨j, d', box, us, ls, out, above, below, lp, rp, s, e, c1, rfl, c3, c4, c5, c6, c7, c8, c9, c10, c11, c12, c13, c14, c15, c16, c17, c18⟩ :=
    C16_drawing db hdb opt ho.draws ho.tabstop d hd.ready.good junk _ (by
      intro s hs
      obtain ⟨p, hp, rfl⟩ := List.mem_map.1 hs
      exact coloured_readable hbr (hl p hp).1 (hl p hp).2) (by simpa using hne) fuel h
  obtain ⟨p1, p2, p3, p4⟩ := C21_padding opt d j
  have hlpad : (adjustSizeAndPadding opt d j).padding.left = wanted opt.padding.left d.padding.left := by
    by_cases h1 : j.maxline + ((d.shape NW).width + (d.shape NE).width) + (wanted opt.padding.left d.padding.left + wanted opt.padding.right d.padding.right) ≤ d.minwidth ∨
        wanted opt.padding.left d.padding.left + wanted opt.padding.right d.padding.right = 0
    · exact (p2.enough h1).1
    · exact (p2.grow (by omega) (by omega) (by have := ho.reqwidth; simp [this])).1
  have hroom : opt.reqheight = 0 → wanted opt.padding.top d.padding.top ≤ above ∧ wanted opt.padding.bottom d.padding.bottom ≤ below := by
    intro h0
    obtain ⟨box', e1, -, e3⟩ := C20_room db opt d hd.ready.good j fuel c3
    obtain rfl := Res.ok.inj e1
    have e4 := e3.vertical
    have hn : j.lines.length = ls.length := c6.trans c5.symm
    have hpt : (adjustSizeAndPadding opt d j).padding.top = wanted opt.padding.top d.padding.top ∧
        (adjustSizeAndPadding opt d j).padding.bottom = wanted opt.padding.bottom d.padding.bottom := by
      by_cases h1 : j.lines.length + ((d.shape NW).height + (d.shape SW).height) + (wanted opt.padding.top d.padding.top + wanted opt.padding.bottom d.padding.bottom) ≤ d.minheight ∨
          wanted opt.padding.top d.padding.top + wanted opt.padding.bottom d.padding.bottom = 0
      · exact ⟨(p1.enough h1).1, (p1.enough h1).2.1⟩
      · have := p1.grow (by omega) (by omega) (by simp [h0])
        exact ⟨this.1, this.2.1⟩
    rw [hn] at e4
    have c11 := c11
    rw [linesAbove] at c11
    rw [hpt.1, hpt.2] at c11 e4
    have hs : ∀ x, shareAbove opt.valign x ≤ x := by
      intro x; unfold shareAbove; split
      · omega
      · split <;> omega
    have := hs (box.right.height - (box.top.height + box.bottom.height + ls.length + (wanted opt.padding.top d.padding.top + wanted opt.padding.bottom d.padding.bottom)))
    omega
  have hlp : lp = wanted opt.padding.left d.padding.left := by
    rw [c13, columnsLeft, if_neg (by intro h; exact ho.halign.2 h.2), shareLeft, if_neg ho.halign.1, if_neg ho.halign.2, hlpad]; rfl
  -- no side is left out
  have hs0 : s = 0 := c15.2 (fun hb => inColour_notBlank hd (n := NW) (by simp) (hb NW (by simp)))
  have he0 : e = 0 := c16.2 (fun hb => inColour_notBlank hd (n := SW) (by simp) (hb SW (by simp)))
  have hleft : ¬ BlankSide db d [SW, WSW, W, WNW, NW] := fun hb => inColour_notBlank hd (n := NW) (by simp) (hb NW (by simp))
  subst hs0; subst he0
  -- the lines
  have hu : ∀ (x : Nat) (t : Str × Str), lines[x]? = some t → us[x]? = some (t.1, vis t.1) ∧ ∃ p, ls[x]? = some p ∧
      Unindented db (if d.indentmode = 't' then 0 else j.indent) (t.1, vis t.1) p := by
    intro x t ht
    obtain ⟨u, p, q, z, y, g1, g2, g3, g4, g5, g6, g7, g8, g9⟩ := c10 x _ (by rw [List.getElem?_map, ht]; rfl)
    obtain ⟨hl1, hl2⟩ := hl t (List.mem_of_getElem? ht)
    obtain rfl := coloured_read hbr hl1 hl2 g3 g4 g5 g6
    have htab : ∀ c ∈ t.1, c ≠ 0x09 := fun c hc => (hl1.chars c hc).1
    have e1 : u.1 = t.1 := Spec.Expand.unique g7 (expand_plain _ _ _ htab)
    have e2 : u.2 = vis t.1 := by rw [e1] at g8; exact g8.unique hl1.text
    have e3 : u = (t.1, vis t.1) := Prod.ext e1 e2
    rw [e3] at g1 g9
    exact ⟨g1, p, g2, g9⟩
  have hus : us.map Prod.snd = lines.map (fun p => vis p.1) := by
    apply List.ext_getElem?
    intro x
    rw [List.getElem?_map, List.getElem?_map]
    cases hx : lines[x]? with
    | none =>
      have : us[x]? = none := by
        rw [List.getElem?_eq_none_iff] at hx ⊢
        rw [c4, List.length_map]; exact hx
      rw [this]; rfl
    | some t => rw [(hu x t hx).1]; rfl
  rw [hus] at c7
  have hlead : ∀ p ∈ lines, p.1 ≠ [] → (if d.indentmode = 't' then 0 else j.indent) ≤ leadingBlanks db (vis p.1) := by
    intro p hp h0
    have hpl := (hl p hp).1
    have := c7.le (vis p.1) (List.mem_map.2 ⟨p, hp, rfl⟩) (by
      rcases hpl.shows with h1 | h1
      · exact absurd h1 h0
      · exact seen_columns h1)
    split <;> omega
  have hpieces : ∀ q ∈ innerPairs above below (if d.indentmode = 't' then 0 else j.indent) (lines.map (fun p => (p.1, vis p.1))), Piece db q := by
    intro q hq
    simp only [innerPairs, List.mem_append, List.mem_replicate, List.mem_map] at hq
    rcases hq with (⟨-, rfl⟩ | ⟨t, ⟨p, hp, rfl⟩, rfl⟩) | ⟨-, rfl⟩
    · exact piece_nil db
    · exact coloured_piece hdb (hl p hp).1 (hlead p hp)
    · exact piece_nil db
  have hls : ∀ (x : Nat) p, ls[x]? = some p → ∃ t, (lines.map (fun p => (p.1, vis p.1)))[x]? = some t ∧
      p.1 = t.1.drop (if d.indentmode = 't' then 0 else j.indent) ∧ p.2 = t.2.drop (if d.indentmode = 't' then 0 else j.indent) ∧ (p.2 = [] → p.1 = []) := by
    intro x p hp
    have hx : x < lines.length := by
      have := (List.getElem?_eq_some_iff.1 hp).1
      rw [c5, List.length_map] at this; exact this
    have ht := List.getElem?_eq_getElem hx
    obtain ⟨-, p', f1, f2⟩ := hu x _ ht
    rw [hp] at f1
    obtain rfl := Option.some.inj f1
    have hm := List.mem_of_getElem? ht
    have hpl := (hl _ hm).1
    refine ⟨(lines[x].1, vis lines[x].1), by rw [List.getElem?_map, ht]; rfl, ?_⟩
    by_cases h0 : lines[x].1 = []
    · have hv0 : vis lines[x].1 = [] := by have := hpl.text; rw [h0] at this ⊢; exact text_nil_inv this
      have hpair : (lines[x].1, vis lines[x].1) = ([], []) := Prod.ext h0 hv0
      rw [hpair] at f2 ⊢
      rw [unindented_nil f2]
      simp
    · obtain ⟨e1, e2, e3, e4, e5, e6⟩ := coloured_parts hdb hpl h0 (hlead _ hm h0)
      rcases f2 with f2 | ⟨f2, -, rfl⟩
      · refine ⟨?_, f2.2.1, fun h9 => absurd (f2.2.1.symm.trans h9) e5⟩
        by_cases hn0 : (if d.indentmode = 't' then 0 else j.indent) = 0
        · rw [hn0]
          have hvne : vis lines[x].1 ≠ [] := by intro h; rw [h] at e5; simp at e5
          exact f2.2.2.2.1 hn0 hvne
        · exact from_unique hpl.text (f2.2.2.2.2 (by omega)) e6
      · rcases hpl.shows with h1 | h1
        · exact absurd h1 h0
        · have := seen_columns h1; simp only at f2; omega
  obtain ⟨hgt, hside⟩ := generateBox_rows (C20_adjusted_design db opt d hd.ready.good j).2 (by
    unfold Roomy
    rw [p3]
    have h0 : d.minwidth ≤ (adjustSizeAndPadding opt d j).minwidth := by
      by_cases h1 : j.maxline + ((d.shape NW).width + (d.shape NE).width) + (wanted opt.padding.left d.padding.left + wanted opt.padding.right d.padding.right) ≤ d.minwidth ∨
          wanted opt.padding.left d.padding.left + wanted opt.padding.right d.padding.right = 0
      · rw [(p2.enough h1).2.2]; exact Nat.le_refl _
      · rw [(p2.grow (by omega) (by omega) (by have := ho.reqwidth; simp [this])).2.2]; omega
    have := inColour_roomy hd hroomy
    unfold Roomy at this
    omega) c3
  have hh := hside.height
  have htop := hside.topHeight
  have hbot := hside.bottomHeight
  rw [p3] at hh htop hbot
  have hcount : out.length = (d.shape NE).height + (innerPairs above below (if d.indentmode = 't' then 0 else j.indent) (lines.map (fun p => (p.1, vis p.1)))).length +
      (d.shape SE).height := by
    rw [innerPairs_length, List.length_map]
    rw [c5, List.length_map] at c12
    omega
  have hgt' : hgt = (innerPairs above below (if d.indentmode = 't' then 0 else j.indent) (lines.map (fun p => (p.1, vis p.1)))).length := by omega
  -- every row
  have hrow : ∀ (x : Nat) p, out[x]? = some p → ∃ i m, RowAt db opt (adjustSizeAndPadding opt d j) j ls box above below lp rp x i m ∧
      ∃ row, fromUnicode db (spaces (if d.indentmode = 'b' then j.indent else 0) ++ lineText box.left x ++ m ++ lineText box.right x) = some row ∧
        row.rtrim db = some p.1 := by
    intro x p hx
    obtain ⟨row, i, m, r', g1, g2, g3, g4, g5, -⟩ := c18 x (List.getElem?_eq_some_iff.1 hx).1
    rw [hx] at g5
    obtain rfl := Option.some.inj g5
    rw [Nat.zero_add] at g1 g2
    refine ⟨i, m, g1, ?_⟩
    obtain ⟨ind, left, e1, -, e3, e4⟩ := g2.parts
    have e3 := e3 hleft
    have hind : ind = spaces (if d.indentmode = 'b' then j.indent else 0) := by
      by_cases hb : d.indentmode = 'b'
      · rw [if_pos hb]; exact e1.expanded (by rw [p4]; exact hb) ho.tabs.1 ho.tabs.2
      · rw [if_neg hb]; exact e1.off (by rw [p4]; exact hb)
    rw [e3, hind] at e4
    rw [e4] at g3
    exact ⟨row, g3, g4⟩
  have hinv : ∀ (x i : Nat) m, RowAt db opt (adjustSizeAndPadding opt d j) j ls box above below lp rp x i m → _ := fun x i m h =>
    pairsAt_inv (n := if d.indentmode = 't' then 0 else j.indent) ho.justify c14 (by rw [c5]; simp) hls c8 h
  have hNE : (d.shape NE).height = (d0.shape NE).height := (hd.same.shapes NE).height
  have hSE : (d.shape SE).height = (d0.shape SE).height := (hd.same.shapes SE).height
  have hNW : (d.shape NE).height = (d.shape NW).height := hd.ready.good.north NE (by simp) (hd.ready.good.corner NE (by simp))
  have hSW : (d.shape SE).height = (d.shape SW).height := hd.ready.good.south SE (by simp) (hd.ready.good.corner SE (by simp))
  have gt : ∀ (y : Nat) p, y < (d.shape NE).height → out[y]? = some p → fromUnicode db p.1.memory = some p.1 ∧
      (∀ c ∈ p.1.memory, RowCharOk db c) ∧ ∃ row, Text p.1.memory row ∧ EdgeRow db d0 true (if d.indentmode = 'b' then j.indent else 0) y row := by
    intro y p hy hp
    obtain ⟨i, m, g1, g2⟩ := hrow y p hp
    have hm : m = lineText box.top y := by
      rcases hinv y i m g1 with g | ⟨k, v, -, g, -⟩ | ⟨x, -, g, -⟩
      · exact g.2
      · omega
      · omega
    obtain ⟨a, b, c, o1, o2, o3, o4⟩ := hside.top
    have s1 := hside.leftTop y
    have s2 := hside.rightTop y
    rw [p3] at o1 o2 o3 o4 s1 s2
    have := g2
    rw [hm, o4 y hy, s1 hy, s2 hy] at this
    simp only [← List.append_assoc] at this
    obtain ⟨row, hfrom, htrim⟩ := this
    have htext := inColour_edge (ind := if d.indentmode = 'b' then j.indent else 0) (y := y) hd (n0 := NW) (n4 := NE) (by simp) (by simp) o1 o2 o3
    obtain ⟨c0, hc0, hc1⟩ := corner_nonblank hrec (n := NE) (by simp) (y := y) (by omega)
    obtain ⟨r', q1, q2, q3, q4⟩ := C04_rtrim db htext hfrom ⟨c0, List.mem_append_right _ hc0, hc1⟩
    rw [htrim] at q1
    obtain rfl := Option.some.inj q1
    have hall := edge_all (P := RowCharOk db) (ind := if d.indentmode = 'b' then j.indent else 0) (y := y) hd.ready.good (rowCharOk_space hdb) hd.clean
      (n0 := NW) (n4 := NE) (by simp) (by simp) o1 o2 o3
    exact ⟨q2, fun c hc => hall c (q3.subset hc), _, q4, a, b, c, inColour_occurs hd o1, inColour_occurs hd o2, inColour_occurs hd o3, rfl⟩
  have gb : ∀ (y : Nat) p, y < (d.shape SE).height → out[(d.shape NE).height + (innerPairs above below (if d.indentmode = 't' then 0 else j.indent) (lines.map (fun p => (p.1, vis p.1)))).length + y]? = some p →
      fromUnicode db p.1.memory = some p.1 ∧
      (∀ c ∈ p.1.memory, RowCharOk db c) ∧ ∃ row, Text p.1.memory row ∧ EdgeRow db d0 false (if d.indentmode = 'b' then j.indent else 0) y row := by
    intro y p hy hp
    obtain ⟨i, m, g1, g2⟩ := hrow _ p hp
    have hm : m = lineText box.bottom y := by
      rcases hinv _ i m g1 with g | ⟨k, v, g0, g, -⟩ | ⟨x, -, g, g'⟩
      · omega
      · have := (List.getElem?_eq_some_iff.1 g0).1
        omega
      · rw [g']; congr 1; omega
    obtain ⟨a, b, c, o1, o2, o3, o4⟩ := hside.bottom
    have s1 := hside.leftBottom y
    have s2 := hside.rightBottom y
    rw [p3] at o1 o2 o3 o4 s1 s2
    rw [hgt'] at s1 s2
    have := g2
    rw [hm, o4 y hy, s1 hy, s2 hy] at this
    simp only [← List.append_assoc] at this
    obtain ⟨row, hfrom, htrim⟩ := this
    have htext := inColour_edge (ind := if d.indentmode = 'b' then j.indent else 0) (y := y) hd (n0 := SW) (n4 := SE) (by simp) (by simp) o1 o2 o3
    obtain ⟨c0, hc0, hc1⟩ := corner_nonblank hrec (n := SE) (by simp) (y := y) (by omega)
    obtain ⟨r', q1, q2, q3, q4⟩ := C04_rtrim db htext hfrom ⟨c0, List.mem_append_right _ hc0, hc1⟩
    rw [htrim] at q1
    obtain rfl := Option.some.inj q1
    have hall := edge_all (P := RowCharOk db) (ind := if d.indentmode = 'b' then j.indent else 0) (y := y) hd.ready.good (rowCharOk_space hdb) hd.clean
      (n0 := SW) (n4 := SE) (by simp) (by simp) o1 o2 o3
    exact ⟨q2, fun c hc => hall c (q3.subset hc), _, q4, a, b, c, inColour_occurs hd o1, inColour_occurs hd o2, inColour_occurs hd o3, rfl⟩
  have gm : ∀ (k : Nat) p v, (innerPairs above below (if d.indentmode = 't' then 0 else j.indent) (lines.map (fun p => (p.1, vis p.1))))[k]? = some v →
      out[(d.shape NE).height + k]? = some p → fromUnicode db p.1.memory = some p.1 ∧
      ColouredRow d (if d.indentmode = 'b' then j.indent else 0) (spaces lp ++ v.1 ++ spaces (rp + j.maxline - columns db v.2)) p.1.memory := by
    intro k p v hv hp
    obtain ⟨i, m, g1, g2⟩ := hrow _ p hp
    have hk := (List.getElem?_eq_some_iff.1 hv).1
    have hm : m = spaces lp ++ v.1 ++ spaces (rp + j.maxline - columns db v.2) := by
      rcases hinv _ i m g1 with g | ⟨k', v', g0, g, g', g''⟩ | ⟨x, -, g, -⟩
      · omega
      · have hkk : k' = k := by omega
        rw [hkk, hv] at g0
        obtain rfl := Option.some.inj g0
        rw [g'']; congr 2; omega
      · omega
    obtain ⟨n, hn, hp1, b, hb, hbm⟩ := hside.leftBody k (by omega)
    obtain ⟨n', hn', hp1', b', hb', hbm'⟩ := hside.rightBody k (by omega)
    rw [p3] at hp1 hb hbm hp1' hb' hbm'
    have hv' := hpieces v (List.mem_of_getElem? hv)
    have := g2
    rw [hm, hbm, hbm'] at this
    obtain ⟨row, hfrom, htrim⟩ := this
    obtain ⟨w0, hw0⟩ := ready_text hd.ready hp1 hb
    obtain ⟨x1, x2, x3, x4, x5, x6, x7, x8, x9⟩ := hd.east n' hn' hp1' b' hb'
    have hx : Text b'.memory (x2 ++ [x3]) := by rw [x5]; exact x6.append (.vis x3 x7 x9)
    have htext := (((Text.plain (spaces_ne (if d.indentmode = 'b' then j.indent else 0))).append hw0).append
      (((Text.plain (spaces_ne lp)).append hv'.text).append (Text.plain (spaces_ne (rp + j.maxline - columns db v.2))))).append hx
    rw [← List.append_assoc _ x2] at htext
    obtain ⟨q2, q1⟩ := ends_untrimmed htext x8 hfrom htrim
    exact ⟨q1, n, hn, n', hn', hp1, hp1', b, hb, b', hb', q2⟩
  refine ⟨out, j.indent, above, below, rp + j.maxline, c1, c7, hroom, ⟨hcount, ?_, fun y p h1 h2 => (gt y p h1 h2).2, ?_, fun y p h1 h2 => (gb y p h1 h2).2⟩, hpieces, ?_⟩
  · intro p hp
    obtain ⟨x, hx⟩ := List.getElem?_of_mem hp
    have hlt := (List.getElem?_eq_some_iff.1 hx).1
    by_cases a1 : x < (d.shape NE).height
    · exact (gt x p a1 hx).1
    · by_cases a2 : x < (d.shape NE).height + (innerPairs above below (if d.indentmode = 't' then 0 else j.indent) (lines.map (fun p => (p.1, vis p.1)))).length
      · exact (gm (x - (d.shape NE).height) p _ (List.getElem?_eq_getElem (by omega)) (by rw [← hx]; congr 1; omega)).1
      · exact (gb (x - ((d.shape NE).height + (innerPairs above below (if d.indentmode = 't' then 0 else j.indent) (lines.map (fun p => (p.1, vis p.1)))).length)) p
          (by omega) (by rw [← hx]; congr 1; omega)).1
  · intro k p v h1 h2
    rw [← hlp]
    exact (gm k p v h1 h2).2
  · intro x p hx
    obtain ⟨row, i, m, r', -, -, -, -, g5, g6, -⟩ := c18 x (List.getElem?_eq_some_iff.1 hx).1
    rw [hx] at g5
    obtain rfl := Option.some.inj g5
    constructor
    · intro h1
      exact if_pos (h1.imp g6.2 id)
    · intro h1 h2
      refine if_neg ?_
      rintro (h3 | h3)
      · exact h1 (g6.1 h3)
      · exact h3 h2

/-! ## what is printed, as it is read again -/

theorem printedRow_tintedEdge {db : CharDb} (hdb : Sane db) {d : Design} (hd : Restorable db d) {top : Bool} {ind y : Nat} {s row : Str}
    (hy : y < (d.shape (if top then NE else SE)).height) (hs : ∀ c ∈ s, RowCharOk db c) (ht : Text s row) (h : EdgeRow db d top ind y row) : PrintedRow db ind s row := by
  obtain ⟨-, -, h3, h4, h5⟩ := printedRow_edge hdb hd hy h
  exact ⟨ht, hs, h3, h4, h5⟩

theorem legit_append {db : CharDb} {a b : Str} (ha : Legit db a) (hb : Legit db b) : Legit db (a ++ b) :=
  ⟨fun c hc => (List.mem_append.1 hc).elim (ha.1 c) (hb.1 c), fun c hc => (List.mem_append.1 hc).elim (ha.2 c) (hb.2 c)⟩

theorem legit_spaces {db : CharDb} (hdb : Sane db) (n : Nat) : Legit db (spaces n) :=
  ⟨fun c hc => (spaces_all (cleanChar_space hdb) _ c hc).2.1, fun c hc => (spaces_all (cleanChar_space hdb) _ c hc).2.2.1⟩

theorem printedRow_tintedBody {db : CharDb} (hdb : Sane db) {d e : Design} (hd : InColour db d e) {ind lp k : Nat} {q : Str × Str} (hq : Piece db q) {row : Str}
    (h : ColouredRow e ind (spaces lp ++ q.1 ++ spaces k) row) : ∃ v, PrintedRow db ind row v := by
  obtain ⟨n, hn, n', hn', hp, hp', b, hb, b', hb', rfl⟩ := h
  obtain ⟨v, hv1, hv2⟩ := ready_narrow hd.ready hp hb
  obtain ⟨v', hv1', hv2'⟩ := ready_narrow hd.ready hp' hb'
  have hbc := hd.clean n hp b hb
  have hbc' := hd.clean n' hp' b' hb'
  have hok : ∀ {m}, ∀ c ∈ spaces m, RowCharOk db c := fun {m} c hc => spaces_all (rowCharOk_space hdb) _ c hc
  refine ⟨spaces ind ++ v ++ (spaces lp ++ q.2 ++ spaces k) ++ v', ?_, ?_, ?_, ?_, ?_⟩
  · exact (((Text.plain (spaces_ne _)).append hv1).append (((Text.plain (spaces_ne _)).append hq.text).append (Text.plain (spaces_ne _)))).append hv1'
  · intro c hc
    simp only [List.mem_append] at hc
    rcases hc with ((hc | hc) | ((hc | hc) | hc)) | hc
    · exact hok c hc
    · exact hbc c hc
    · exact hok c hc
    · exact hq.chars c hc
    · exact hok c hc
    · exact hbc' c hc
  · refine legit_append (legit_append (legit_append (legit_spaces hdb _) ⟨fun c hc => (hbc c (text_mem hv1 c hc)).2.2.2, hv2⟩)
      (legit_append (legit_append (legit_spaces hdb _) ⟨fun c hc => (hq.chars c (text_mem hq.text c hc)).2.2.2, ?_⟩) (legit_spaces hdb _)))
      ⟨fun c hc => (hbc' c (text_mem hv1' c hc)).2.2.2, hv2'⟩
    intro c hc hbl
    rw [hq.blanks c hc hbl]; simp [Spec.width]
  · obtain ⟨y, hy⟩ := List.getElem?_of_mem hb
    obtain ⟨b0, z1, z2⟩ := inColour_memory hd hp hy
    obtain ⟨z, z3, z4⟩ := hd.plain.west n hn (hd.present.1 hp) b0 (List.mem_of_getElem? z1)
    rw [← z2.unique hv1]
    exact ⟨z, by simp [z3], z4⟩
  · simp only [List.append_assoc]
    rw [leading_before db _ _ (spaces_blank hdb ind)]
    simp [spaces]

theorem drawnColoured_rows {db : CharDb} (hdb : Sane db) {d0 d : Design} (hd0 : Restorable db d0) (hd : InColour db d0 d) {ind lp w : Nat} {qs : List (Str × Str)} {out : List (Bxs × Str)}
    (hrows : DrawnColoured db d0 d ind lp w qs out) (hqs : ∀ q ∈ qs, Piece db q) : ∀ p ∈ out, ∃ v, PrintedRow db ind p.1.memory v := by
  intro p hp
  obtain ⟨x, hx⟩ := List.getElem?_of_mem hp
  have hlt := (List.getElem?_eq_some_iff.1 hx).1
  have hc := hrows.count
  have hNE : (d.shape NE).height = (d0.shape NE).height := (hd.same.shapes NE).height
  have hSE : (d.shape SE).height = (d0.shape SE).height := (hd.same.shapes SE).height
  by_cases a1 : x < (d.shape NE).height
  · obtain ⟨h1, row, h2, h3⟩ := hrows.top x p a1 hx
    exact ⟨_, printedRow_tintedEdge hdb hd0 (top := true) (by simp; omega) h1 h2 h3⟩
  · by_cases a2 : x < (d.shape NE).height + qs.length
    · have hk : x - (d.shape NE).height < qs.length := by omega
      exact printedRow_tintedBody hdb hd (hqs _ (List.getElem_mem hk)) (hrows.body _ p _ (List.getElem?_eq_getElem hk) (by rw [← hx]; congr 1; omega))
    · obtain ⟨h1, row, h2, h3⟩ := hrows.bottom (x - ((d.shape NE).height + qs.length)) p (by omega) (by rw [← hx]; congr 1; omega)
      exact ⟨_, printedRow_tintedEdge hdb hd0 (top := false) (by simp; omega) h1 h2 h3⟩

/-- the printed rows in colour, read to remove the box -/
theorem tinted_reread {db : CharDb} (hdb : Sane db) {opt : Opt} (hr : opt.r = true) (ht : 1 ≤ opt.tabstop) (junk : Nat) (d2 : Design) {d0 d : Design}
    (hd0 : Restorable db d0) (hd : InColour db d0 d) {ind lp w : Nat} {qs : List (Str × Str)} {out : List (Bxs × Str)}
    (hrows : DrawnColoured db d0 d ind lp w qs out) (hqs : ∀ q ∈ qs, Piece db q)
    (hend : ∀ p ∈ out, p.2 = [] ∨ p.2 = [0x0a] ∨ p.2 = [0x0d, 0x0a]) (hshort : ∀ p ∈ out, p.1.memory.length < 16370) :
    ∃ i j, readAllInput db opt junk (out.map (fun p => p.1.memory ++ p.2)) = .ok i ∧ analyzeInput db opt d2 [] i = .ok j ∧
      j.indent = ind ∧ (j.finalNewline = true ↔ ∃ p, out.getLast? = some p ∧ p.2 ≠ []) ∧
      (∀ l ∈ j.lines, l.tabpos.Pairwise (fun a b => a + tabCols opt.tabstop a ≤ b)) ∧
      j.lines.map Line.text = out.map (fun p => some p.1) ∧
      ∀ d30 d3 : Design, d30.shape = d0.shape → d3.shape = d.shape → d3.padding.left = lp →
        ColouredBox db d30 d3 ind (qs.map (fun q => spaces lp ++ q.1 ++ spaces (w - columns db q.2))) j.lines := by
  have hrec := hd0.recognisable
  have hsNE : (d.shape NE).height = (d0.shape NE).height := (hd.same.shapes NE).height
  have hsSE : (d.shape SE).height = (d0.shape SE).height := (hd.same.shapes SE).height
  have hpNE := hrec.ready.good.corner NE (by decide)
  have hNE : 0 < (d0.shape NE).height := hpNE.2.2
  have hpr := drawnColoured_rows hdb hd0 hd hrows hqs
  obtain ⟨vis, hvis⟩ : ∃ vis : Str → Str, ∀ p ∈ out, PrintedRow db ind p.1.memory (vis p.1.memory) := by
    classical
    refine ⟨fun s => if h : ∃ v, PrintedRow db ind s v then h.choose else [], fun p hp => ?_⟩
    simp only [dif_pos (hpr p hp)]
    exact (hpr p hp).choose_spec
  have hne : out ≠ [] := by
    intro h0
    have := hrows.count
    rw [h0] at this; simp at this; omega
  obtain ⟨i, j, j1, j2, j3, j4, j5, j6⟩ := reread_text (db := db) hr ht junk d2 (out.map (fun p => (p.1.memory, p.2))) vis (by simpa using hne) (by
    intro q hq
    obtain ⟨p, hp, rfl⟩ := List.mem_map.1 hq
    have hv := hvis p hp
    refine ⟨⟨?_, fun c hc => (hv.chars c hc).1, ?_, hshort p hp⟩, hend p hp⟩
    · obtain ⟨c, hc, -⟩ := hv.seen
      have := text_mem hv.text c hc
      intro h0
      simp only at h0
      rw [h0] at this; simp at this
    · intro c hc
      have := hv.chars c (List.mem_of_getLast? hc)
      exact ⟨this.2.1, this.2.2.1⟩) (by
    intro q hq
    obtain ⟨p, hp, rfl⟩ := List.mem_map.1 hq
    exact ⟨(hvis p hp).text, (hvis p hp).legit⟩)
  rw [List.map_map] at j1 j3 j6
  have hline : ∀ (x : Nat) l b, j.lines[x]? = some l → l.text = some b → ∃ p, out[x]? = some p ∧ b = p.1 := by
    intro x l b hl hb
    have := congrArg (fun l : List (Option Bxs) => l[x]?) j3
    simp only [List.getElem?_map, hl, Option.map_some, hb] at this
    cases hx : out[x]? with
    | none => rw [hx] at this; simp at this
    | some p =>
      rw [hx] at this
      simp only [Option.map_some, Function.comp, Option.some.injEq] at this
      rw [hrows.read p (List.mem_of_getElem? hx)] at this
      exact ⟨p, rfl, Option.some.inj this⟩
  have hlen : j.lines.length = out.length := by simpa using congrArg List.length j3
  refine ⟨i, j, j1, j2, ?_, ?_, j4, ?_, ?_⟩
  · -- the indentation
    obtain ⟨n, hn, b, hb, c, r, hbm, hc⟩ := hd0.flush
    have hNW : (d0.shape NE).height = (d0.shape NW).height := hrec.ready.good.north NE (by simp) hpNE
    have hSW : (d0.shape SE).height = (d0.shape SW).height := hrec.ready.good.south SE (by simp) (hrec.ready.good.corner SE (by simp))
    obtain ⟨y, hy⟩ := List.getElem?_of_mem hb
    have hlt := (List.getElem?_eq_some_iff.1 hy).1
    have hflush : ∃ p ∈ out, leadingBlanks db (vis p.1.memory) = ind := by
      have hlm : lineText (d0.shape n) y = c :: r := by simp [lineText, hy, hbm]
      simp only [List.mem_cons, List.not_mem_nil, or_false] at hn
      have hcnt := hrows.count
      rcases hn with rfl | rfl
      · rw [(hrec.ready.good.shapes NW (hrec.ready.good.corner NW (by simp))).height] at hlt
        have hlt' : y < out.length := by omega
        have hp := List.getElem?_eq_getElem hlt'
        obtain ⟨hchars, row, htext, hrow⟩ := hrows.top y _ (by omega) hp
        obtain ⟨w, e1, -⟩ := edge_parts hrec (top := true) (by simp; omega) hrow
        refine ⟨_, List.mem_of_getElem? hp, ?_⟩
        rw [(hvis _ (List.mem_of_getElem? hp)).text.unique htext, e1]
        simp only [if_true, hlm]
        exact leading_flush hdb hc
      · rw [(hrec.ready.good.shapes SW (hrec.ready.good.corner SW (by simp))).height] at hlt
        have hlt' : (d.shape NE).height + qs.length + y < out.length := by omega
        have hp := List.getElem?_eq_getElem hlt'
        obtain ⟨hchars, row, htext, hrow⟩ := hrows.bottom y _ (by omega) hp
        obtain ⟨w, e1, -⟩ := edge_parts hrec (top := false) (by simp; omega) hrow
        refine ⟨_, List.mem_of_getElem? hp, ?_⟩
        rw [(hvis _ (List.mem_of_getElem? hp)).text.unique htext, e1]
        simp only [Bool.false_eq_true, if_false, hlm]
        exact leading_flush hdb hc
    obtain ⟨p, hp, hpi⟩ := hflush
    have hcol := seen_columns (hvis p hp).seen
    have hle := j6.le (vis p.1.memory) (List.mem_map.2 ⟨p, hp, rfl⟩) hcol
    rcases j6.attained ⟨vis p.1.memory, List.mem_map.2 ⟨p, hp, rfl⟩, hcol⟩ with h0 | ⟨v, hv, -, h0⟩
    · have := leading_le_length db (vis p.1.memory)
      have := text_length_le (hvis p hp).text
      have := hshort p hp
      omega
    · obtain ⟨q, hq, rfl⟩ := List.mem_map.1 hv
      have := (hvis q hq).indented
      simp only [Function.comp] at h0
      omega
  · rw [j5, List.getLast?_map]
    cases hx : out.getLast? with
    | none => simp
    | some p => simp
  · rw [j3]
    refine List.map_congr_left (fun p hp => ?_)
    exact hrows.read p hp
  · intro d30 d3 h30 h3 hp3
    have hread : ∀ l ∈ j.lines, ∃ p ∈ out, l.text = some p.1 := by
      intro l hl
      obtain ⟨x, hx⟩ := List.getElem?_of_mem hl
      have := congrArg (fun l : List (Option Bxs) => l[x]?) j3
      simp only [List.getElem?_map, hx, Option.map_some] at this
      cases ho : out[x]? with
      | none => rw [ho] at this; simp at this
      | some p =>
        rw [ho] at this
        simp only [Option.map_some, Function.comp, Option.some.injEq] at this
        have hread := hrows.read p (List.mem_of_getElem? ho)
        rw [hread] at this
        exact ⟨p, List.mem_of_getElem? ho, this⟩
    refine ⟨?_, ?_, ?_, ?_, ?_, ?_, ?_, ?_⟩
    · rw [h30, hlen, hrows.count, List.length_map, hsNE, hsSE]
    · intro l hl
      obtain ⟨p, h1, h2⟩ := hread l hl
      exact ⟨p.1, h2, hrows.read p h1⟩
    · intro l hl b hb c hc
      obtain ⟨p, h1, h2⟩ := hread l hl
      rw [hb] at h2
      obtain rfl := Option.some.inj h2
      exact ((hvis p h1).chars c hc).2.2.2
    · intro y l b hy hl hb
      obtain ⟨p, hp, rfl⟩ := hline y l b hl hb
      obtain ⟨-, row, g1, g2⟩ := hrows.top y p (by rw [hsNE, ← h30]; exact hy) hp
      exact ⟨row, g1, by simpa only [EdgeRow, h30] using g2⟩
    · intro k l b m hm' hl hb
      obtain ⟨p, hp, rfl⟩ := hline _ l b hl hb
      rw [List.getElem?_map] at hm'
      cases hv : qs[k]? with
      | none => rw [hv] at hm'; simp at hm'
      | some v =>
        rw [hv] at hm'
        obtain rfl := Option.some.inj hm'
        have := hrows.body k p v hv (by rw [hsNE, ← h30]; exact hp)
        simpa only [ColouredRow, h3] using this
    · intro y l b hy hl hb
      obtain ⟨p, hp, rfl⟩ := hline _ l b hl hb
      obtain ⟨-, row, g1, g2⟩ := hrows.bottom y p (by rw [hsSE, ← h30]; exact hy) (by rw [← hp, h30, List.length_map, hsNE])
      exact ⟨row, g1, by simpa only [EdgeRow, h30] using g2⟩
    · intro m hm'
      obtain ⟨v, hv, rfl⟩ := List.mem_map.1 hm'
      rw [hp3]
      constructor
      · simp [spaces]
      · intro c hc
        rw [List.append_assoc, List.take_append_of_le_length (by simp [spaces])] at hc
        have hc := List.mem_of_mem_take hc
        exact ⟨spaces_blank hdb lp c hc, spaces_all (P := fun c => c ≠ 0x1b) (by decide) _ c hc⟩
    · intro m hm'
      obtain ⟨q, hq, rfl⟩ := List.mem_map.1 hm'
      refine ⟨_, ((Text.plain (spaces_ne _)).append (hqs q hq).text).append (Text.plain (spaces_ne _)), ?_⟩
      intro c hc
      simp only [List.mem_append] at hc
      rcases hc with (hc | hc) | hc
      · exact (spaces_all (cleanChar_space hdb) _ c hc).2.2.1
      · intro hbl
        rw [(hqs q hq).blanks c hc hbl]; simp [Spec.width]
      · exact (spaces_all (cleanChar_space hdb) _ c hc).2.2.1

end Boxes
