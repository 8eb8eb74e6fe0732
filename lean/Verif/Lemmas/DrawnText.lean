import Verif.Lemmas.Drawn
import Verif.Spec.Coloured

/-!
# Lemmas: the rows of a box around text in colour, read back
-/
namespace Boxes
open Spec ShapeName
set_option linter.unusedSimpArgs false

/-! ## texts -/

theorem text_nil_inv {v : Str} (h : Text [] v) : v = [] := (Text.nil.unique h).symm

theorem text_nil_plain {s : Str} (h : Text s []) (hp : ∀ c ∈ s, c ≠ 0x1b) : s = [] := (text_of_plain hp h).symm

/-- the last character that is no white space is determined by the text -/
theorem split_last {P : Nat → Prop} {a b y z : Str} {c c' : Nat} (hc : ¬ P c) (hc' : ¬ P c') (hy : ∀ x ∈ y, P x) (hz : ∀ x ∈ z, P x)
    (h : a ++ c :: y = b ++ c' :: z) : a = b ∧ c = c' := by
  rcases List.append_eq_append_iff.1 h with ⟨w, h1, h2⟩ | ⟨w, h1, h2⟩
  · cases w with
    | nil => simp at h1 h2; exact ⟨h1.symm, h2.1⟩
    | cons x w =>
      simp at h2
      exact absurd (hy c' (by rw [h2.2]; simp)) hc'
  · cases w with
    | nil => simp at h1 h2; exact ⟨h1, h2.1.symm⟩
    | cons x w =>
      simp at h2
      exact absurd (hz c (by rw [h2.2]; simp)) hc

theorem lineEnd_chars {e : Str} (he : LineEnd e) : ∀ c ∈ e, c = 0x0a ∨ c = 0x0d := by
  intro c hc
  rcases he with rfl | rfl | rfl <;> simp at hc <;> omega

theorem esc_prefix {e e' z z' : Str} (he : EscSeq e) (he' : EscSeq e') (h : e ++ z = e' ++ z') : e = e' := by
  have h1 := advanceNext_esc he z
  have h2 := advanceNext_esc he' z'
  rw [h, h2] at h1
  simp only [Prod.mk.injEq] at h1
  exact List.append_inj_left h h1.2.symm

/-- a line in colour that is read: itself -/
theorem coloured_read {db : CharDb} (hbr : BreaksSane db) {t v e q z y : Str} (ht : ColouredLine db t v)
    (he : LineEnd e) (h1 : t ++ e = q ++ z) (h2 : Text z y) (h3 : ∀ c ∈ y, db.white c = true) (h4 : EndsVisibly db q z) : q = t := by
  have hew : ∀ c ∈ e, db.white c = true := by
    intro c hc
    rcases lineEnd_chars he c hc with rfl | rfl
    · exact hbr.lf_white
    · exact hbr.cr_white
  have hep : ∀ c ∈ e, c ≠ 0x1b := by
    intro c hc
    have := lineEnd_chars he c hc; omega
  rcases ht.ends with h0 | ⟨p, x, c, s, h0, hp, hc, hw, hs⟩
  · subst h0
    rcases h4 with h4 | ⟨p, x, c, s, rfl, -, -, h5, -⟩
    · exact h4
    · have := hew c (by rw [List.nil_append] at h1; rw [h1]; simp)
      rw [h5] at this; simp at this
  · -- the visible characters
    have hst : Text s [] := by
      rcases hs with rfl | hs
      · exact Text.nil
      · simpa using Text.esc s hs.esc Text.nil
    have hte : Text (t ++ e) (x ++ c :: e) := by
      rw [h0]
      have := ((hp.append (Text.vis c hc hst)).append (Text.plain hep))
      simpa using this
    rcases h4 with h4 | ⟨p1, x1, c1, s1, hq, hp1, hc1, hw1, hs1⟩
    · exfalso
      subst h4
      rw [h1, List.nil_append] at hte
      have := h2.unique hte
      subst this
      have := h3 c (by simp)
      rw [hw] at this; simp at this
    · have hst1 : Text s1 [] := by
        rcases hs1 with hs1 | ⟨rfl, -⟩
        · simpa using Text.esc s1 hs1 Text.nil
        · exact Text.nil
      have hqz : Text (q ++ z) (x1 ++ c1 :: y) := by
        rw [hq]
        have := ((hp1.append (Text.vis c1 hc1 hst1)).append h2)
        simpa using this
      rw [← h1] at hqz
      obtain ⟨e1, e2⟩ := split_last (P := fun c => db.white c = true) (by rw [hw]; simp) (by rw [hw1]; simp) hew h3 (hte.unique hqz)
      subst e1; subst e2
      have heq : p ++ c :: (s ++ e) = p1 ++ c :: (s1 ++ z) := by
        rw [h0, hq] at h1; simpa using h1
      have hpp := vis_cancel hp hp1 hc hc1 rfl heq
      subst hpp
      have heq := List.append_cancel_left heq
      simp only [List.cons.injEq, true_and] at heq
      have hss : s1 = s := by
        rcases hs with rfl | hs
        · rcases hs1 with hs1 | ⟨rfl, -⟩
          · obtain ⟨r, rfl⟩ := EscSeq.head hs1
            exact absurd rfl (hep 0x1b (by rw [List.nil_append] at heq; rw [heq]; simp))
          · rfl
        · rcases hs1 with hs1 | ⟨rfl, hs1⟩
          · exact (esc_prefix hs.esc hs1 heq).symm
          · obtain ⟨r, rfl⟩ := EscSeq.head hs.esc
            exact absurd heq.symm (by rw [List.nil_append]; exact hs1 _)
      rw [hq, h0, hss]

theorem coloured_legit {db : CharDb} {t v : Str} (ht : ColouredLine db t v) : Legit db v := by
  refine ⟨fun c hc => (ht.chars c (text_mem ht.text c hc)).2.2.2, fun c hc hb => ?_⟩
  rw [ht.blanks c hc hb]; simp [Spec.width]

theorem coloured_readable {db : CharDb} (hbr : BreaksSane db) {ts : Nat} {t v e : Str} (ht : ColouredLine db t v) (he : LineEnd e) :
    Readable db ts (t ++ e) := by
  have hb : ¬ Blank db 0x0a ∧ ¬ Blank db 0x0d := by
    unfold Blank; rw [hbr.lf_not_blank, hbr.cr_not_blank]; simp
  have hmem := lineEnd_chars he
  have hlen : e.length ≤ 2 := by rcases he with rfl | rfl | rfl <;> simp
  refine ⟨v ++ e, t ++ e, ht.text.append (Text.plain ?_), ⟨?_, ?_⟩, expand_plain _ _ _ ?_, ?_⟩
  · intro c hc
    have := hmem c hc; omega
  · intro c hc
    rcases List.mem_append.1 hc with hc | hc
    · exact (coloured_legit ht).1 c hc
    · intro hf
      rcases hmem c hc with rfl | rfl
      · exact hf.2.2.2.1 rfl
      · exact hf.2.2.1 rfl
  · intro c hc hbl
    rcases List.mem_append.1 hc with hc | hc
    · exact (coloured_legit ht).2 c hc hbl
    · rcases hmem c hc with rfl | rfl
      · exact absurd hbl hb.1
      · exact absurd hbl hb.2
  · intro c hc
    rcases List.mem_append.1 hc with hc | hc
    · exact (ht.chars c hc).1
    · have := hmem _ hc; omega
  · have := ht.short
    rw [List.length_append]; omega

/-- a text between the sides of a box (its characters, its visible text) -/
structure Piece (db : CharDb) (q : Str × Str) : Prop where
  text : Text q.1 q.2
  chars : ∀ c ∈ q.1, c ≠ 0x09 ∧ c ≠ 0x0a ∧ c ≠ 0x0d ∧ ¬ Forbidden db c
  blanks : ∀ c ∈ q.2, Blank db c → c = 0x20
  front : FrontKept q.1
  back : BackKept q.1
  empty : q.2 = [] → q.1 = []

theorem piece_nil (db : CharDb) : Piece db ([], []) :=
  ⟨Text.nil, by simp, by simp, .inl rfl, backKept_plain (by simp), fun _ => rfl⟩

theorem spaces_ne (n : Nat) : ∀ c ∈ spaces n, c ≠ 0x1b := spaces_all (P := fun c => c ≠ 0x1b) (by decide) n

/-- the parts of a line in colour, without some of its indentation -/
theorem coloured_parts {db : CharDb} (hdb : Sane db) {t v : Str} (ht : ColouredLine db t v) (h0 : t ≠ []) {n : Nat} (hn : n ≤ leadingBlanks db v) :
    t = spaces n ++ t.drop n ∧ v = spaces n ++ v.drop n ∧ Text (t.drop n) (v.drop n) ∧ FrontKept (t.drop n) ∧ v.drop n ≠ [] ∧
      From n t v (t.drop n) := by
  rcases ht.begins with h | ⟨k, e, c, r, h1, hc, hb, he⟩
  · exact absurd h h0
  · obtain ⟨w, hw, hw2⟩ := text_plain_append (spaces_ne k) (h1 ▸ ht.text)
    have hcw : ∃ w', w = c :: w' := by
      have : ∃ u, w = u ∧ Text (c :: r) u := by
        rcases he with rfl | ⟨he, -⟩
        · exact ⟨w, rfl, hw2⟩
        · obtain ⟨u, h3, h4⟩ := text_cancel (by simpa using Text.esc e he Text.nil : Text e []) hw2
          exact ⟨u, by simpa using h3, h4⟩
      obtain ⟨u, rfl, h3⟩ := this
      obtain ⟨w', hw', -⟩ := text_plain_append (p := [c]) (z := r) (by simpa using hc) h3
      exact ⟨w', hw'⟩
    obtain ⟨w', rfl⟩ := hcw
    have hlead : leadingBlanks db v = k := by
      rw [hw, leading_before db _ _ (spaces_blank hdb k)]
      simp [leadingBlanks, spaces, hb]
    have hk : spaces k = spaces n ++ spaces (k - n) := by rw [spaces_append]; congr 1; omega
    have e1 : t = spaces n ++ (spaces (k - n) ++ (e ++ c :: r)) := by rw [h1, hk, List.append_assoc]
    have e2 : v = spaces n ++ (spaces (k - n) ++ c :: w') := by rw [hw, hk, List.append_assoc]
    have d1 : t.drop n = spaces (k - n) ++ (e ++ c :: r) := by rw [e1, List.drop_append_of_le_length (by simp [spaces])]; simp [spaces]
    have d2 : v.drop n = spaces (k - n) ++ c :: w' := by rw [e2, List.drop_append_of_le_length (by simp [spaces])]; simp [spaces]
    have htx : Text (t.drop n) (v.drop n) := by
      rw [d1, d2]
      exact (Text.plain (spaces_ne _)).append hw2
    have hf : FrontKept (t.drop n) := by
      rw [d1]
      by_cases h9 : k - n = 0
      · rw [h9]; exact .inr ⟨e, c, r, rfl, hc, he⟩
      · exact frontKept_prefix (spaces_ne _) (by simp [spaces, h9])
    refine ⟨by rw [d1]; exact e1, by rw [d2]; exact e2, htx, hf, by rw [d2]; simp, ?_⟩
    have := from_at (Text.plain (spaces_ne n)) htx (backKept_plain (spaces_ne n)) hf
    rw [← d1] at e1
    rw [← d2] at e2
    rw [← e1, ← e2] at this
    simpa [spaces] using this

theorem coloured_back {db : CharDb} {t v : Str} (ht : ColouredLine db t v) : BackKept t := by
  rcases ht.ends with h | ⟨p, x, c, e, h1, hp, hc, -, he⟩
  · rw [h]; exact backKept_plain (by simp)
  · rcases he with rfl | he
    · rw [h1]; exact backKept_vis hp hc
    · have : Text (p ++ [c]) (x ++ [c]) := hp.append (Text.vis c hc Text.nil)
      rw [h1, (by simp : p ++ c :: e = (p ++ [c]) ++ e)]
      exact backKept_reset this he

theorem backKept_drop {s : Str} {n : Nat} (h : BackKept (spaces n ++ s)) : BackKept s := by
  intro a u e h1 h2 h3
  exact h (spaces n ++ a) (spaces n ++ u) e (by rw [h1, List.append_assoc]) ((Text.plain (spaces_ne n)).append h2) h3

theorem coloured_piece {db : CharDb} (hdb : Sane db) {t v : Str} (ht : ColouredLine db t v) {n : Nat} (hn : t ≠ [] → n ≤ leadingBlanks db v) :
    Piece db (t.drop n, v.drop n) := by
  by_cases h0 : t = []
  · have h1 := ht.text
    rw [h0] at h1
    rw [h0, text_nil_inv h1]
    simpa using piece_nil db
  · obtain ⟨e1, -, e3, e4, e5, -⟩ := coloured_parts hdb ht h0 (hn h0)
    refine ⟨e3, fun c hc => ht.chars c (List.mem_of_mem_drop hc), fun c hc => ht.blanks c (List.mem_of_mem_drop hc), e4, ?_, fun h => absurd h e5⟩
    have := coloured_back ht
    rw [e1] at this
    exact backKept_drop this

/-- a row with a plain right side loses its trailing blanks -/
theorem row_trimmed {db : CharDb} {a b u : Str} {x r : Bxs} (ha : Text a u) (hp : ∀ c ∈ b, c ≠ 0x1b) (hx : fromUnicode db (a ++ b) = some x)
    (hs : ∃ c ∈ b, ¬ Blank db c) (hr : x.rtrim db = some r) : r.memory = dropTrailing db (a ++ b) ∧ fromUnicode db r.memory = some r := by
  have hab : Text (a ++ b) (u ++ b) := ha.append (Text.plain hp)
  obtain ⟨r', h1, h2, h3, h4⟩ := C04_rtrim db hab hx (by obtain ⟨c, h1, h2⟩ := hs; exact ⟨c, by simp [h1], h2⟩)
  rw [hr] at h1
  obtain rfl := Option.some.inj h1
  obtain ⟨b0, c, b1, hb, hc, hb1, hd⟩ := dropTrailing_split db hs
  rw [dropTrailing_row db _ _ hs, hd] at h4 ⊢
  refine ⟨?_, h2⟩
  have hcb : c ≠ 0x1b := hp c (by rw [hb]; simp)
  have hb0 : ∀ c ∈ b0, c ≠ 0x1b := fun c hc => hp c (by rw [hb]; simp [hc])
  have ht0 : Text (a ++ b0) (u ++ b0) := ha.append (Text.plain hb0)
  obtain ⟨z, hz⟩ := h3
  have hz' : r.memory ++ z = (a ++ b0 ++ [c]) ++ b1 := by rw [hz, hb]; simp
  rcases List.append_eq_append_iff.1 hz' with ⟨w, e1, e2⟩ | ⟨w, e1, e2⟩
  · have := text_end ht0 hcb e1 (by simpa using h4)
    rw [this, List.append_nil] at e1
    rw [← e1]; simp
  · rw [e1] at h4
    obtain ⟨y, h5, h6⟩ := text_cancel (ht0.append (Text.vis c hcb Text.nil)) (by simpa using h4)
    have hy : y = [] := by
      have := congrArg List.length h5
      simp only [List.length_append, List.length_cons, List.length_nil] at this
      exact List.eq_nil_of_length_eq_zero (by omega)
    subst hy
    have hw := text_nil_plain h6 (fun c hc => hp c (by rw [hb, e2]; simp [hc]))
    rw [e1, hw]; simp

/-! ## rows -/

theorem unindented_nil {db : CharDb} {n : Nat} {q : Str × Str} (h : Unindented db n ([], []) q) : q = ([], []) := by
  rcases h with ⟨-, h1, h2, -⟩ | ⟨-, -, h⟩
  · exact Prod.ext (List.suffix_nil.1 h2) (by simpa using h1)
  · exact h

/-- the texts between the sides of a box: empty lines, the lines, empty lines (with their visible texts) -/
def innerPairs (above below n : Nat) (ps : List (Str × Str)) : List (Str × Str) :=
  List.replicate above ([], []) ++ ps.map (fun p => (p.1.drop n, p.2.drop n)) ++ List.replicate below ([], [])

theorem innerPairs_length (above below n : Nat) (ps : List (Str × Str)) : (innerPairs above below n ps).length = above + ps.length + below := by
  simp [innerPairs]; omega

/-- the content of row `y` between the sides -/
theorem pairsAt_inv {db : CharDb} {opt : Opt} {d : Design} {input : Input} {ls ts : List (Str × Str)} {box : Sides Shape}
    {above below lp rp n y i : Nat} {m : Str} (hj : opt.justify = '\x00') (hw : lp + input.maxline + rp = box.top.width)
    (hlen : ls.length = ts.length)
    (hls : ∀ (x : Nat) p, ls[x]? = some p → ∃ t, ts[x]? = some t ∧ p.1 = t.1.drop n ∧ p.2 = t.2.drop n ∧ (p.2 = [] → p.1 = []))
    (hfit : ∀ p ∈ ls, columns db p.2 ≤ input.maxline)
    (h : RowAt db opt d input ls box above below lp rp y i m) :
    (y < box.top.height ∧ m = lineText box.top y) ∨
    (∃ k v, (innerPairs above below n ts)[k]? = some v ∧ y = box.top.height + k ∧ columns db v.2 ≤ input.maxline ∧
      m = spaces lp ++ v.1 ++ spaces (rp + (input.maxline - columns db v.2))) ∨
    (∃ x, x < box.bottom.height ∧ y = box.top.height + (innerPairs above below n ts).length + x ∧ m = lineText box.bottom x) := by
  have hsp : spaces box.top.width = spaces lp ++ [] ++ spaces (rp + (input.maxline - columns db [])) := by
    rw [List.append_nil, spaces_append]
    congr 1
    simp [columns]; omega
  rcases h with ⟨_, h⟩ | ⟨x, h⟩ | ⟨x, p, k, _, h1, h2, h3⟩ | ⟨x, h⟩ | ⟨x, h⟩
  · exact .inl ⟨h, rfl⟩
  · refine .inr (.inl ⟨x, ([], []), ?_, rfl, by simp [columns], hsp⟩)
    unfold innerPairs
    rw [List.append_assoc, List.getElem?_append_left (by simpa using h), replicate_get h]
  · obtain ⟨t, e1, e2, e3, e4⟩ := hls i p h1
    have hk : k = 0 := h2.unjustified (by rw [hj]; decide)
    subst hk
    obtain ⟨t', f1, f2, -, f3, f4⟩ := h3.row
    have hx : i < ts.length := (List.getElem?_eq_some_iff.1 e1).1
    have f5 : t' = p.1 := by
      by_cases h0 : p.2 = []
      · rw [e4 h0] at f1 ⊢
        exact List.suffix_nil.1 f1
      · exact f2 (by omega) h0
    refine .inr (.inl ⟨above + i, p, ?_, by omega, hfit p (List.mem_of_getElem? h1), ?_⟩)
    · unfold innerPairs
      rw [List.append_assoc, List.getElem?_append_right (by simp), List.length_replicate, Nat.add_sub_cancel_left,
        List.getElem?_append_left (by simpa using hx), List.getElem?_map, e1]
      simp only [Option.map_some]
      rw [← e2, ← e3]
    · rw [f4, f5]
      have := hfit p (List.mem_of_getElem? h1)
      congr 2
      omega
  · refine .inr (.inl ⟨above + ts.length + x, ([], []), ?_, by omega, by simp [columns], hsp⟩)
    unfold innerPairs
    rw [List.getElem?_append_right (by simp), List.length_append, List.length_replicate, List.length_map, Nat.add_sub_cancel_left,
      replicate_get h]
  · exact .inr (.inr ⟨x, h, by rw [innerPairs_length]; omega, rfl⟩)

/-- The printed rows are a box indented by `ind` around the texts `qs`, behind `lp` spaces, filled up to `w` columns. -/
structure DrawnTexts (db : CharDb) (d : Design) (ind lp w : Nat) (qs : List (Str × Str)) (out : List (Bxs × Str)) : Prop where
  count : out.length = (d.shape NE).height + qs.length + (d.shape SE).height
  read : ∀ p ∈ out, fromUnicode db p.1.memory = some p.1
  top : ∀ (y : Nat) p, y < (d.shape NE).height → out[y]? = some p → EdgeRow db d true ind y p.1.memory
  body : ∀ (k : Nat) p q, qs[k]? = some q → out[(d.shape NE).height + k]? = some p →
    BodyRow db d ind (spaces lp ++ q.1 ++ spaces (w - columns db q.2)) p.1.memory
  bottom : ∀ (y : Nat) p, y < (d.shape SE).height → out[(d.shape NE).height + qs.length + y]? = some p → EdgeRow db d false ind y p.1.memory

theorem text_rows (db : CharDb) (hdb : Sane db) (hbr : BreaksSane db) (opt : Opt) (ho : PlainDrawing opt) (d : Design) (hd : Restorable db d) (junk : Nat)
    (lines : List (Str × Str)) (vis : Str → Str) (hl : ∀ p ∈ lines, ColouredLine db p.1 (vis p.1) ∧ LineEnd p.2) (hne : lines ≠ []) (fuel : Nat)
    {r : Res (List (Bxs × Str))} (h : drawOnce db opt d [] junk (lines.map (fun p => p.1 ++ p.2)) fuel = some r) :
    ∃ out n above below w, r = .ok out ∧ LeastIndent db (lines.map (fun p => vis p.1)) n ∧
      (opt.reqheight = 0 → wanted opt.padding.top d.padding.top ≤ above ∧ wanted opt.padding.bottom d.padding.bottom ≤ below) ∧
      DrawnTexts db d (if d.indentmode = 'b' then n else 0) (wanted opt.padding.left d.padding.left) w
        (innerPairs above below (if d.indentmode = 't' then 0 else n) (lines.map (fun p => (p.1, vis p.1)))) out ∧
      (∀ q ∈ innerPairs above below (if d.indentmode = 't' then 0 else n) (lines.map (fun p => (p.1, vis p.1))), Piece db q) ∧
      ∀ (x : Nat) p, out[x]? = some p →
        (EndsInBreak (lines.map (fun p => p.1 ++ p.2)) ∨ x + 1 ≠ out.length → p.2 = opt.eol) ∧
        (¬ EndsInBreak (lines.map (fun p => p.1 ++ p.2)) → x + 1 = out.length → p.2 = []) := by
  have hrec := hd.recognisable
  obtain ⟨j, d', box, us, ls, out, above, below, lp, rp, s, e, c1, rfl, c3, c4, c5, c6, c7, c8, c9, c10, c11, c12, c13, c14, c15, c16, c17, c18⟩ :=
    C16_drawing db hdb opt ho.draws ho.tabstop d hrec.ready.good junk _ (by
      intro s hs
      obtain ⟨p, hp, rfl⟩ := List.mem_map.1 hs
      exact coloured_readable hbr (hl p hp).1 (hl p hp).2) (by simpa using hne) fuel h
  obtain ⟨p1, p2, p3, p4⟩ := C21_padding opt d j
  have hlpad : (adjustSizeAndPadding opt d j).padding.left = wanted opt.padding.left d.padding.left := by
    by_cases h1 : j.maxline + ((d.shape NW).width + (d.shape NE).width) + (wanted opt.padding.left d.padding.left + wanted opt.padding.right d.padding.right) ≤ d.minwidth ∨
        wanted opt.padding.left d.padding.left + wanted opt.padding.right d.padding.right = 0
    · exact (p2.enough h1).1
    · exact (p2.grow (by omega) (by omega) (by have := ho.reqwidth; simp [this])).1
  have hroom : opt.reqheight = 0 → wanted opt.padding.top d.padding.top ≤ above ∧ wanted opt.padding.bottom d.padding.bottom ≤ below := by
    intro h0
    obtain ⟨box', e1, -, e3⟩ := C20_room db opt d hrec.ready.good j fuel c3
    obtain rfl := Res.ok.inj e1
    have e4 := e3.vertical
    have hn : j.lines.length = ls.length := c6.trans c5.symm
    have hpt : (adjustSizeAndPadding opt d j).padding.top = wanted opt.padding.top d.padding.top ∧
        (adjustSizeAndPadding opt d j).padding.bottom = wanted opt.padding.bottom d.padding.bottom := by
      by_cases h1 : j.lines.length + ((d.shape NW).height + (d.shape SW).height) + (wanted opt.padding.top d.padding.top + wanted opt.padding.bottom d.padding.bottom) ≤ d.minheight ∨
          wanted opt.padding.top d.padding.top + wanted opt.padding.bottom d.padding.bottom = 0
      · exact ⟨(p1.enough h1).1, (p1.enough h1).2.1⟩
      · have := p1.grow (by omega) (by omega) (by simp [h0])
        exact ⟨this.1, this.2.1⟩
    rw [hn] at e4
    have c11 := c11
    rw [linesAbove] at c11
    rw [hpt.1, hpt.2] at c11 e4
    have hs : ∀ x, shareAbove opt.valign x ≤ x := by
      intro x; unfold shareAbove; split
      · omega
      · split <;> omega
    have := hs (box.right.height - (box.top.height + box.bottom.height + ls.length + (wanted opt.padding.top d.padding.top + wanted opt.padding.bottom d.padding.bottom)))
    omega
  have hlp : lp = wanted opt.padding.left d.padding.left := by
    rw [c13, columnsLeft, if_neg (by intro h; exact ho.halign.2 h.2), shareLeft, if_neg ho.halign.1, if_neg ho.halign.2, hlpad]; rfl
  -- no side is left out
  have hs0 : s = 0 := c15.2 (fun hb => seen_not_blankShape hrec (n := NW) (by simp) (hb NW (by simp)))
  have he0 : e = 0 := c16.2 (fun hb => seen_not_blankShape hrec (n := SW) (by simp) (hb SW (by simp)))
  have hleft : ¬ BlankSide db d [SW, WSW, W, WNW, NW] := fun hb => seen_not_blankShape hrec (n := NW) (by simp) (hb NW (by simp))
  subst hs0; subst he0
  -- the lines
  have hu : ∀ (x : Nat) (t : Str × Str), lines[x]? = some t → us[x]? = some (t.1, vis t.1) ∧ ∃ p, ls[x]? = some p ∧
      Unindented db (if d.indentmode = 't' then 0 else j.indent) (t.1, vis t.1) p := by
    intro x t ht
    obtain ⟨u, p, q, z, y, g1, g2, g3, g4, g5, g6, g7, g8, g9⟩ := c10 x _ (by rw [List.getElem?_map, ht]; rfl)
    obtain ⟨hl1, hl2⟩ := hl t (List.mem_of_getElem? ht)
    obtain rfl := coloured_read hbr hl1 hl2 g3 g4 g5 g6
    have htab : ∀ c ∈ t.1, c ≠ 0x09 := fun c hc => (hl1.chars c hc).1
    have e1 : u.1 = t.1 := Spec.Expand.unique g7 (expand_plain _ _ _ htab)
    have e2 : u.2 = vis t.1 := by rw [e1] at g8; exact g8.unique hl1.text
    have e3 : u = (t.1, vis t.1) := Prod.ext e1 e2
    rw [e3] at g1 g9
    exact ⟨g1, p, g2, g9⟩
  have hus : us.map Prod.snd = lines.map (fun p => vis p.1) := by
    apply List.ext_getElem?
    intro x
    rw [List.getElem?_map, List.getElem?_map]
    cases hx : lines[x]? with
    | none =>
      have : us[x]? = none := by
        rw [List.getElem?_eq_none_iff] at hx ⊢
        rw [c4, List.length_map]; exact hx
      rw [this]; rfl
    | some t => rw [(hu x t hx).1]; rfl
  rw [hus] at c7
  have hlead : ∀ p ∈ lines, p.1 ≠ [] → (if d.indentmode = 't' then 0 else j.indent) ≤ leadingBlanks db (vis p.1) := by
    intro p hp h0
    have hpl := (hl p hp).1
    have := c7.le (vis p.1) (List.mem_map.2 ⟨p, hp, rfl⟩) (by
      rcases hpl.shows with h1 | h1
      · exact absurd h1 h0
      · exact seen_columns h1)
    split <;> omega
  have hpieces : ∀ q ∈ innerPairs above below (if d.indentmode = 't' then 0 else j.indent) (lines.map (fun p => (p.1, vis p.1))), Piece db q := by
    intro q hq
    simp only [innerPairs, List.mem_append, List.mem_replicate, List.mem_map] at hq
    rcases hq with (⟨-, rfl⟩ | ⟨t, ⟨p, hp, rfl⟩, rfl⟩) | ⟨-, rfl⟩
    · exact piece_nil db
    · exact coloured_piece hdb (hl p hp).1 (hlead p hp)
    · exact piece_nil db
  have hls : ∀ (x : Nat) p, ls[x]? = some p → ∃ t, (lines.map (fun p => (p.1, vis p.1)))[x]? = some t ∧
      p.1 = t.1.drop (if d.indentmode = 't' then 0 else j.indent) ∧ p.2 = t.2.drop (if d.indentmode = 't' then 0 else j.indent) ∧ (p.2 = [] → p.1 = []) := by
    intro x p hp
    have hx : x < lines.length := by
      have := (List.getElem?_eq_some_iff.1 hp).1
      rw [c5, List.length_map] at this; exact this
    have ht := List.getElem?_eq_getElem hx
    obtain ⟨-, p', f1, f2⟩ := hu x _ ht
    rw [hp] at f1
    obtain rfl := Option.some.inj f1
    have hm := List.mem_of_getElem? ht
    have hpl := (hl _ hm).1
    refine ⟨(lines[x].1, vis lines[x].1), by rw [List.getElem?_map, ht]; rfl, ?_⟩
    by_cases h0 : lines[x].1 = []
    · have hv0 : vis lines[x].1 = [] := by have := hpl.text; rw [h0] at this ⊢; exact text_nil_inv this
      have hpair : (lines[x].1, vis lines[x].1) = ([], []) := Prod.ext h0 hv0
      rw [hpair] at f2 ⊢
      rw [unindented_nil f2]
      simp
    · obtain ⟨e1, e2, e3, e4, e5, e6⟩ := coloured_parts hdb hpl h0 (hlead _ hm h0)
      rcases f2 with f2 | ⟨f2, -, rfl⟩
      · refine ⟨?_, f2.2.1, fun h9 => absurd (f2.2.1.symm.trans h9) e5⟩
        by_cases hn0 : (if d.indentmode = 't' then 0 else j.indent) = 0
        · rw [hn0]
          have hvne : vis lines[x].1 ≠ [] := by intro h; rw [h] at e5; simp at e5
          exact f2.2.2.2.1 hn0 hvne
        · exact from_unique hpl.text (f2.2.2.2.2 (by omega)) e6
      · rcases hpl.shows with h1 | h1
        · exact absurd h1 h0
        · have := seen_columns h1; simp only at f2; omega
  obtain ⟨hgt, hside⟩ := generateBox_rows (C20_adjusted_design db opt d hrec.ready.good j).2 (by
    unfold Roomy
    rw [p3]
    have h0 : d.minwidth ≤ (adjustSizeAndPadding opt d j).minwidth := by
      by_cases h1 : j.maxline + ((d.shape NW).width + (d.shape NE).width) + (wanted opt.padding.left d.padding.left + wanted opt.padding.right d.padding.right) ≤ d.minwidth ∨
          wanted opt.padding.left d.padding.left + wanted opt.padding.right d.padding.right = 0
      · rw [(p2.enough h1).2.2]; exact Nat.le_refl _
      · rw [(p2.grow (by omega) (by omega) (by have := ho.reqwidth; simp [this])).2.2]; omega
    have := hd.roomy
    unfold Roomy at this
    omega) c3
  have hh := hside.height
  have htop := hside.topHeight
  have hbot := hside.bottomHeight
  rw [p3] at hh htop hbot
  have hcount : out.length = (d.shape NE).height + (innerPairs above below (if d.indentmode = 't' then 0 else j.indent) (lines.map (fun p => (p.1, vis p.1)))).length +
      (d.shape SE).height := by
    rw [innerPairs_length, List.length_map]
    rw [c5, List.length_map] at c12
    omega
  have hgt' : hgt = (innerPairs above below (if d.indentmode = 't' then 0 else j.indent) (lines.map (fun p => (p.1, vis p.1)))).length := by omega
  -- every row
  have hrow : ∀ (x : Nat) p, out[x]? = some p → ∃ i m, RowAt db opt (adjustSizeAndPadding opt d j) j ls box above below lp rp x i m ∧
      ∀ a b u, a ++ b = spaces (if d.indentmode = 'b' then j.indent else 0) ++ lineText box.left x ++ m ++ lineText box.right x → Text a u →
        (∀ c ∈ b, c ≠ 0x1b) → (∃ c ∈ b, ¬ Blank db c) → fromUnicode db p.1.memory = some p.1 ∧ p.1.memory = dropTrailing db (a ++ b) := by
    intro x p hx
    obtain ⟨row, i, m, r', g1, g2, g3, g4, g5, -⟩ := c18 x (List.getElem?_eq_some_iff.1 hx).1
    rw [hx] at g5
    obtain rfl := Option.some.inj g5
    rw [Nat.zero_add] at g1 g2
    refine ⟨i, m, g1, ?_⟩
    intro a b u hs ha hesc hnb
    obtain ⟨ind, left, e1, -, e3, e4⟩ := g2.parts
    have e3 := e3 hleft
    have hind : ind = spaces (if d.indentmode = 'b' then j.indent else 0) := by
      by_cases hb : d.indentmode = 'b'
      · rw [if_pos hb]; exact e1.expanded (by rw [p4]; exact hb) ho.tabs.1 ho.tabs.2
      · rw [if_neg hb]; exact e1.off (by rw [p4]; exact hb)
    rw [e3, hind] at e4
    rw [← hs] at e4
    rw [e4] at g3
    obtain ⟨q1, q2⟩ := row_trimmed ha hesc g3 hnb g4
    exact ⟨q2, q1⟩
  have hinv : ∀ (x i : Nat) m, RowAt db opt (adjustSizeAndPadding opt d j) j ls box above below lp rp x i m → _ := fun x i m h =>
    pairsAt_inv (n := if d.indentmode = 't' then 0 else j.indent) ho.justify c14 (by rw [c5]; simp) hls c8 h
  have hplain := hrec.plain
  have hNW : (d.shape NE).height = (d.shape NW).height := hrec.ready.good.north NE (by simp) (hrec.ready.good.corner NE (by simp))
  have hSW : (d.shape SE).height = (d.shape SW).height := hrec.ready.good.south SE (by simp) (hrec.ready.good.corner SE (by simp))
  have gt : ∀ (y : Nat) p, y < (d.shape NE).height → out[y]? = some p → fromUnicode db p.1.memory = some p.1 ∧
      EdgeRow db d true (if d.indentmode = 'b' then j.indent else 0) y p.1.memory := by
    intro y p hy hp
    obtain ⟨i, m, g1, g2⟩ := hrow y p hp
    have hm : m = lineText box.top y := by
      rcases hinv y i m g1 with g | ⟨k, v, -, g, -⟩ | ⟨x, -, g, -⟩
      · exact g.2
      · omega
      · omega
    obtain ⟨a, b, c, o1, o2, o3, o4⟩ := hside.top
    have s1 := hside.leftTop y
    have s2 := hside.rightTop y
    rw [p3] at o1 o2 o3 o4 s1 s2
    have := g2
    rw [hm, o4 y hy, s1 hy, s2 hy] at this
    simp only [← List.append_assoc] at this
    have hall := edge_all (P := fun c => c ≠ 0x1b) (ind := if d.indentmode = 'b' then j.indent else 0) (y := y) hrec.ready.good (by decide) hplain
      (n0 := NW) (n4 := NE) (by simp) (by simp) o1 o2 o3
    obtain ⟨q1, q2⟩ := this _ _ _ rfl (Text.plain (fun c hc => hall c (List.mem_append_left _ hc))) (fun c hc => hall c (List.mem_append_right _ hc))
      (corner_nonblank hrec (n := NE) (by simp) hy)
    exact ⟨q1, a, b, c, o1, o2, o3, q2⟩
  have gb : ∀ (y : Nat) p, y < (d.shape SE).height → out[(d.shape NE).height + (innerPairs above below (if d.indentmode = 't' then 0 else j.indent) (lines.map (fun p => (p.1, vis p.1)))).length + y]? = some p →
      fromUnicode db p.1.memory = some p.1 ∧
      EdgeRow db d false (if d.indentmode = 'b' then j.indent else 0) y p.1.memory := by
    intro y p hy hp
    obtain ⟨i, m, g1, g2⟩ := hrow _ p hp
    have hm : m = lineText box.bottom y := by
      rcases hinv _ i m g1 with g | ⟨k, v, g0, g, -⟩ | ⟨x, -, g, g'⟩
      · omega
      · have := (List.getElem?_eq_some_iff.1 g0).1
        omega
      · rw [g']; congr 1; omega
    obtain ⟨a, b, c, o1, o2, o3, o4⟩ := hside.bottom
    have s1 := hside.leftBottom y
    have s2 := hside.rightBottom y
    rw [p3] at o1 o2 o3 o4 s1 s2
    rw [hgt'] at s1 s2
    have := g2
    rw [hm, o4 y hy, s1 hy, s2 hy] at this
    simp only [← List.append_assoc] at this
    have hall := edge_all (P := fun c => c ≠ 0x1b) (ind := if d.indentmode = 'b' then j.indent else 0) (y := y) hrec.ready.good (by decide) hplain
      (n0 := SW) (n4 := SE) (by simp) (by simp) o1 o2 o3
    obtain ⟨q1, q2⟩ := this _ _ _ rfl (Text.plain (fun c hc => hall c (List.mem_append_left _ hc))) (fun c hc => hall c (List.mem_append_right _ hc))
      (corner_nonblank hrec (n := SE) (by simp) hy)
    exact ⟨q1, a, b, c, o1, o2, o3, q2⟩
  have gm : ∀ (k : Nat) p v, (innerPairs above below (if d.indentmode = 't' then 0 else j.indent) (lines.map (fun p => (p.1, vis p.1))))[k]? = some v →
      out[(d.shape NE).height + k]? = some p → fromUnicode db p.1.memory = some p.1 ∧
      BodyRow db d (if d.indentmode = 'b' then j.indent else 0) (spaces lp ++ v.1 ++ spaces (rp + j.maxline - columns db v.2)) p.1.memory := by
    intro k p v hv hp
    obtain ⟨i, m, g1, g2⟩ := hrow _ p hp
    have hk := (List.getElem?_eq_some_iff.1 hv).1
    have hm : m = spaces lp ++ v.1 ++ spaces (rp + j.maxline - columns db v.2) := by
      rcases hinv _ i m g1 with g | ⟨k', v', g0, g, g', g''⟩ | ⟨x, -, g, -⟩
      · omega
      · have hkk : k' = k := by omega
        rw [hkk, hv] at g0
        obtain rfl := Option.some.inj g0
        rw [g'']; congr 2; omega
      · omega
    obtain ⟨n, hn, hp1, b, hb, hbm⟩ := hside.leftBody k (by omega)
    obtain ⟨n', hn', hp1', b', hb', hbm'⟩ := hside.rightBody k (by omega)
    rw [p3] at hp1 hb hbm hp1' hb' hbm'
    have hv' := hpieces v (List.mem_of_getElem? hv)
    have := g2
    rw [hm, hbm, hbm'] at this
    obtain ⟨q1, q2⟩ := this _ _ _ rfl (((Text.plain (spaces_ne _)).append (Text.plain (hplain n hp1 b hb))).append
      (((Text.plain (spaces_ne _)).append hv'.text).append (Text.plain (spaces_ne _)))) (hplain n' hp1' b' hb')
      (seen_nonblank (hrec.east n' hn' hp1' b' hb'))
    exact ⟨q1, n, hn, n', hn', hp1, hp1', b, hb, b', hb', q2⟩
  refine ⟨out, j.indent, above, below, rp + j.maxline, c1, c7, hroom, ⟨hcount, ?_, fun y p h1 h2 => (gt y p h1 h2).2, ?_, fun y p h1 h2 => (gb y p h1 h2).2⟩, hpieces, ?_⟩
  · intro p hp
    obtain ⟨x, hx⟩ := List.getElem?_of_mem hp
    have hlt := (List.getElem?_eq_some_iff.1 hx).1
    by_cases a1 : x < (d.shape NE).height
    · exact (gt x p a1 hx).1
    · by_cases a2 : x < (d.shape NE).height + (innerPairs above below (if d.indentmode = 't' then 0 else j.indent) (lines.map (fun p => (p.1, vis p.1)))).length
      · exact (gm (x - (d.shape NE).height) p _ (List.getElem?_eq_getElem (by omega)) (by rw [← hx]; congr 1; omega)).1
      · exact (gb (x - ((d.shape NE).height + (innerPairs above below (if d.indentmode = 't' then 0 else j.indent) (lines.map (fun p => (p.1, vis p.1)))).length)) p
          (by omega) (by rw [← hx]; congr 1; omega)).1
  · intro k p v h1 h2
    rw [← hlp]
    exact (gm k p v h1 h2).2
  · intro x p hx
    obtain ⟨row, i, m, r', -, -, -, -, g5, g6, -⟩ := c18 x (List.getElem?_eq_some_iff.1 hx).1
    rw [hx] at g5
    obtain rfl := Option.some.inj g5
    constructor
    · intro h1
      exact if_pos (h1.imp g6.2 id)
    · intro h1 h2
      refine if_neg ?_
      rintro (h3 | h3)
      · exact h1 (g6.1 h3)
      · exact h3 h2


/-! ## what is printed, as it is read again -/

/-- a character that may occur in a row -/
def RowCharOk (db : CharDb) (c : Nat) : Prop := c ≠ 0x09 ∧ c ≠ 0x0a ∧ c ≠ 0x0d ∧ ¬ Forbidden db c

theorem rowCharOk_space {db : CharDb} (hdb : Sane db) : RowCharOk db 0x20 := by
  have := cleanChar_space hdb
  exact ⟨this.2.2.2.1, this.2.2.2.2.1, this.2.2.2.2.2, this.2.1⟩

/-- a row as it is printed: its characters, its visible text, which shows something behind the indentation -/
structure PrintedRow (db : CharDb) (ind : Nat) (s v : Str) : Prop where
  text : Text s v
  chars : ∀ c ∈ s, RowCharOk db c
  legit : Legit db v
  seen : Seen db v
  indented : ind ≤ leadingBlanks db v

theorem printedRow_edge {db : CharDb} (hdb : Sane db) {d : Design} (hd : Restorable db d) {top : Bool} {ind y : Nat} {row : Str}
    (hy : y < (d.shape (if top then NE else SE)).height) (h : EdgeRow db d top ind y row) : PrintedRow db ind row row := by
  have hrec := hd.recognisable
  have hc := edgeRow_all hrec.ready.good (cleanChar_space hdb) (cleanChar_shape hd) h
  refine ⟨Text.plain (fun c h1 => (hc c h1).1), fun c h1 => ⟨(hc c h1).2.2.2.1, (hc c h1).2.2.2.2.1, (hc c h1).2.2.2.2.2, (hc c h1).2.1⟩,
    ⟨fun c h1 => (hc c h1).2.1, fun c h1 => (hc c h1).2.2.1⟩, edgeRow_seen hrec hy h, ?_⟩
  obtain ⟨w, e1, e2⟩ := edge_parts hrec hy h
  rw [e1]; exact leading_ge hdb e2

theorem printedRow_body {db : CharDb} (hdb : Sane db) {d : Design} (hd : Restorable db d) {ind lp k : Nat} {q : Str × Str} (hq : Piece db q) {row : Str}
    (h : BodyRow db d ind (spaces lp ++ q.1 ++ spaces k) row) : ∃ v, PrintedRow db ind row v := by
  have hrec := hd.recognisable
  obtain ⟨n, hn, n', hn', hp, hp', b, hb, b', hb', rfl⟩ := h
  have hnb := seen_nonblank (hrec.east n' hn' hp' b' hb')
  rw [dropTrailing_row db _ _ hnb]
  have hsp := cleanChar_space hdb
  have hbc := cleanChar_shape hd n hp b hb
  have hbc' := cleanChar_shape hd n' hp' b' hb'
  have hdc : ∀ c ∈ dropTrailing db b'.memory, CleanChar db c := fun c hc => hbc' c (dropTrailing_mem hc)
  have hok : ∀ c, CleanChar db c → RowCharOk db c := fun c h => ⟨h.2.2.2.1, h.2.2.2.2.1, h.2.2.2.2.2, h.2.1⟩
  refine ⟨spaces ind ++ b.memory ++ (spaces lp ++ q.2 ++ spaces k) ++ dropTrailing db b'.memory, ?_, ?_, ⟨?_, ?_⟩, ?_, ?_⟩
  · exact (((Text.plain (spaces_ne _)).append (Text.plain (fun c hc => (hbc c hc).1))).append
      (((Text.plain (spaces_ne _)).append hq.text).append (Text.plain (spaces_ne _)))).append (Text.plain (fun c hc => (hdc c hc).1))
  · intro c hc
    simp only [List.mem_append] at hc
    rcases hc with ((hc | hc) | ((hc | hc) | hc)) | hc
    · exact spaces_all (rowCharOk_space hdb) _ c hc
    · exact hok c (hbc c hc)
    · exact spaces_all (rowCharOk_space hdb) _ c hc
    · exact hq.chars c hc
    · exact spaces_all (rowCharOk_space hdb) _ c hc
    · exact hok c (hdc c hc)
  · intro c hc
    simp only [List.mem_append] at hc
    rcases hc with ((hc | hc) | ((hc | hc) | hc)) | hc
    · exact (spaces_all hsp _ c hc).2.1
    · exact (hbc c hc).2.1
    · exact (spaces_all hsp _ c hc).2.1
    · exact (hq.chars c (text_mem hq.text c hc)).2.2.2
    · exact (spaces_all hsp _ c hc).2.1
    · exact (hdc c hc).2.1
  · intro c hc
    simp only [List.mem_append] at hc
    rcases hc with ((hc | hc) | ((hc | hc) | hc)) | hc
    · exact (spaces_all hsp _ c hc).2.2.1
    · exact (hbc c hc).2.2.1
    · exact (spaces_all hsp _ c hc).2.2.1
    · intro hbl
      rw [hq.blanks c hc hbl]; simp [Spec.width]
    · exact (spaces_all hsp _ c hc).2.2.1
    · exact (hdc c hc).2.2.1
  · obtain ⟨z, z1, z2⟩ := hrec.west n hn hp b hb
    exact ⟨z, by simp [z1], z2⟩
  · simp only [List.append_assoc]
    rw [leading_before db _ _ (spaces_blank hdb ind)]
    simp [spaces]

theorem text_length_le {s v : Str} (h : Text s v) : v.length ≤ s.length := by
  induction h with
  | nil => simp
  | vis c _ _ ih => simpa using ih
  | esc e _ _ ih => rw [List.length_append]; omega

theorem backKept_spaces {db : CharDb} {q : Str × Str} (hq : Piece db q) {k : Nat} : BackKept (q.1 ++ spaces k) := by
  cases k with
  | zero => simpa [spaces] using hq.back
  | succ k =>
    have : spaces (k + 1) = spaces k ++ [0x20] := by simp [spaces, List.replicate_succ']
    rw [this, ← List.append_assoc]
    exact backKept_vis (hq.text.append (Text.plain (spaces_ne k))) (by decide)

theorem drawnTexts_rows {db : CharDb} (hdb : Sane db) {d : Design} (hd : Restorable db d) {ind lp w : Nat} {qs : List (Str × Str)} {out : List (Bxs × Str)}
    (hrows : DrawnTexts db d ind lp w qs out) (hqs : ∀ q ∈ qs, Piece db q) : ∀ p ∈ out, ∃ v, PrintedRow db ind p.1.memory v := by
  intro p hp
  obtain ⟨x, hx⟩ := List.getElem?_of_mem hp
  have hlt := (List.getElem?_eq_some_iff.1 hx).1
  have hc := hrows.count
  by_cases a1 : x < (d.shape NE).height
  · exact ⟨_, printedRow_edge hdb hd (top := true) a1 (hrows.top x p a1 hx)⟩
  · by_cases a2 : x < (d.shape NE).height + qs.length
    · have hk : x - (d.shape NE).height < qs.length := by omega
      exact printedRow_body hdb hd (hqs _ (List.getElem_mem hk)) (hrows.body _ p _ (List.getElem?_eq_getElem hk) (by rw [← hx]; congr 1; omega))
    · exact ⟨_, printedRow_edge hdb hd (top := false) (y := x - ((d.shape NE).height + qs.length)) (by simp; omega)
        (hrows.bottom _ p (by omega) (by rw [← hx]; congr 1; omega))⟩

/-- the printed rows, read to remove the box -/
theorem text_reread {db : CharDb} (hdb : Sane db) {opt : Opt} (hr : opt.r = true) (ht : 1 ≤ opt.tabstop) (junk : Nat) (d2 : Design) {d : Design}
    (hd : Restorable db d) {ind lp w : Nat} {qs : List (Str × Str)} {out : List (Bxs × Str)}
    (hrows : DrawnTexts db d ind lp w qs out) (hqs : ∀ q ∈ qs, Piece db q)
    (hend : ∀ p ∈ out, p.2 = [] ∨ p.2 = [0x0a] ∨ p.2 = [0x0d, 0x0a]) (hshort : ∀ p ∈ out, p.1.memory.length < 16370) :
    ∃ i j, readAllInput db opt junk (out.map (fun p => p.1.memory ++ p.2)) = .ok i ∧ analyzeInput db opt d2 [] i = .ok j ∧
      j.indent = ind ∧ (j.finalNewline = true ↔ ∃ p, out.getLast? = some p ∧ p.2 ≠ []) ∧
      (∀ l ∈ j.lines, l.tabpos.Pairwise (fun a b => a + tabCols opt.tabstop a ≤ b)) ∧
      j.lines.map Line.text = out.map (fun p => some p.1) ∧
      ∀ d3 : Design, d3.shape = d.shape → d3.padding.left = lp →
        BoxAround db d3 ind (qs.map (fun q => spaces lp ++ q.1 ++ spaces (w - columns db q.2))) j.lines := by
  have hrec := hd.recognisable
  have hpNE := hrec.ready.good.corner NE (by decide)
  have hNE : 0 < (d.shape NE).height := hpNE.2.2
  have hpr := drawnTexts_rows hdb hd hrows hqs
  obtain ⟨vis, hvis⟩ : ∃ vis : Str → Str, ∀ p ∈ out, PrintedRow db ind p.1.memory (vis p.1.memory) := by
    classical
    refine ⟨fun s => if h : ∃ v, PrintedRow db ind s v then h.choose else [], fun p hp => ?_⟩
    simp only [dif_pos (hpr p hp)]
    exact (hpr p hp).choose_spec
  have hne : out ≠ [] := by
    intro h0
    have := hrows.count
    rw [h0] at this; simp at this; omega
  obtain ⟨i, j, j1, j2, j3, j4, j5, j6⟩ := reread_text (db := db) hr ht junk d2 (out.map (fun p => (p.1.memory, p.2))) vis (by simpa using hne) (by
    intro q hq
    obtain ⟨p, hp, rfl⟩ := List.mem_map.1 hq
    have hv := hvis p hp
    refine ⟨⟨?_, fun c hc => (hv.chars c hc).1, ?_, hshort p hp⟩, hend p hp⟩
    · obtain ⟨c, hc, -⟩ := hv.seen
      have := text_mem hv.text c hc
      intro h0
      simp only at h0
      rw [h0] at this; simp at this
    · intro c hc
      have := hv.chars c (List.mem_of_getLast? hc)
      exact ⟨this.2.1, this.2.2.1⟩) (by
    intro q hq
    obtain ⟨p, hp, rfl⟩ := List.mem_map.1 hq
    exact ⟨(hvis p hp).text, (hvis p hp).legit⟩)
  rw [List.map_map] at j1 j3 j6
  have hline : ∀ (x : Nat) l b, j.lines[x]? = some l → l.text = some b → ∃ p, out[x]? = some p ∧ b = p.1 := by
    intro x l b hl hb
    have := congrArg (fun l : List (Option Bxs) => l[x]?) j3
    simp only [List.getElem?_map, hl, Option.map_some, hb] at this
    cases hx : out[x]? with
    | none => rw [hx] at this; simp at this
    | some p =>
      rw [hx] at this
      simp only [Option.map_some, Function.comp, Option.some.injEq] at this
      rw [hrows.read p (List.mem_of_getElem? hx)] at this
      exact ⟨p, rfl, Option.some.inj this⟩
  have hlen : j.lines.length = out.length := by simpa using congrArg List.length j3
  refine ⟨i, j, j1, j2, ?_, ?_, j4, ?_, ?_⟩
  · -- the indentation
    obtain ⟨n, hn, b, hb, c, r, hbm, hc⟩ := hd.flush
    have hNW : (d.shape NE).height = (d.shape NW).height := hrec.ready.good.north NE (by simp) hpNE
    have hSW : (d.shape SE).height = (d.shape SW).height := hrec.ready.good.south SE (by simp) (hrec.ready.good.corner SE (by simp))
    obtain ⟨y, hy⟩ := List.getElem?_of_mem hb
    have hlt := (List.getElem?_eq_some_iff.1 hy).1
    have hflush : ∃ p ∈ out, leadingBlanks db (vis p.1.memory) = ind := by
      have hlm : lineText (d.shape n) y = c :: r := by simp [lineText, hy, hbm]
      simp only [List.mem_cons, List.not_mem_nil, or_false] at hn
      have hcnt := hrows.count
      rcases hn with rfl | rfl
      · rw [(hrec.ready.good.shapes NW (hrec.ready.good.corner NW (by simp))).height] at hlt
        have hlt' : y < out.length := by omega
        have hp := List.getElem?_eq_getElem hlt'
        have hrow := hrows.top y _ (by omega) hp
        obtain ⟨w, e1, -⟩ := edge_parts hrec (top := true) (by simp; omega) hrow
        refine ⟨_, List.mem_of_getElem? hp, ?_⟩
        rw [(hvis _ (List.mem_of_getElem? hp)).text.unique (printedRow_edge hdb hd (top := true) (by simp; omega) hrow).text, e1]
        simp only [if_true, hlm]
        exact leading_flush hdb hc
      · rw [(hrec.ready.good.shapes SW (hrec.ready.good.corner SW (by simp))).height] at hlt
        have hlt' : (d.shape NE).height + qs.length + y < out.length := by omega
        have hp := List.getElem?_eq_getElem hlt'
        have hrow := hrows.bottom y _ (by omega) hp
        obtain ⟨w, e1, -⟩ := edge_parts hrec (top := false) (by simp; omega) hrow
        refine ⟨_, List.mem_of_getElem? hp, ?_⟩
        rw [(hvis _ (List.mem_of_getElem? hp)).text.unique (printedRow_edge hdb hd (top := false) (by simp; omega) hrow).text, e1]
        simp only [Bool.false_eq_true, if_false, hlm]
        exact leading_flush hdb hc
    obtain ⟨p, hp, hpi⟩ := hflush
    have hcol := seen_columns (hvis p hp).seen
    have hle := j6.le (vis p.1.memory) (List.mem_map.2 ⟨p, hp, rfl⟩) hcol
    rcases j6.attained ⟨vis p.1.memory, List.mem_map.2 ⟨p, hp, rfl⟩, hcol⟩ with h0 | ⟨v, hv, -, h0⟩
    · have := leading_le_length db (vis p.1.memory)
      have := text_length_le (hvis p hp).text
      have := hshort p hp
      omega
    · obtain ⟨q, hq, rfl⟩ := List.mem_map.1 hv
      have := (hvis q hq).indented
      simp only [Function.comp] at h0
      omega
  · rw [j5, List.getLast?_map]
    cases hx : out.getLast? with
    | none => simp
    | some p => simp
  · rw [j3]
    refine List.map_congr_left (fun p hp => ?_)
    exact hrows.read p hp
  · intro d3 h3 hp3
    refine ⟨?_, ?_, ?_, ?_, ?_, ?_, ?_, ?_, ?_⟩
    · rw [h3, hlen, hrows.count, List.length_map]
    · intro l hl
      obtain ⟨x, hx⟩ := List.getElem?_of_mem hl
      have := congrArg (fun l : List (Option Bxs) => l[x]?) j3
      simp only [List.getElem?_map, hx, Option.map_some] at this
      cases ho : out[x]? with
      | none => rw [ho] at this; simp at this
      | some p =>
        rw [ho] at this
        simp only [Option.map_some, Function.comp, Option.some.injEq] at this
        have hread := hrows.read p (List.mem_of_getElem? ho)
        rw [hread] at this
        exact ⟨p.1, this, hread⟩
    · intro y l b hy hl hb
      obtain ⟨p, hp, rfl⟩ := hline y l b hl hb
      have := hrows.top y p (by rw [← h3]; exact hy) hp
      simpa only [EdgeRow, h3] using this
    · intro k l b m hm' hl hb
      obtain ⟨p, hp, rfl⟩ := hline _ l b hl hb
      rw [List.getElem?_map] at hm'
      cases hv : qs[k]? with
      | none => rw [hv] at hm'; simp at hm'
      | some v =>
        rw [hv] at hm'
        obtain rfl := Option.some.inj hm'
        have := hrows.body k p v hv (by rw [← h3]; exact hp)
        simpa only [BodyRow, h3] using this
    · intro y l b hy hl hb
      obtain ⟨p, hp, rfl⟩ := hline _ l b hl hb
      have := hrows.bottom y p (by rw [← h3]; exact hy) (by rw [← hp, h3, List.length_map])
      simpa only [EdgeRow, h3] using this
    · intro m hm'
      obtain ⟨v, hv, rfl⟩ := List.mem_map.1 hm'
      rw [hp3]
      constructor
      · simp [spaces]
      · intro c hc
        rw [List.append_assoc, List.take_append_of_le_length (by simp [spaces])] at hc
        have hc := List.mem_of_mem_take hc
        exact ⟨spaces_blank hdb lp c hc, spaces_all (P := fun c => c ≠ 0x1b) (by decide) _ c hc⟩
    · intro m hm'
      obtain ⟨q, hq, rfl⟩ := List.mem_map.1 hm'
      refine ⟨_, ((Text.plain (spaces_ne _)).append (hqs q hq).text).append (Text.plain (spaces_ne _)), ?_⟩
      intro c hc
      simp only [List.mem_append] at hc
      rcases hc with (hc | hc) | hc
      · exact (spaces_all (cleanChar_space hdb) _ c hc).2.2.1
      · intro hbl
        rw [(hqs q hq).blanks c hc hbl]; simp [Spec.width]
      · exact (spaces_all (cleanChar_space hdb) _ c hc).2.2.1
    · intro m hm'
      obtain ⟨q, hq, rfl⟩ := List.mem_map.1 hm'
      intro c hc
      simp only [List.mem_append] at hc
      rcases hc with (hc | hc) | hc
      · exact (spaces_all (cleanChar_space hdb) _ c hc).2.1
      · exact ((hqs q hq).chars c hc).2.2.2
      · exact (spaces_all (cleanChar_space hdb) _ c hc).2.1
    · intro m hm'
      obtain ⟨q, hq, rfl⟩ := List.mem_map.1 hm'
      rw [hp3, List.append_assoc, List.drop_append_of_le_length (by simp [spaces])]
      refine ⟨?_, ?_⟩
      · simp only [spaces, List.drop_replicate, Nat.sub_self, List.replicate_zero, List.nil_append]
        exact frontKept_append (hqs q hq).front (frontKept_plain (spaces_ne _))
      · refine backKept_prefix (spaces_ne _) ?_
        exact backKept_spaces (hqs q hq)

end Boxes
