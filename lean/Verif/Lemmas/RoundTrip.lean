import Verif.Spec.RoundTrip
import Verif.Props.Total
import Verif.Lemmas.TextSplit

/-!
# Lemmas: the parts of a drawn box are found again
-/
namespace Boxes
open Spec ShapeName
set_option linter.unusedSimpArgs false

/-! ## Texts -/

theorem occursAt_get {h n : Str} {p : Nat} (ho : OccursAt h n p) {i : Nat} (hi : i < n.length) : h[p + i]? = n[i]? := by
  obtain ⟨a, b, rfl, rfl⟩ := ho
  rw [List.append_assoc, List.getElem?_append_right (by omega), List.getElem?_append_left (by omega)]
  congr 1; omega

theorem occursAt_le {h n : Str} {p : Nat} (ho : OccursAt h n p) : p + n.length ≤ h.length := by
  obtain ⟨a, b, rfl, rfl⟩ := ho
  simp

theorem leading_get (db : CharDb) (v : Str) : ∀ (i : Nat) c, i < leadingBlanks db v → v[i]? = some c → Blank db c := by
  unfold leadingBlanks
  induction v with
  | nil => intro i c h; simp at h
  | cons a v ih =>
    intro i c hi hc
    by_cases ha : Blank db a
    · simp only [List.takeWhile_cons, ha, decide_true, if_true, List.length_cons] at hi
      cases i with
      | zero => simp at hc; rw [← hc]; exact ha
      | succ i => exact ih i c (by omega) (by simpa using hc)
    · simp [List.takeWhile_cons, ha] at hi

theorem leading_first (db : CharDb) {v : Str} (h : ∃ c ∈ v, ¬ Blank db c) : ∃ c, v[leadingBlanks db v]? = some c ∧ ¬ Blank db c := by
  unfold leadingBlanks
  induction v with
  | nil => obtain ⟨c, hc, _⟩ := h; simp at hc
  | cons a v ih =>
    by_cases ha : Blank db a
    · simp only [List.takeWhile_cons, ha, decide_true, if_true, List.length_cons, List.getElem?_cons_succ]
      apply ih
      obtain ⟨c, hc, hb⟩ := h
      rcases List.mem_cons.1 hc with rfl | hc
      · exact absurd ha hb
      · exact ⟨c, hc, hb⟩
    · exact ⟨a, by simp [List.takeWhile_cons, ha], ha⟩

theorem leading_before (db : CharDb) (pre w : Str) (hpre : ∀ c ∈ pre, Blank db c) : leadingBlanks db (pre ++ w) = pre.length + leadingBlanks db w := by
  unfold leadingBlanks
  induction pre with
  | nil => simp
  | cons a pre ih =>
    simp only [List.cons_append, List.takeWhile_cons, hpre a (by simp), decide_true, if_true, List.length_cons]
    rw [ih (fun c hc => hpre c (by simp [hc]))]; omega

theorem leading_more (db : CharDb) (w rest : Str) (h : ∃ c ∈ w, ¬ Blank db c) : leadingBlanks db (w ++ rest) = leadingBlanks db w := by
  unfold leadingBlanks
  induction w with
  | nil => obtain ⟨c, hc, _⟩ := h; simp at hc
  | cons a w ih =>
    by_cases ha : Blank db a
    · simp only [List.cons_append, List.takeWhile_cons, ha, decide_true, if_true, List.length_cons]
      congr 1
      apply ih
      obtain ⟨c, hc, hb⟩ := h
      rcases List.mem_cons.1 hc with rfl | hc
      · exact absurd ha hb
      · exact ⟨c, hc, hb⟩
    · simp [List.takeWhile_cons, ha]

theorem spaces_blank {db : CharDb} (hdb : Sane db) (n : Nat) : ∀ c ∈ spaces n, Blank db c := by
  intro c hc
  rw [spaces, List.mem_replicate] at hc
  rw [hc.2]; exact .inr hdb.space_blank

theorem leading_row {db : CharDb} (hdb : Sane db) (ind : Nat) (w rest : Str) (h : ∃ c ∈ w, ¬ Blank db c) :
    leadingBlanks db (spaces ind ++ w ++ rest) = ind + leadingBlanks db w := by
  rw [List.append_assoc, leading_before db _ _ (spaces_blank hdb ind), leading_more db w rest h]
  simp [spaces]

/-- a text that begins with as many blanks as `w` occurs near the start of a line `w` begins only where `w` does -/
theorem occurs_start {db : CharDb} (hdb : Sane db) {ind p : Nat} {w w' rest : Str} (h : ∃ c ∈ w, ¬ Blank db c) (h' : ∃ c ∈ w', ¬ Blank db c)
    (hl : leadingBlanks db w' = leadingBlanks db w) (ho : OccursAt (spaces ind ++ w ++ rest) w' p) (hp : p ≤ ind + leadingBlanks db w) : p = ind := by
  have hlen : (spaces ind).length = ind := by simp [spaces]
  have hrow := leading_row hdb ind w rest h
  obtain ⟨c, hc, hcb⟩ := leading_first db h'
  have hlt := leadingBlanks_lt db h'
  have h1 : ind ≤ p := by
    refine Classical.byContradiction fun hlt' => hcb ?_
    refine leading_get db (spaces ind ++ w ++ rest) (p + leadingBlanks db w') c (by omega) ?_
    rw [occursAt_get ho hlt]; exact hc
  refine Classical.byContradiction fun hne => ?_
  obtain ⟨e, he, heb⟩ := leading_first db (v := spaces ind ++ w ++ rest) (by
    obtain ⟨x, hx, hxb⟩ := h
    exact ⟨x, by simp [hx], hxb⟩)
  rw [hrow] at he
  have hi : ind + leadingBlanks db w - p < w'.length := by omega
  have := occursAt_get ho hi
  rw [show p + (ind + leadingBlanks db w - p) = ind + leadingBlanks db w by omega, he] at this
  exact heb (leading_get db w' _ e (by omega) this.symm)

theorem occursAt_mid (a b c : Str) : OccursAt (a ++ b ++ c) b a.length := ⟨a, c, rfl, rfl⟩

theorem occurs_first {db : CharDb} (hdb : Sane db) {ind : Nat} {w rest : Str} (h : ∃ c ∈ w, ¬ Blank db c) :
    FirstFrom (spaces ind ++ w ++ rest) w 0 ind := by
  refine ⟨Nat.zero_le _, by simpa [spaces] using occursAt_mid (spaces ind) w rest, ?_⟩
  intro p' _ hp ho
  have := occurs_start hdb h h rfl ho (by omega)
  omega

/-- the last place where a text that ends with a visible character occurs, if only blanks follow it -/
theorem occurs_last {db : CharDb} {pre e tail : Str} {c : Nat} (hc : ¬ Blank db c) (ht : ∀ x ∈ tail, Blank db x) :
    LastAt (pre ++ (e ++ [c]) ++ tail) (e ++ [c]) pre.length := by
  refine ⟨occursAt_mid _ _ _, ?_⟩
  intro p' ho
  refine Classical.byContradiction fun hlt => hc ?_
  have h1 := occursAt_get ho (i := e.length) (by simp)
  have h2 := occursAt_le ho
  simp only [List.length_append, List.length_cons, List.length_nil] at h2
  rw [List.getElem?_append_right (by simp; omega)] at h1
  have h3 : tail[p' + e.length - (pre ++ (e ++ [c])).length]? = some c := by rw [h1]; simp
  exact ht c (List.mem_of_getElem? h3)

theorem dropTrailing_row (db : CharDb) (p e : Str) (h : ∃ c ∈ e, ¬ Blank db c) : dropTrailing db (p ++ e) = p ++ dropTrailing db e := by
  obtain ⟨x, c, y, rfl, h2, h3, h4⟩ := dropTrailing_split db h
  rw [h4, ← List.append_assoc, dropTrailing_app db (p ++ x) c y h2 h3, List.append_assoc]

theorem seen_nonblank {db : CharDb} {s : Str} (h : Seen db s) : ∃ c ∈ s, ¬ Blank db c := by
  obtain ⟨c, h1, h2, -⟩ := h; exact ⟨c, h1, h2⟩

theorem seen_drop {db : CharDb} {s : Str} (h : Seen db s) : Seen db (dropTrailing db s) := by
  obtain ⟨x, c, y, e1, e2, e3, e4⟩ := dropTrailing_split db (seen_nonblank h)
  obtain ⟨z, hz, h1, h2, h3⟩ := h
  rw [e4]
  rw [e1] at hz
  rcases List.mem_append.1 hz with hz | hz
  · exact ⟨z, by simp [hz], h1, h2, h3⟩
  · rcases List.mem_cons.1 hz with rfl | hz
    · exact ⟨z, by simp, h1, h2, h3⟩
    · exact absurd (e3 z hz) h1

/-! ## The top and bottom part -/

theorem prepareCompShape_literal {d : Design} {n : ShapeName} {k : Nat} {b : Bxs} {c : CompType} (hc : c.skipsShape = false) (hl : (d.shape n).lines[k]? = some b) (hk : k < (d.shape n).height) :
    prepareCompShape d n k c false false = .ok b.memory := by
  unfold prepareCompShape
  rw [if_neg (by omega), hl]
  simp [hc]

theorem longestFit_whole (db : CharDb) {t rest : Str} (ht : t ≠ []) : LongestFit db true t (t ++ rest) t.length where
  some := List.length_pos_iff.2 ht
  inside := Nat.le_refl _
  found := by rw [List.take_length]; exact List.prefix_append _ _
  lost := by simp
  all := fun _ => rfl
  longest := by intro k h1 h2; omega

theorem nothingFrom_cons {db : CharDb} {shapes : List ShapeLine} {idx : Nat} {sl : ShapeLine} (h : shapes[idx]? = some sl) (hv : Vanishing db sl)
    (hn : NothingFrom db shapes (idx + 1) 4) : NothingFrom db shapes idx 4 := by
  intro i x h1 h2 hx
  by_cases hi : i = idx
  · subst hi; rw [h] at hx; obtain rfl := Option.some.inj hx; exact hv
  · exact hn i x (by omega) h2 hx

/-- one more shape in front -/
theorem sideRow_step {db : CharDb} {shapes : List ShapeLine} {tail : Str} {idx n : Nat} {sl : ShapeLine} {t w : Str} (hi : idx < 4)
    (hs : shapes[idx]? = some sl)
    (hn : (sl.empty = true ∧ n = 0) ∨ (sl.empty = false ∧ 0 < n ∧ (1 < n → sl.elastic = true) ∧ sl.text.memory = t ∧ t ≠ []))
    (hw : SideRow db shapes true tail (idx + 1) w) (h0 : w = [] → NothingFrom db shapes (idx + 1) 4) :
    SideRow db shapes true tail idx (times n t ++ w) ∧ (times n t ++ w = [] → NothingFrom db shapes idx 4) := by
  rcases hn with ⟨he, rfl⟩ | ⟨he, hpos, hel, ht, hne⟩
  · have e : times 0 t ++ w = w := by simp [times]
    rw [e]
    refine ⟨?_, fun h => nothingFrom_cons hs (.inl he) (h0 h)⟩
    by_cases hw0 : w = []
    · subst hw0
      refine .over (nothingFrom_cons hs (.inl he) (h0 rfl)) ?_
      intro sl' h'; rw [hs] at h'; obtain rfl := Option.some.inj h'; exact .inl he
    · exact .skip hi hw0 hs he hw
  · have hne' : ∀ m, 0 < m → times m t ++ w ≠ [] := by
      intro m hm h
      cases m with
      | zero => omega
      | succ m => simp [times, List.replicate_succ, hne] at h
    refine ⟨?_, fun h => absurd h (hne' n hpos)⟩
    induction n with
    | zero => omega
    | succ n ih =>
      have e : times (n + 1) t ++ w = t ++ (times n t ++ w) := by simp [times, List.replicate_succ]
      rw [e]
      have hfit : LongestFit db true sl.text.memory (t ++ (times n t ++ w) ++ tail) t.length := by
        rw [ht, List.append_assoc]; exact longestFit_whole db hne
      by_cases hn0 : n = 0
      · subst hn0
        simp only [times, List.replicate_zero, List.flatten_nil, List.nil_append] at hfit ⊢
        exact .once hi (by simp [hne]) hs he hfit hw
      · exact .again hi (by simp [hne]) hs he (hel (by omega)) hfit (ih (by omega) (fun h => hel (by omega)))

theorem seen_not_blank {db : CharDb} {s : Str} {b : Bxs} (ht : Text s s) (hb : fromUnicode db s = some b) (h : Seen db s) : b.isBlankStr db = false := by
  cases hh : b.isBlankStr db with
  | false => rfl
  | true =>
    obtain ⟨c, h1, h2, h3, -⟩ := h
    rcases (C06_is_blank db ht hb).1 hh c h1 with h | h
    · exact absurd h h2
    · exact absurd h h3

/-- names of the shapes of the top (bottom) side, from left to right -/
theorem edge_names (top : Bool) : (if top then [NW, NNW, N, NNE, NE] else [SW, SSW, S, SSE, SE]) =
    [if top then NW else SW, if top then NNW else SSW, if top then N else S, if top then NNE else SSE, if top then NE else SE] := by
  cases top <;> rfl

theorem row_plain {row : Str} {v : Str} {t : Str} (hr : ∀ c ∈ row, c ≠ 0x1b) (h : t <+: row) (ht : Text t v) : t = v := by
  obtain ⟨y, rfl⟩ := h
  exact (Spec.Text.plain (fun c hc => hr c (by simp [hc]))).unique ht

/-- a line of a shape with something to see -/
theorem ready_plain {db : CharDb} (hdb : Sane db) {d : Design} (hd : Recognisable db d) (n : ShapeName) (b : Bxs) (hp : Present (d.shape n))
    (hb : b ∈ (d.shape n).lines) (hs : Seen db b.memory) :
    fromUnicode db b.memory = some b ∧ NarrowBlanks db b.memory ∧ Text b.memory b.memory := by
  have ht := Spec.Text.plain (hd.plain n hp b hb)
  rcases hd.ready.lines n hp b hb with ⟨w, rfl⟩ | ⟨v, h1, h2, h3⟩
  · obtain ⟨c, h1, h2, -⟩ := hs
    have : c ∈ spaces w := h1
    exact absurd (spaces_blank hdb w c this) h2
  · obtain rfl := ht.unique h1
    exact ⟨h2, h3, ht⟩

/-- a row of the top or bottom part is recognised by its own line of the shapes -/
theorem edge_found {db : CharDb} (hdb : Sane db) {d : Design} (hd : Recognisable db d) {lines : List Line} {o : Sides Bool} {top : Bool}
    {i y ind : Nat} {l : Line} {b : Bxs} {ct : CompType} (hct : ct.skipsShape = false) (hl : lines[i]? = some l) (hlt : l.text = some b) (hb : fromUnicode db b.memory = some b)
    (hp : ∀ c ∈ b.memory, c ≠ 0x1b) (hn : NarrowBlanks db b.memory) (ho : o.left = false ∧ o.right = false)
    (hy : y < (d.shape (if top then NE else SE)).height) (hr : EdgeRow db d top ind y b.memory) :
    matchHorizLineWith db d lines o top i y ct = .ok true := by
  have hside : ∀ n ∈ (if top then northSide else southSideRev), Present (d.shape n) → y < (d.shape n).height := by
    intro n hn hp; rw [side_heights hd.ready.good top n hn hp]; exact hy
  obtain ⟨shapes, e1, e2⟩ := compShapesHoriz_total hdb hd.ready ct y (if top then northSide else southSideRev) hside
  have htb : Text b.memory b.memory := Spec.Text.plain hp
  obtain ⟨t, g1, g2, g3, g4⟩ := C25_input db lines i ct false htb hb hl hlt hn
  have g5 : t = b.memory := by
    cases hs : ct.skipsInput with
    | true => rw [g3 hs]; simp [stripped]
    | false => exact (g4 hs).2 rfl
  subst g5
  obtain ⟨m, first, last, line, left, right, f1, f2, f3, f4, f5⟩ := C25_line_partial db d lines o top i y ct e1 e2 g1 htb (by
    intro x hx hf
    have := (C01_rejected_iff db htb).2 ⟨x, hx, hf⟩
    rw [hb] at this; simp at this) hn
  obtain ⟨s1, s2⟩ := C25_shapes db d top ct y shapes e1
  rw [edge_names] at s2
  rw [f1]
  congr 1
  rw [f5]
  obtain ⟨na, nb, nc, ha, hb', hc, hrow⟩ := hr
  generalize hcl : (if top then NW else SW) = cl at *
  generalize hcr : (if top then NE else SE) = cr at *
  have hmem : cl ∈ [NW, NE, SE, SW] ∧ cr ∈ [NW, NE, SE, SW] := by rw [← hcl, ← hcr]; cases top <;> simp
  have hpl := hd.ready.good.corner cl hmem.1
  have hpr := hd.ready.good.corner cr hmem.2
  have hside' : ∀ n ∈ [cl, if top then NNW else SSW, if top then N else S, if top then NNE else SSE, cr], Present (d.shape n) →
      ∃ b, (d.shape n).lines[y]? = some b ∧ y < (d.shape n).height ∧ lineText (d.shape n) y = b.memory ∧ b ∈ (d.shape n).lines := by
    intro n hn hp
    have h1 := hside n (by rw [← hcl, ← hcr] at hn; revert hn; cases top <;> exact id) hp
    have h2 : y < (d.shape n).lines.length := by rw [(hd.ready.good.shapes n hp).height]; exact h1
    exact ⟨_, List.getElem?_eq_getElem h2, h1, by simp [lineText, List.getElem?_eq_getElem h2], List.getElem_mem h2⟩
  obtain ⟨bl, l1, l2, l3, l4⟩ := hside' cl (by simp) hpl
  obtain ⟨br, r1, r2, r3, r4⟩ := hside' cr (by simp) hpr
  have hsl : Seen db bl.memory := hd.corners cl (by have := hmem.1; simp only [List.mem_cons, List.not_mem_nil, or_false] at this ⊢; rcases this with h | h | h | h <;> simp [h]) bl l4
  have hsr : Seen db br.memory := hd.corners cr (by have := hmem.2; simp only [List.mem_cons, List.not_mem_nil, or_false] at this ⊢; rcases this with h | h | h | h <;> simp [h]) br r4
  have hready : ∀ n b, Present (d.shape n) → b ∈ (d.shape n).lines → Seen db b.memory → fromUnicode db b.memory = some b ∧ NarrowBlanks db b.memory ∧
      Text b.memory b.memory := ready_plain hdb hd
  obtain ⟨hfr, hnr, htr⟩ := hready cr br hpr r4 hsr
  obtain ⟨hfl, hnl, htl⟩ := hready cl bl hpl l4 hsl
  obtain ⟨first', q1, q2, q3, q4, q5⟩ := s2 0 cl (by simp)
  obtain ⟨last', u1, u2, u3, u4, u5⟩ := s2 4 cr (by simp)
  rw [f2] at q1; obtain rfl := Option.some.inj q1
  rw [f3] at u1; obtain rfl := Option.some.inj u1
  obtain ⟨tl, v1, v2⟩ := q5 ((isEmpty_iff _).2 hpl)
  obtain ⟨tr, w1, w2⟩ := u5 ((isEmpty_iff _).2 hpr)
  rw [show decide (0 = 4) = false from rfl, prepareCompShape_literal hct l1 l2] at v1
  obtain rfl := Res.ok.inj v1
  have hfirst : first.text.memory = bl.memory := fromUnicode_memory v2
  obtain ⟨x, c, yy, z1, z2, z3, z4⟩ := dropTrailing_split db (seen_nonblank hsr)
  have hlast : tr = x ++ [c] := by
    obtain ⟨t', k1, k2, -, k4⟩ := C25_shape db d cr y ct false true htr hfr r1 r2 hnr (.inr (.inl rfl))
    rw [show decide (4 = 4) = true from rfl, k1] at w1
    obtain rfl := Res.ok.inj w1
    have hany : br.memory.any (fun c => !decide (Blank db c)) = true := by
      obtain ⟨c', hc', hcb⟩ := seen_nonblank hsr
      rw [List.any_eq_true]; exact ⟨c', hc', by simp [hcb]⟩
    simp only [stripped, hany, Bool.and_self, Bool.true_and, if_true, Bool.false_eq_true, if_false, z4] at k2
    have hpl' : ∀ c ∈ br.memory, c ≠ 0x1b := hd.plain cr hpr br r4
    obtain ⟨a1, a2, ha⟩ := (k4 hct).1
    exact (Spec.Text.plain (fun c hc => hpl' c (by rw [← ha]; simp [hc]))).unique k2
  have hlast' : last.text.memory = x ++ [c] := by rw [fromUnicode_memory w2]; exact hlast
  rw [l3, r3, dropTrailing_row db _ _ (seen_nonblank hsr), z4] at hrow
  generalize hmid : times na (lineText (d.shape (if top then NNW else SSW)) y) ++ (times nb (lineText (d.shape (if top then N else S)) y) ++
    (times nc (lineText (d.shape (if top then NNE else SSE)) y) ++ [])) = mid at *
  have hrow' : b.memory = spaces ind ++ bl.memory ++ mid ++ (x ++ [c]) := by
    rw [hrow, ← hmid]; simp
  clear hrow
  have hbnb : ∃ c ∈ b.memory, ¬ Blank db c := ⟨c, by rw [hrow']; simp, z2⟩
  obtain ⟨tt, y1, y2, y3, y4, -, y5⟩ := f4
  obtain ⟨y6, y7⟩ := y5 hbnb
  have hdt : dropTrailing db b.memory = b.memory := by
    rw [hrow', ← List.append_assoc]; exact dropTrailing_app db _ c [] z2 (by simp)
  rw [hdt] at y6
  have hteq : tt = b.memory := row_plain hp y4 y6
  subst hteq
  have hleft : left = ind + leadingBlanks db bl.memory := by
    have h1 := row_plain hp (List.take_prefix left b.memory) y7
    have h2 := congrArg List.length h1
    have h3 := leadingBlanks_lt db hbnb
    rw [List.length_take, List.length_take] at h2
    have h4 : leadingBlanks db b.memory = ind + leadingBlanks db bl.memory := by
      rw [hrow', List.append_assoc (spaces ind ++ bl.memory)]; exact leading_row hdb ind _ _ (seen_nonblank hsl)
    omega
  have hlen : (spaces ind).length = ind := by simp [spaces]
  have hline : line = spaces ind ++ bl.memory ++ (mid ++ (x ++ [c]) ++ List.replicate ((d.shape NW).width + (d.shape NE).width) 0x20) := by
    rw [y1, hrow']; simp
  have hline' : line = (spaces ind ++ bl.memory ++ mid) ++ (x ++ [c]) ++ List.replicate ((d.shape NW).width + (d.shape NE).width) 0x20 := by
    rw [y1, hrow']
  have hlne : line ≠ [] := by rw [hline']; simp
  refine ⟨ind + bl.memory.length, ind + bl.memory.length + mid.length, true, true, .inl ⟨rfl, ⟨ho.1, hlne, ?_, ?_⟩, 0, ind, ?_, Nat.zero_le _, ?_⟩,
    .inl ⟨rfl, ⟨ho.2, hlne, ?_, ?_⟩, (x ++ [c]).length, ?_⟩, ?_⟩
  · rw [hfirst]; intro h; rw [h] at hsl; obtain ⟨_, h, _⟩ := hsl; simp at h
  · exact seen_not_blank htl v2 hsl
  · refine ⟨?_, by omega, by intro j; omega, by intro s'; omega⟩
    rw [List.drop_zero, hfirst, hline]
    exact occurs_first hdb (seen_nonblank hsl)
  · rw [hfirst]; omega
  · rw [hlast']; simp
  · rw [hlast] at w2
    have hs := seen_drop hsr
    rw [z4] at hs
    exact seen_not_blank (Spec.Text.plain (fun c' hc' => hd.plain cr hpr br r4 c' (by
      rw [z1]; simp at hc' ⊢; rcases hc' with h | h <;> simp [h]))) w2 hs
  · rw [hlast']
    refine ⟨Nat.le_refl _, ?_, ?_, by simp, by intro k'; omega⟩
    · rw [List.take_length, hline']
      have := occurs_last (db := db) (pre := spaces ind ++ bl.memory ++ mid) (e := x) (c := c)
        (tail := List.replicate ((d.shape NW).width + (d.shape NE).width) 0x20) z2 (spaces_blank hdb _)
      simpa [spaces, Nat.add_assoc] using this
    · rw [y2, hrow']; simp [spaces]; omega
  · unfold Between
    rw [if_pos rfl]
    refine ⟨by omega, ?_⟩
    have hdrop : (line.take (ind + bl.memory.length + mid.length)).drop (ind + bl.memory.length) = mid := by
      rw [hline', List.append_assoc _ (x ++ [c]), List.take_append_of_le_length (by simp [hlen]; omega), List.take_of_length_le (by simp [hlen]; omega),
        List.drop_append_of_le_length (by simp [hlen])]
      rw [List.drop_of_length_le (by simp [hlen])]; rfl
    rw [hdrop]
    have hstep : ∀ (k : Nat) n m, [cl, if top then NNW else SSW, if top then N else S, if top then NNE else SSE, cr][k]? = some n → k < 4 →
        OccursIn (d.shape n) m → ∀ w, SideRow db shapes true (line.drop (ind + bl.memory.length + mid.length)) (k + 1) w →
        (w = [] → NothingFrom db shapes (k + 1) 4) →
        SideRow db shapes true (line.drop (ind + bl.memory.length + mid.length)) k (times m (lineText (d.shape n) y) ++ w) ∧
        (times m (lineText (d.shape n) y) ++ w = [] → NothingFrom db shapes k 4) := by
      intro k n m hk hk4 hocc w hw hw0
      obtain ⟨sl, i1, i2, i3, i4, i5⟩ := s2 k n hk
      refine sideRow_step hk4 i1 ?_ hw hw0
      by_cases hpn : Present (d.shape n)
      · right
        have he := (isEmpty_iff _).2 hpn
        obtain ⟨bn, j1, j2, j3, j4⟩ := hside' n (List.mem_of_getElem? hk) hpn
        obtain ⟨tn, k1, k2⟩ := i5 he
        rw [show decide (k = 4) = false by simp; omega, prepareCompShape_literal hct j1 j2] at k1
        obtain rfl := Res.ok.inj k1
        refine ⟨by rw [i2]; exact he, hocc.2.1 hpn, by rw [i3]; exact hocc.2.2, by rw [j3]; exact fromUnicode_memory k2, ?_⟩
        rw [j3]
        intro hnil
        have hg := (hd.ready.good.shapes n hpn).lines bn j4
        obtain ⟨⟨v, hv⟩, hcols⟩ := hg
        have hv0 := hv.text
        rw [hnil] at hv0
        have := hv0.unique Text.nil
        have h0 := hv.cols
        rw [hcols, this] at h0
        have := hpn.2.1
        simp [columns] at h0
        omega
      · left
        refine ⟨by rw [i2]; cases he : (d.shape n).isEmpty with | true => rfl | false => exact absurd ((isEmpty_iff _).1 he) hpn, hocc.1 hpn⟩
    obtain ⟨a1, a2⟩ := hstep 3 _ nc (by simp) (by omega) hc [] (.corner rfl) (fun _ => by intro i sl h1 h2; omega)
    obtain ⟨b1, b2⟩ := hstep 2 _ nb (by simp) (by omega) hb' _ a1 a2
    have := (hstep 1 _ na (by simp) (by omega) ha _ b1 b2).1
    rw [hmid] at this
    exact this

/-! ## The left and right side -/

theorem shapeLabels_mem {d : Design} {ns : List ShapeName} {n : ShapeName} {k : Nat} :
    (n, k) ∈ shapeLabels d ns ↔ n ∈ ns ∧ Present (d.shape n) ∧ k < (d.shape n).height := by
  unfold shapeLabels
  simp only [List.mem_flatMap, List.mem_filter, Bool.not_eq_true', isEmpty_iff, List.mem_map, List.mem_range, Prod.mk.injEq]
  constructor
  · rintro ⟨m, ⟨h1, h2⟩, k', h3, rfl, rfl⟩; exact ⟨h1, h2, h3⟩
  · rintro ⟨h1, h2, h3⟩; exact ⟨n, ⟨h1, h2⟩, k, h3, rfl, rfl⟩

/-- the shape lines compared are the lines of the shapes of the side -/
theorem vertShapes_mem {db : CharDb} {d : Design} (hd : GoodDesign db d) {left : Bool} {sls : List ShapeLine} {ct : CompType}
    (hct : ct.skipsShape = false) (h : prepareCompShapesVert db d left ct = .ok sls) :
    (∀ sl ∈ sls, ∃ n ∈ (if left then [WNW, W, WSW] else [ENE, E, ESE]), Present (d.shape n) ∧ ∃ b ∈ (d.shape n).lines, sl.text.memory = b.memory) ∧
    (∀ n ∈ (if left then [WNW, W, WSW] else [ENE, E, ESE]), Present (d.shape n) → ∀ b ∈ (d.shape n).lines,
      ∃ sl ∈ sls, sl.text.memory = b.memory ∧ sl.empty = (d.shape n).isDeepEmpty) := by
  obtain ⟨h1, h2, -⟩ := C64_shapes db d left ct sls h
  constructor
  · intro sl hsl
    obtain ⟨m, hm⟩ := List.getElem?_of_mem hsl
    have hlt := (List.getElem?_eq_some_iff.1 hm).1
    rw [h1] at hlt
    obtain ⟨q, hq⟩ : ∃ q, (shapeLabels d (if left then [WNW, W, WSW] else [ENE, E, ESE]))[m]? = some q := ⟨_, List.getElem?_eq_getElem hlt⟩
    obtain ⟨n, k⟩ := q
    obtain ⟨sl', t, e1, -, -, e4, e5⟩ := h2 m n k hq
    rw [hm] at e1; obtain rfl := Option.some.inj e1
    obtain ⟨g1, g2, g3⟩ := shapeLabels_mem.1 (List.mem_of_getElem? hq)
    have hk : k < (d.shape n).lines.length := by rw [(hd.shapes n g2).height]; exact g3
    rw [prepareCompShape_literal hct (List.getElem?_eq_getElem hk) g3] at e4
    obtain rfl := Res.ok.inj e4
    exact ⟨n, g1, g2, _, List.getElem_mem hk, fromUnicode_memory e5⟩
  · intro n hn hp b hb
    obtain ⟨k, hk⟩ := List.getElem?_of_mem hb
    have hkl := (List.getElem?_eq_some_iff.1 hk).1
    have hkh : k < (d.shape n).height := by rw [← (hd.shapes n hp).height]; exact hkl
    obtain ⟨m, hm⟩ := List.getElem?_of_mem (shapeLabels_mem.2 ⟨hn, hp, hkh⟩)
    obtain ⟨sl, t, e1, e2, -, e4, e5⟩ := h2 m n k hm
    rw [prepareCompShape_literal hct hk hkh] at e4
    obtain rfl := Res.ok.inj e4
    exact ⟨sl, List.mem_of_getElem? e1, fromUnicode_memory e5, e2⟩

theorem cut_none (db : CharDb) (a : Bool) (t : Str) : Cut db a true true t 0 0 where
  fits := by omega
  front := by intro i c h; omega
  back := by
    intro i c h hc
    have := (List.getElem?_eq_some_iff.1 hc).1
    omega
  noLeft := fun _ => rfl
  noRight := fun _ => rfl
  leftOrder := by intro _ h; omega
  rightOrder := by intro _ h; omega

theorem remains_none (t : Str) : remains t 0 0 = t := by simp [remains]

/-- the left side of a row is found where it is -/
theorem west_best {db : CharDb} (hdb : Sane db) {ind y a e q : Nat} {w rest : Str} {sls : List ShapeLine} {slw : ShapeLine}
    (hw : ∃ c ∈ w, ¬ Blank db c) (hs : slw ∈ sls) (hse : slw.empty = false) (hsw : slw.text.memory = w)
    (hal : ∀ sl ∈ sls, (∃ c ∈ sl.text.memory, ¬ Blank db c) ∧ sl.text.memory.length = w.length ∧
      leadingBlanks db sl.text.memory = leadingBlanks db w)
    (h : BestHit db true (spaces ind ++ w ++ rest) (ind + leadingBlanks db w) y sls a e q) :
    a = ind ∧ e = ind + w.length ∧ q = w.length := by
  have hwne : w ≠ [] := by intro h; subst h; obtain ⟨_, h, _⟩ := hw; simp at h
  have hhit : WestHit (spaces ind ++ w ++ rest) (ind + leadingBlanks db w) w.length w ind :=
    ⟨hwne, occurs_first hdb hw, by omega⟩
  have hfull : SideHit db true (spaces ind ++ w ++ rest) (ind + leadingBlanks db w) y w ind w.length :=
    ⟨0, 0, cut_none db _ _, by omega, by rw [remains_none]; exact hhit, by intro l' r' p' _ h; omega⟩
  rcases h with ⟨-, -, -, h⟩ | ⟨b, sl, c, e1, e2, ⟨l, r, g1, g2, g3, g4⟩, e4, e5, e6⟩
  · exact absurd (hsw ▸ hfull) (h slw hs hse ind w.length)
  · obtain ⟨k1, k2, k3⟩ := hal sl (by rw [e1]; simp)
    have hq : l = 0 ∧ r = 0 := by
      rw [e1] at hs
      rcases List.mem_append.1 hs with hs | hs
      · have := e5 slw hs hse ind w.length (hsw ▸ hfull); omega
      · rcases List.mem_cons.1 hs with rfl | hs
        · have := g4 0 0 ind (cut_none db _ _)
          rw [remains_none, hsw] at this
          have h0 : ¬ (0 + 0 < l + r) := fun h => this h hhit
          omega
        · have := e6 slw hs hse ind w.length (hsw ▸ hfull); omega
    obtain ⟨rfl, rfl⟩ := hq
    rw [remains_none] at g3
    obtain ⟨-, m2, m3⟩ := g3
    have ha : a = ind := occurs_start hdb hw k1 k3 m2.2.1 (by omega)
    refine ⟨ha, by omega, by omega⟩

/-- a text that ends with blanks is not found at the end of a row, unless they are cut -/
theorem east_cut {db : CharDb} {row t : Str} {p l r : Nat} {x yy : Str} {c cr : Nat} (hr : ∃ pre, row = pre ++ [cr]) (hcr : ¬ Blank db cr)
    (ht : t = x ++ c :: yy) (hyy : ∀ d ∈ yy, Blank db d) (hfit : l + r ≤ t.length) (h : EastHit row 0 (remains t l r) p) : yy.length ≤ r := by
  refine Classical.byContradiction fun hlt => ?_
  obtain ⟨h1, h2, h3, h4⟩ := h
  obtain ⟨pre, rfl⟩ := hr
  have hlen : (remains t l r).length = t.length - l - r := by simp [remains]
  have hpos : 0 < (remains t l r).length := List.length_pos_iff.2 h1
  have hle := occursAt_le h2.1
  have hg := occursAt_get h2.1 (i := (remains t l r).length - 1) (by omega)
  have hlast : p + ((remains t l r).length - 1) = pre.length := by simp at hle h4; omega
  rw [hlast] at hg
  rw [List.getElem?_append_right (by omega)] at hg
  simp at hg
  unfold remains at hg
  rw [List.getElem?_take] at hg
  split at hg
  · rw [List.getElem?_drop] at hg
    have hidx : l + ((t.length - l - r) - 1) = t.length - r - 1 := by omega
    have hlen' : (List.take (t.length - l - r) (List.drop l t)).length = t.length - l - r := by simp
    rw [hlen', hidx, ht, List.getElem?_append_right (by simp; omega)] at hg
    simp only [List.length_append, List.length_cons] at hg
    have hsucc : x.length + (yy.length + 1) - r - 1 - x.length = (yy.length - r - 1) + 1 := by omega
    rw [hsucc, List.getElem?_cons_succ] at hg
    exact hcr (hyy cr (List.mem_of_getElem? hg.symm))
  · simp at hg

theorem cut_trailing (db : CharDb) {t x yy : Str} {c : Nat} (ht : t = x ++ c :: yy) (hyy : ∀ d ∈ yy, Blank db d) :
    Cut db false true true t 0 yy.length where
  fits := by rw [ht]; simp; omega
  front := by intro i c h; omega
  back := by
    intro i c' h hc
    rw [ht] at h hc
    simp only [List.length_append, List.length_cons] at h
    rw [List.getElem?_append_right (by omega)] at hc
    have hs : i - x.length = (i - x.length - 1) + 1 := by omega
    rw [hs, List.getElem?_cons_succ] at hc
    exact hyy c' (List.mem_of_getElem? hc)
  noLeft := fun _ => rfl
  noRight := by simp
  leftOrder := by simp
  rightOrder := by intro _ h; omega

/-- the right side of a row is found where it is -/
theorem east_best {db : CharDb} {x' a e q : Nat} {pre w : Str} {sls : List ShapeLine} {slw : ShapeLine}
    (hw : ∃ c ∈ w, ¬ Blank db c) (hs : slw ∈ sls) (hse : slw.empty = false) (hsw : slw.text.memory = w)
    (hal : ∀ sl ∈ sls, (∃ c ∈ sl.text.memory, ¬ Blank db c) ∧ sl.text.memory.length = w.length ∧
      (dropTrailing db sl.text.memory).length = (dropTrailing db w).length)
    (h : BestHit db false (pre ++ dropTrailing db w) x' 0 sls a e q) :
    a = pre.length ∧ q = (dropTrailing db w).length ∧ 0 < q := by
  obtain ⟨x, c, yy, z1, z2, z3, z4⟩ := dropTrailing_split db hw
  rw [z4] at h hal ⊢
  have hrem : ∀ (t x yy : Str) c, t = x ++ c :: yy → remains t 0 yy.length = x ++ [c] := by
    intro t x yy c ht
    subst ht
    unfold remains
    have : (x ++ c :: yy).length - 0 - yy.length = (x ++ [c]).length := by simp; omega
    rw [this, List.drop_zero, show x ++ c :: yy = (x ++ [c]) ++ yy by simp, List.take_left']
    rfl
  have hhit : EastHit (pre ++ (x ++ [c])) 0 (x ++ [c]) pre.length := by
    have := occurs_last (db := db) (pre := pre) (e := x) (c := c) (tail := []) z2 (by simp)
    rw [List.append_nil] at this
    exact ⟨by simp, this, by simp, by simp⟩
  have hrow : ∃ pre', pre ++ (x ++ [c]) = pre' ++ [c] := ⟨pre ++ x, by simp⟩
  have hfull : SideHit db false (pre ++ (x ++ [c])) x' 0 w pre.length (x ++ [c]).length := by
    refine ⟨0, yy.length, cut_trailing db z1 z3, by rw [z1]; simp; omega, by rw [hrem w x yy c z1]; exact hhit, ?_⟩
    intro l' r' p' hc hlt hh
    have := east_cut hrow z2 z1 z3 hc.fits hh
    omega
  rcases h with ⟨-, -, -, h⟩ | ⟨b, sl, c2, e1, e2, ⟨l, r, g1, g2, g3, g4⟩, e4, e5, e6⟩
  · exact absurd (hsw ▸ hfull) (h slw hs hse _ _)
  · obtain ⟨k1, k2, k3⟩ := hal sl (by rw [e1]; simp)
    obtain ⟨x2, c3, y2, u1, u2, u3, u4⟩ := dropTrailing_split db k1
    rw [u4] at k3
    have hy : y2.length = yy.length := by
      have a1 := congrArg List.length u1
      have a2 := congrArg List.length z1
      simp only [List.length_append, List.length_cons, List.length_nil] at a1 a2 k3
      omega
    have hwl : w.length = (x ++ [c]).length + yy.length := by rw [z1]; simp; omega
    have hr : y2.length ≤ r := east_cut hrow z2 u1 u3 g1.fits g3
    have hq : l = 0 ∧ r = y2.length := by
      rw [e1] at hs
      rcases List.mem_append.1 hs with hs | hs
      · have := e5 slw hs hse _ _ (hsw ▸ hfull); omega
      · rcases List.mem_cons.1 hs with rfl | hs
        · have := g4 0 yy.length pre.length (cut_trailing db (hsw.trans z1) z3)
          rw [hsw, hrem w x yy c z1] at this
          have h0 : ¬ (0 + yy.length < l + r) := fun h => this h hhit
          omega
        · have := e6 slw hs hse _ _ (hsw ▸ hfull); omega
    obtain ⟨rfl, rfl⟩ := hq
    rw [hrem _ _ _ _ u1] at g3
    obtain ⟨-, m2, m3, m4⟩ := g3
    have hle := occursAt_le m2.1
    simp only [List.length_append, List.length_cons, List.length_nil] at hle m4 k3 hwl ⊢
    omega

end Boxes
