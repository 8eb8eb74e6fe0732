import Verif.Props.Edited
import Verif.Spec.NoBox

/-! Lemmas for C88: removing a box from text that shows nothing of a box. -/

set_option linter.unusedSimpArgs false
set_option linter.unusedVariables false

namespace Boxes
open Spec ShapeName

/-- a part of a line that shows something of no shape is not made of the shapes -/
theorem sideRow_foreign {db : CharDb} {shapes : List ShapeLine} {whole : Bool} {tail : Str} {idx : Nat} {w : Str}
    (h : SideRow db shapes whole tail idx w)
    (hf : ∀ (i : Nat) sl, shapes[i]? = some sl → ∀ c ∈ sl.text.memory, ¬ Blank db c → c ∉ w) (hc : ∃ c ∈ w, ¬ Blank db c) : False := by
  have fit : ∀ {idx : Nat} {a rest : Str} {sl : ShapeLine}, shapes[idx]? = some sl → LongestFit db whole sl.text.memory (a ++ rest) a.length →
      (∃ c ∈ a, ¬ Blank db c) → (∀ c ∈ sl.text.memory, ¬ Blank db c → c ∉ a) → False := by
    intro idx a rest sl hs h ⟨c, h1, h2⟩ h3
    have hp := h.found
    have : sl.text.memory.take a.length = a := by
      rw [List.prefix_iff_eq_take.1 hp, List.length_take, Nat.min_eq_left h.inside, List.take_left']
      rfl
    exact h3 c (List.mem_of_mem_take (by rw [this]; exact h1)) h2 h1
  induction h with
  | corner _ => simp at hc
  | over _ _ => simp at hc
  | blank _ _ h3 =>
    obtain ⟨c, c1, c2⟩ := hc
    exact c2 (h3 c (List.mem_append_left _ c1))
  | skip h1 h2 h3 h4 h5 ih => exact ih hf hc
  | last h1 h3 h4 h5 h6 => exact fit h3 h5 hc (hf _ _ h3)
  | @once idx a w sl' h1 h2 h3 h4 h5 h6 ih =>
    obtain ⟨c, c1, c2⟩ := hc
    rcases List.mem_append.1 c1 with c1 | c1
    · rw [List.append_assoc] at h5
      exact fit h3 h5 ⟨c, c1, c2⟩ (fun c h1 h2 h => hf _ _ h3 c h1 h2 (List.mem_append_left _ h))
    · exact ih (fun i sl h c h1 h2 h3 => hf i sl h c h1 h2 (List.mem_append_right _ h3)) ⟨c, c1, c2⟩
  | @again idx a w sl' h1 h2 h3 h4 h4' h5 h6 ih =>
    obtain ⟨c, c1, c2⟩ := hc
    rcases List.mem_append.1 c1 with c1 | c1
    · rw [List.append_assoc] at h5
      exact fit h3 h5 ⟨c, c1, c2⟩ (fun c h1 h2 h => hf _ _ h3 c h1 h2 (List.mem_append_left _ h))
    · exact ih (fun i sl h c h1 h2 h3 => hf i sl h c h1 h2 (List.mem_append_right _ h3)) ⟨c, c1, c2⟩

/-- what remains of a shape line after the cut shows what the line shows -/
theorem remains_keeps {db : CharDb} {lf al ar : Bool} {m : Str} {l r : Nat} (h : Cut db lf al ar m l r) {c : Nat} (hc : c ∈ m) (hb : ¬ Blank db c) :
    c ∈ remains m l r := by
  obtain ⟨i, hi⟩ := List.getElem?_of_mem hc
  have hlt := (List.getElem?_eq_some_iff.1 hi).1
  have h1 : l ≤ i := by
    apply Nat.le_of_not_lt; intro hh; exact hb (h.front i c hh hi)
  have h2 : i < m.length - r := by
    apply Nat.lt_of_not_le; intro hh; exact hb (h.back i c hh hi)
  have hf := h.fits
  apply List.mem_of_getElem? (i := i - l)
  rw [remains, List.getElem?_take, if_pos (by omega), List.getElem?_drop, show l + (i - l) = i by omega, hi]

theorem occursAt_mem {h n : Str} {p c : Nat} (ho : OccursAt h n p) (hc : c ∈ n) : c ∈ h := by
  obtain ⟨a, b, rfl, -⟩ := ho
  simp [hc]

/-- a line that shows nothing of the design is not a line of the top or bottom of a box -/
theorem edge_foreign {db : CharDb} (hdb : Sane db) {d : Design} (hd : Recognisable db d) {lines : List Line} {o : Sides Bool} {top : Bool}
    {i y : Nat} {l : Line} {b : Bxs} {ct : CompType} (hct : ct.skipsShape = false) (hl : lines[i]? = some l) (hlt : l.text = some b) (hb : fromUnicode db b.memory = some b)
    (hp : ∀ c ∈ b.memory, c ≠ 0x1b) (hn : NarrowBlanks db b.memory)
    (hy : y < (d.shape (if top then NE else SE)).height) (hnb : ∃ c ∈ b.memory, ¬ Blank db c) (hr : Foreign db d b.memory) :
    matchHorizLineWith db d lines o top i y ct = .ok false := by
  have hside : ∀ n ∈ (if top then northSide else southSideRev), Present (d.shape n) → y < (d.shape n).height := by
    intro n hn hp; rw [side_heights hd.ready.good top n hn hp]; exact hy
  obtain ⟨shapes, e1, e2⟩ := compShapesHoriz_total hdb hd.ready ct y (if top then northSide else southSideRev) hside
  have htb : Text b.memory b.memory := Spec.Text.plain hp
  obtain ⟨t, g1, g2, g3, g4⟩ := C25_input db lines i ct false htb hb hl hlt hn
  have g5 : t = b.memory := by
    cases hs : ct.skipsInput with
    | true => rw [g3 hs]; simp [stripped]
    | false => exact (g4 hs).2 rfl
  subst g5
  obtain ⟨m, first, last, line, left, right, f1, f2, f3, f4, f5⟩ := C25_line_partial db d lines o top i y ct e1 e2 g1 htb (by
    intro x hx hf
    have := (C01_rejected_iff db htb).2 ⟨x, hx, hf⟩
    rw [hb] at this; simp at this) hn
  obtain ⟨s1, s2⟩ := C25_shapes db d top ct y shapes e1
  have hside' : ∀ n ∈ (if top then [ShapeName.NW, .NNW, .N, .NNE, .NE] else [.SW, .SSW, .S, .SSE, .SE]), Present (d.shape n) →
      ∃ b, (d.shape n).lines[y]? = some b ∧ y < (d.shape n).height ∧ b ∈ (d.shape n).lines := by
    intro n hn hp
    have h1 := hside n (by revert hn; cases top <;> exact id) hp
    have h2 : y < (d.shape n).lines.length := by rw [(hd.ready.good.shapes n hp).height]; exact h1
    exact ⟨_, List.getElem?_eq_getElem h2, h1, List.getElem_mem h2⟩
  -- the shape lines compared: lines of the shapes of the side
  have htext : ∀ (j : Nat) n sl, (if top then [ShapeName.NW, .NNW, .N, .NNE, .NE] else [.SW, .SSW, .S, .SSE, .SE])[j]? = some n →
      shapes[j]? = some sl → (∀ c ∈ sl.text.memory, ∃ b' ∈ (d.shape n).lines, Present (d.shape n) ∧ c ∈ b'.memory) ∧
      (Present (d.shape n) → sl.empty = false ∧ ∀ b', (d.shape n).lines[y]? = some b' →
        (j ≠ 4 → sl.text.memory = b'.memory ∧ fromUnicode db b'.memory = some sl.text) ∧
        (j = 4 → ∀ c ∈ b'.memory, ¬ Blank db c → c ∈ sl.text.memory)) := by
    intro j n sl hj hsl
    obtain ⟨sl', h1, h2, h3, h4, h5⟩ := s2 j n hj
    rw [hsl] at h1; obtain rfl := Option.some.inj h1
    by_cases hpn : Present (d.shape n)
    · obtain ⟨b', k1, k2, k3⟩ := hside' n (List.mem_of_getElem? hj) hpn
      obtain ⟨t, w1, w2⟩ := h5 ((isEmpty_iff _).2 hpn)
      by_cases hj4 : j = 4
      · have hsn : Seen db b'.memory := by
          refine hd.corners n ?_ b' k3
          subst hj4
          cases top <;> simp at hj <;> subst hj <;> simp
        obtain ⟨hfr, hnr, htr⟩ := ready_plain hdb hd n b' hpn k3 hsn
        obtain ⟨t', q1, q2, -, q4⟩ := C25_shape db d n y ct false true htr hfr k1 k2 hnr (.inr (.inl rfl))
        rw [show decide (j = 4) = true by simp [hj4], q1] at w1
        obtain rfl := Res.ok.inj w1
        have hmem := fromUnicode_memory w2
        obtain ⟨a1, a2, ha⟩ := (q4 hct).1
        have htt : t' = dropTrailing db b'.memory := by
          have hany : b'.memory.any (fun c => !decide (Blank db c)) = true := by
            obtain ⟨c', hc', hcb⟩ := seen_nonblank hsn
            rw [List.any_eq_true]; exact ⟨c', hc', by simp [hcb]⟩
          simp only [stripped, hany, Bool.and_self, Bool.true_and, if_true, Bool.false_eq_true, if_false] at q2
          exact (Spec.Text.plain (fun c hc => hd.plain n hpn b' k3 c (by rw [← ha]; simp [hc]))).unique q2
        refine ⟨fun c hc => ⟨b', k3, hpn, by rw [← ha]; rw [hmem] at hc; simp [hc]⟩, fun _ => ⟨by rw [h2]; exact (isEmpty_iff _).2 hpn, fun b'' hb'' => ?_⟩⟩
        rw [k1] at hb''; obtain rfl := Option.some.inj hb''
        refine ⟨fun h => absurd hj4 h, fun _ c hc hcb => ?_⟩
        rw [hmem, htt]
        obtain ⟨x, c', yy, z1, z2, z3, z4⟩ := dropTrailing_split db (seen_nonblank hsn)
        rw [z4]
        rw [z1] at hc
        rcases List.mem_append.1 hc with h | h
        · simp [h]
        · rcases List.mem_cons.1 h with h | h
          · simp [h]
          · exact absurd (z3 c h) hcb
      · rw [show decide (j = 4) = false by simp [hj4], prepareCompShape_literal hct k1 k2] at w1
        obtain rfl := Res.ok.inj w1
        have hmem := fromUnicode_memory w2
        refine ⟨fun c hc => ⟨b', k3, hpn, by rw [← hmem]; exact hc⟩, fun _ => ⟨by rw [h2]; exact (isEmpty_iff _).2 hpn, fun b'' hb'' => ?_⟩⟩
        rw [k1] at hb''; obtain rfl := Option.some.inj hb''
        exact ⟨fun _ => ⟨hmem, w2⟩, fun h => absurd h hj4⟩
    · have : (d.shape n).isEmpty = true := by
        cases hh : (d.shape n).isEmpty with
        | true => rfl
        | false => exact absurd ((isEmpty_iff _).1 hh) hpn
      rw [h4 this]
      exact ⟨by simp [emptyBxs], fun h => absurd h hpn⟩
  have hfive : ∀ (j : Nat) sl, shapes[j]? = some sl → ∃ n, (if top then [ShapeName.NW, .NNW, .N, .NNE, .NE] else [.SW, .SSW, .S, .SSE, .SE])[j]? = some n := by
    intro j sl h
    have := (List.getElem?_eq_some_iff.1 h).1
    have : j < (if top then [ShapeName.NW, .NNW, .N, .NNE, .NE] else [.SW, .SSW, .S, .SSE, .SE]).length := by
      rw [s1] at this; cases top <;> simpa using this
    exact ⟨_, List.getElem?_eq_getElem this⟩
  -- nothing of them is in the line
  obtain ⟨tt, y1, y2, y3, y4, -, y5⟩ := f4
  obtain ⟨y6, y7⟩ := y5 hnb
  have hline : ∀ c ∈ line, ¬ Blank db c → c ∈ b.memory := by
    intro c hc hcb
    rw [y1] at hc
    rcases List.mem_append.1 hc with h | h
    · exact y4.subset h
    · rw [List.mem_replicate] at h
      rw [h.2] at hcb; exact absurd (.inr hdb.space_blank) hcb
  have hfor : ∀ (j : Nat) sl, shapes[j]? = some sl → ∀ c ∈ sl.text.memory, ¬ Blank db c → c ∉ line := by
    intro j sl hs c hc hcb hcl
    obtain ⟨n, hn⟩ := hfive j sl hs
    obtain ⟨b', h1, h2, h3⟩ := (htext j n sl hn hs).1 c hc
    exact hr n h2 b' h1 c h3 hcb (hline c hcl hcb)
  have hvan : ∀ (j : Nat) sl, shapes[j]? = some sl → ¬ Vanishing db sl → ∃ c ∈ sl.text.memory, ¬ Blank db c := by
    intro j sl hs hv
    obtain ⟨n, hn⟩ := hfive j sl hs
    obtain ⟨sl', h1, h2, h3, h4, h5⟩ := s2 j n hn
    rw [hs] at h1; obtain rfl := Option.some.inj h1
    cases he : (d.shape n).isEmpty with
    | true => exact absurd (.inl (by rw [h2, he])) hv
    | false =>
      obtain ⟨t, w1, w2⟩ := h5 he
      obtain ⟨w, hw⟩ := e2 sl (List.mem_of_getElem? hs)
      have hmem := fromUnicode_memory w2
      rw [← hmem] at w2
      apply Classical.byContradiction
      intro hh
      apply hv
      right
      rw [C06_is_blank db hw w2]
      intro c hc
      left
      exact Classical.byContradiction fun hcb => hh ⟨c, text_mem hw c hc, hcb⟩
  have hlnb : ∃ c ∈ line, ¬ Blank db c := by
    obtain ⟨x, c, yy, z1, z2, z3, z4⟩ := dropTrailing_split db hnb
    rw [z4] at y6
    exact ⟨c, by rw [y1]; exact List.mem_append_left _ (text_mem y6 c (by simp)), z2⟩
  rw [f1]
  congr 1
  cases m with
  | false => rfl
  | true =>
  exfalso
  obtain ⟨cur, stop, lf, rf, q1, q2, q3⟩ := f5.1 rfl
  -- the right corner is not found
  have hrf : stop = line.length ∧ rf = false := by
    rcases q2 with ⟨h1, h2, k, h3⟩ | ⟨h1, h2, -⟩
    · exfalso
      obtain ⟨nr, hnr⟩ := hfive 4 last f3
      have hmem4 : nr ∈ [NW, NE, SE, SW] ∧ nr ∈ [NW, NE, SW, SE] := by cases top <;> simp at hnr <;> subst hnr <;> simp
      have hpr := hd.ready.good.corner nr hmem4.1
      obtain ⟨b', k1, k2, k3⟩ := hside' nr (List.mem_of_getElem? hnr) hpr
      obtain ⟨c, hc, hcb⟩ := seen_nonblank (hd.corners nr hmem4.2 b' k3)
      have hcl := (((htext 4 nr last hnr f3).2 hpr).2 b' k1).2 rfl c hc hcb
      have : c ∈ last.text.memory.take k ++ last.text.memory.drop k := by rw [List.take_append_drop]; exact hcl
      rcases List.mem_append.1 this with h | h
      · exact hfor 4 last f3 c hcl hcb (occursAt_mem h3.found.1 h)
      · exact hcb (h3.blank c h)
    · exact ⟨h2, h1⟩
  obtain ⟨rfl, rfl⟩ := hrf
  unfold Between at q3
  rcases q1 with ⟨rfl, h2, s, p, h3, h4, h5⟩ | ⟨rfl, rfl, -⟩
  · -- the left corner has lost what can be seen of it
    obtain ⟨nl, hnl⟩ := hfive 0 first f2
    have hnl' : nl = if top then NW else SW := by cases top <;> simp at hnl <;> subst hnl <;> simp
    have hmem4 : nl ∈ [NW, NE, SE, SW] ∧ nl ∈ [NW, NE, SW, SE] := by rw [hnl']; cases top <;> simp
    have hpl := hd.ready.good.corner nl hmem4.1
    obtain ⟨b', k1, k2, k3⟩ := hside' nl (List.mem_of_getElem? hnl) hpl
    have hfm := ((((htext 0 nl first hnl f2).2 hpl).2 b' k1).1 (by omega)).1
    obtain ⟨c0, hc0, hcb0⟩ := seen_nonblank (hd.corners nl hmem4.2 b' k3)
    have hocc : ∀ c ∈ b'.memory.drop s, ¬ Blank db c → False := by
      intro c hc hcb
      have hc' : c ∈ first.text.memory := by rw [hfm]; exact List.mem_of_mem_drop hc
      exact hfor 0 first f2 c hc' hcb (occursAt_mem h3.found.2.1 (by rw [hfm]; exact hc))
    have hbl := h3.blank
    rw [hfm] at hbl
    have hpiece : ∀ c ∈ b'.memory.drop s, Blank db c := fun c hc => Classical.byContradiction fun h => hocc c hc h
    rw [if_pos rfl] at q3
    obtain ⟨hcs, q3⟩ := q3
    obtain ⟨pa, pb, hl1, hl2⟩ := h3.found.2.1
    rw [hfm] at hl1 h5
    have htake : tt.take left = b.memory.take (leadingBlanks db b.memory) :=
      row_plain hp ((List.take_prefix _ _).trans y4) y7
    refine sideRow_foreign q3 ?_ ?_
    · intro i sl hi c h1 h2 h3
      exact hfor i sl hi c h1 h2 (List.mem_of_mem_take (List.mem_of_mem_drop h3))
    · obtain ⟨c, hc, hcb⟩ := hlnb
      obtain ⟨i, hi⟩ := List.getElem?_of_mem hc
      have hil := (List.getElem?_eq_some_iff.1 hi).1
      have hge : cur ≤ i := by
        refine Nat.le_of_not_lt fun hlt => ?_
        by_cases hip : i < p
        · have hnear := h3.near
          have : c ∈ tt.take left := by
            apply List.mem_of_getElem? (i := i)
            rw [List.getElem?_take, if_pos (by omega), ← hi, y1, List.getElem?_append_left (by omega)]
          rw [htake] at this
          exact hcb (take_leading (Nat.le_refl _) c this)
        · rw [hl1, List.append_assoc, List.getElem?_append_right (by omega), List.getElem?_append_left (by rw [List.length_drop]; rw [hfm] at h4; omega)] at hi
          exact hcb (hpiece c (List.mem_of_getElem? hi))
      refine ⟨c, List.mem_of_getElem? (i := i - cur) ?_, hcb⟩
      rw [List.take_length, List.getElem?_drop, show cur + (i - cur) = i by omega, hi]
  · rw [if_neg (by simp)] at q3
    rcases q3 with ⟨-, hbl⟩ | ⟨i, sl, p, q, h1, h2, h3, h4, -, ⟨rt, -, l', r', hcut, -, hhit, -⟩, -⟩
    · obtain ⟨c, hc, hcb⟩ := hlnb
      obtain ⟨i, hi⟩ := List.getElem?_of_mem hc
      exact hcb (hbl i c (by omega) (List.getElem?_eq_some_iff.1 hi).1 hi)
    · obtain ⟨c, hc, hcb⟩ := hvan i sl h3 h4
      exact hfor i sl h3 c hc hcb (occursAt_mem hhit.1.2.1 (remains_keeps hcut hc hcb))


theorem noBox_ready {db : CharDb} {d : Design} {lines : List Line} (h : NoBox db d lines) : ReadyInput db lines ∧ CleanInput db lines := by
  constructor
  · intro l hl
    obtain ⟨b, h1, h2, h3, h4, -⟩ := h.texts l hl
    exact ⟨b, b.memory, h1, h2, Spec.Text.plain h3, h4⟩
  · intro l hl b hb x hx hf
    obtain ⟨b', h1, h2, h3, h4, -⟩ := h.texts l hl
    rw [hb] at h1; obtain rfl := Option.some.inj h1
    have := (C01_rejected_iff db (Spec.Text.plain h3)).2 ⟨x, hx, hf⟩
    rw [h2] at this; simp at this

theorem notBlank_char {db : CharDb} {l : Line} {b : Bxs} (h1 : l.text = some b) (h2 : fromUnicode db b.memory = some b) (h3 : ∀ c ∈ b.memory, c ≠ 0x1b)
    (h : textIsBlank db l.text = false) : ∃ c ∈ b.memory, ¬ Blank db c ∧ c ≠ 0x0d := by
  apply Classical.byContradiction
  intro hh
  rw [h1] at h
  have : b.isBlankStr db = true := by
    rw [C06_is_blank db (Spec.Text.plain h3) h2]
    intro c hc
    by_cases hb : Blank db c
    · exact .inl hb
    · exact .inr (Classical.byContradiction fun h => hh ⟨c, hc, hb, h⟩)
  simp [textIsBlank, this] at h

/-- the sides of a box are not found in a line that shows nothing of them -/
theorem side_foreign {db : CharDb} {d : Design} (hd : Recognisable db d) {left : Bool} {s : Str} {x y : Nat} {sls : List ShapeLine} {ct : CompType}
    (hct : ct.skipsShape = false) (hw : prepareCompShapesVert db d left ct = .ok sls) (hf : Foreign db d s) {a e q : Nat}
    (h : BestHit db left s x y sls a e q) : q = 0 := by
  rcases h with h | ⟨before, sl, after, h1, h2, h3, -⟩
  · exact h.1
  · exfalso
    obtain ⟨n, i1, i2, b, i3, i4⟩ := (vertShapes_mem hd.ready.good hct hw).1 sl (by rw [h1]; simp)
    have hs : Seen db b.memory := by
      cases left with
      | true => exact hd.west n i1 i2 b i3
      | false => exact hd.east n i1 i2 b i3
    obtain ⟨c, hc, hcb⟩ := seen_nonblank hs
    obtain ⟨l, r, hcut, -, hhit, -⟩ := h3
    rw [i4] at hcut hhit
    have hk := remains_keeps hcut hc hcb
    have hocc : c ∈ s := by
      cases left with
      | true => exact occursAt_mem hhit.2.1.2.1 hk
      | false => exact occursAt_mem hhit.2.1.1 hk
    exact hf n i2 b i3 c hc hcb hocc

/-- removing a box from text in which nothing of a box can be seen: no line is lost or added.  From the first to the last line that
shows something, the spaces to be restored are put in front of each line; all else stays as it is. -/
theorem noBox_removed (db : CharDb) (hdb : Sane db) (opt : Opt) (d : Design) (hd : Recognisable db d) (i : Input)
    (hi : NoBox db d i.lines) :
    ∃ j, removeBox db opt d i = .ok j ∧ j.lines.length = i.lines.length ∧ j.finalNewline = i.finalNewline ∧
      ∀ (k : Nat) l l', i.lines[k]? = some l → j.lines[k]? = some l' →
        (¬ Inside db i.lines k → l' = l) ∧
        (Inside db i.lines k → ∀ b, l.text = some b → l' = { l with text := fromUnicode db (spaces (restored opt i.indent) ++ b.memory) }) := by
  obtain ⟨hin, hcl⟩ := noBox_ready hi
  obtain ⟨q, hq, htot⟩ := C23_total db hdb opt d hd.ready i hin hcl
  have hline : ∀ x, x < i.lines.length → ∃ l b, i.lines[x]? = some l ∧ l.text = some b ∧ fromUnicode db b.memory = some b ∧
      (∀ c ∈ b.memory, c ≠ 0x1b) ∧ NarrowBlanks db b.memory ∧ Foreign db d b.memory := by
    intro x hx
    obtain ⟨b, h⟩ := hi.texts _ (List.getElem_mem hx)
    exact ⟨_, b, List.getElem?_eq_getElem hx, h⟩
  cases q with
  | none =>
    have h1 := findBox_none hq
    refine ⟨i, by unfold removeBox; rw [hq]; rfl, rfl, rfl, ?_⟩
    intro k l l' hk hk'
    rw [hk] at hk'; obtain rfl := Option.some.inj hk'
    refine ⟨fun _ => rfl, ?_⟩
    rintro ⟨a, e, la, le, -, -, h2, -, h3, -⟩
    have := (findFirstLine_spec db i.lines).1 a la (by have := (List.getElem?_eq_some_iff.1 h2).1; omega) h2
    rw [h3] at this; simp at this
  | some ctx =>
  obtain ⟨a1, a2, a3, a4, a5, a6, a7, a8, a9, a10, a11⟩ := findBox_spec hq
  obtain ⟨b1, b2, b3, ⟨⟨lf, c1, c2⟩, b4⟩, ⟨⟨ll, c3, c4, c5⟩, b5⟩, b6, b7, b8, b9⟩ := C64_box db d i ctx hq
  rw [side_seen hdb hd] at b3 a7 a8
  rw [design_mono hd] at b2
  have hct0 : ∀ ct, applicable ct (!ctx.inputMono) (!ctx.designMono) = true → ct.skipsShape = false := by
    intro ct h
    rw [b2, b1] at h
    revert h
    cases ct <;> cases inputColoured i.lines <;> simp [applicable, CompType.skipsShape, CompType.skipsInput]
  have hrec : ∀ (top : Bool) x y l, y < (d.shape (if top then NE else SE)).height → i.lines[x]? = some l → textIsBlank db l.text = false →
      ¬ Recognised db d i.lines ctx top x y := by
    intro top x y l hy hl hnb ⟨ct, h1, h2⟩
    obtain ⟨l', b, e1, e2, e3, e4, e5, e6⟩ := hline x (List.getElem?_eq_some_iff.1 hl).1
    rw [hl] at e1; obtain rfl := Option.some.inj e1
    obtain ⟨c, hc, hcb, -⟩ := notBlank_char e2 e3 e4 hnb
    rw [edge_foreign hdb hd (hct0 ct h1) hl e2 e3 e4 e5 hy ⟨c, hc, hcb⟩ e6] at h2
    simp at h2
  rw [b3] at b6 b7
  simp only [Bool.false_eq_true, if_false] at b6 b7
  have hte : ctx.topEnd = ctx.topStart := by
    obtain ⟨k, k1, k2, k3, -⟩ := b6
    refine Classical.byContradiction fun hne => ?_
    obtain ⟨-, j, hj, hr⟩ := k3 0 (by omega)
    exact hrec true _ j lf hj c1 c2 hr
  have hbs : ctx.bottomStart = ctx.bottomEnd := by
    obtain ⟨k, k1, k2, k3, -⟩ := b7
    refine Classical.byContradiction fun hne => ?_
    obtain ⟨j, hj, hr⟩ := k3 (ctx.bottomEnd - 1) (by omega) (by omega)
    exact hrec false _ j ll hj c4 c5 hr
  have hbe : ctx.bottomEnd ≤ i.lines.length := by have := (List.getElem?_eq_some_iff.1 c4).1; omega
  have htb : ctx.topStart < ctx.bottomEnd := by
    refine Classical.byContradiction fun hne => ?_
    have := b5 ctx.topStart lf (by omega) c1
    rw [c2] at this; simp at this
  -- the sides are not found
  have hbody : ∀ x, x < ctx.bottomEnd - ctx.topStart → ∃ l b lc, i.lines[ctx.topStart + x]? = some l ∧ l.text = some b ∧
      Text b.memory b.memory ∧ fromUnicode db b.memory = some b ∧ ctx.body[x]? = some lc ∧ keepFrom db d lc b.memory = 0 ∧ keepTo lc b.memory = b.memory.length ∧
      ∀ n, removeVerticalLine db opt d n ctx.compType l lc = .ok { l with text := fromUnicode db (spaces (restored opt n) ++ b.memory) } := by
    intro x hx
    rw [if_neg (by rw [b3]; simp; omega)] at b9
    obtain ⟨w1, ⟨west, east, w2, w3, w4⟩, -⟩ := b9
    have hsh := hct0 _ w1
    rw [b3] at w2 w3
    simp only [Bool.false_eq_true, if_false] at w2 w3
    obtain ⟨l, b, e1, e2, e3, e4, e5, e6⟩ := hline (ctx.topStart + x) (by omega)
    have htx : Text b.memory b.memory := Spec.Text.plain e4
    obtain ⟨-, hb⟩ := C64_body db i.lines ctx _ west east (C64_shapes db d true _ west w2).2.2 (C64_shapes db d false _ east w3).2.2 _ _ _ w4
    obtain ⟨s, ln, b', x', y', lc, f1, f2, f3, f4, f5, f6, f7⟩ := hb x (by omega)
    rw [hte, e1] at f2; obtain rfl := Option.some.inj f2
    rw [e2] at f3; obtain rfl := Option.some.inj f3
    rw [b3] at f6 f7
    simp only [Bool.false_eq_true, if_false] at f6 f7
    obtain ⟨t, g1, -, g3, g4⟩ := C25_input db i.lines (ctx.topStart + x) ctx.compType false htx e3 e1 e2 e5
    rw [hte, g1] at f1; obtain rfl := Res.ok.inj f1
    have htv : t = b.memory := by
      cases hs : ctx.compType.skipsInput with
      | true => rw [g3 hs]; simp [stripped]
      | false => exact (g4 hs).2 rfl
    subst htv
    have hw0 := side_foreign hd hsh w2 e6 f6
    have he0 := side_foreign hd hsh w3 e6 f7
    have hkf : keepFrom db d lc b.memory = 0 := by unfold keepFrom; rw [if_neg (by omega)]
    have hkt : keepTo lc b.memory = b.memory.length := by unfold keepTo; rw [if_neg (by omega)]
    refine ⟨l, b, lc, e1, e2, htx, e3, f5, hkf, hkt, ?_⟩
    intro n
    refine removeVerticalLine_exact hdb (P := []) (K := b.memory) (Q := []) (k := b.memory) (q := []) e2 e3 (by simp) (by simp) htx (Spec.Text.plain (by simp)) (by simp)
      (by rw [List.append_nil]; exact frontKept_plain e4) (by rw [List.nil_append]; exact backKept_plain e4) (.inl rfl) ?_ ?_
    · simpa using hkf
    · simpa using hkt
  obtain ⟨j, hj⟩ := htot ctx rfl (by omega) (by
    intro k l lc b v h1 h2 h3 h4
    have hk := (List.getElem?_eq_some_iff.1 h2).1
    obtain ⟨l', b', lc', e1, e2, e3, e3', e4, e5, e6, -⟩ := hbody k (by omega)
    rw [hte, e1] at h1; obtain rfl := Option.some.inj h1
    rw [e2] at h3; obtain rfl := Option.some.inj h3
    rw [e4] at h2; obtain rfl := Option.some.inj h2
    obtain rfl := e3.unique h4
    simp only [ite_self]
    omega)
  obtain ⟨-, -, -, -, -, -, -, -, body, mid, mid', k, k', n, g1, g2, g3, g4, g5, g6, g7, g8, g9, g10, g11, -⟩ :=
    C23_structure db opt d i j ctx hq (by omega) hj
  rw [side_seen hdb hd] at g7
  obtain rfl := g7.closed rfl
  rw [hte, hbs] at g1
  have hbl : ∀ x, x < body.length → ∃ l b, i.lines[ctx.topStart + x]? = some l ∧ l.text = some b ∧ Text b.memory b.memory ∧
      fromUnicode db b.memory = some b ∧ body[x]? = some { l with text := fromUnicode db (spaces (restored opt i.indent) ++ b.memory) } := by
    intro x hx
    obtain ⟨l, b, lc, e1, e2, e3, e3', e4, -, -, e7⟩ := hbody x (by omega)
    have h1 := g3 x l lc _ (by rw [hte]; exact e1) e4 (List.getElem?_eq_getElem hx)
    rw [e7] at h1
    exact ⟨l, b, e1, e2, e3, e3', by rw [List.getElem?_eq_getElem hx]; exact congrArg some (Res.ok.inj h1).symm⟩
  have hnbl : ∀ x, x < body.length → (∀ l, i.lines[ctx.topStart + x]? = some l → textIsBlank db l.text = false) →
      ∀ l', body[x]? = some l' → textIsBlank db l'.text = false := by
    intro x hx h l' hl'
    obtain ⟨l, b, e1, e2, e3, e3', e4⟩ := hbl x hx
    rw [hl'] at e4; obtain rfl := Option.some.inj e4
    have hp : ∀ c ∈ b.memory, c ≠ 0x1b := text_vis_ne e3
    obtain ⟨c, hc, hcb, hcr⟩ := notBlank_char e2 e3' hp (h l e1)
    have hsp : ∀ c ∈ spaces (restored opt i.indent) ++ b.memory, c ≠ 0x1b := by
      intro c hc
      rcases List.mem_append.1 hc with h | h
      · exact spaces_all (P := fun c => c ≠ 0x1b) (by decide) _ c h
      · exact hp c h
    have hok : ∀ c ∈ spaces (restored opt i.indent) ++ b.memory, ¬ Forbidden db c := by
      intro c hc hf
      rcases List.mem_append.1 hc with h | h
      · exact spaces_all (P := fun c => ¬ Forbidden db c) (by intro h; have := h.1; rw [hdb.space_ok] at this; simp at this) _ c h hf
      · exact hcl l (List.mem_of_getElem? e1) b e2 c h hf
    cases hh : textIsBlank db (fromUnicode db (spaces (restored opt i.indent) ++ b.memory)) with
    | false => rfl
    | true =>
      rcases (blankText_iff (Spec.Text.plain hsp) hok).1 hh c (List.mem_append_right _ hc) with h | h
      · exact absurd h hcb
      · exact absurd h hcr
  have hk0 : k = 0 := by
    refine Classical.byContradiction fun hk => ?_
    split at g6
    · have hx := List.getElem?_eq_getElem (l := body) (i := 0) (by omega)
      have := g6.1.blank 0 _ (by omega) hx
      rw [hnbl 0 (by omega) (by intro l hl; rw [Nat.add_zero, c1] at hl; obtain rfl := Option.some.inj hl; exact c2) _ hx] at this
      simp at this
    · exact hk g6.1
  subst hk0
  have hk0' : k' = 0 := by
    refine Classical.byContradiction fun hk => ?_
    split at g6
    · have hx := List.getElem?_eq_getElem (l := body) (i := body.length - 1) (by omega)
      have h0 : (body.drop 0).reverse[0]? = some body[body.length - 1] := by
        rw [List.drop_zero, List.getElem?_reverse (by omega)]; exact hx
      have := g6.2.blank 0 _ (by omega) h0
      rw [hnbl (body.length - 1) (by omega) (by
        intro l hl
        rw [show ctx.topStart + (body.length - 1) = ctx.bottomEnd - 1 by omega, c4] at hl
        obtain rfl := Option.some.inj hl; exact c5) _ hx] at this
      simp at this
    · exact hk g6.2
  subst hk0'
  rw [Nat.sub_zero, List.take_length, List.drop_zero] at g5
  have hmid : mid' = body := by
    apply List.ext_getElem?
    intro x
    by_cases hx : x < mid.length
    · rw [List.getElem?_eq_getElem (by omega : x < mid'.length), ← g5, List.getElem?_eq_getElem hx]
      exact congrArg some ((g9 x _ _ (List.getElem?_eq_getElem hx) (List.getElem?_eq_getElem (by omega))).1 rfl)
    · rw [← g5, List.getElem?_eq_none (by omega), List.getElem?_eq_none (by omega)]
  rw [hmid] at g10
  have htl : (i.lines.take ctx.topStart).length = ctx.topStart := by rw [List.length_take]; omega
  have hlen : j.lines.length = i.lines.length := by
    rw [g10]; simp only [List.length_append, List.length_drop, htl]; omega
  refine ⟨j, hj, hlen, g11, ?_⟩
  intro x l l' hl hl'
  rw [g10] at hl'
  have hxl := (List.getElem?_eq_some_iff.1 hl).1
  by_cases hx1 : x < ctx.topStart
  · rw [List.append_assoc, List.getElem?_append_left (by omega), List.getElem?_take, if_pos hx1, hl] at hl'
    refine ⟨fun _ => (Option.some.inj hl').symm, ?_⟩
    rintro ⟨a, e, la, le, h1, -, h2, -, h3, -⟩
    have := b4 a la (by omega) h2
    rw [h3] at this; simp at this
  by_cases hx2 : x < ctx.bottomEnd
  · rw [List.append_assoc, List.getElem?_append_right (by omega), htl, List.getElem?_append_left (by omega)] at hl'
    obtain ⟨l0, b, e1, e2, e3, e3', e4⟩ := hbl (x - ctx.topStart) (by omega)
    rw [show ctx.topStart + (x - ctx.topStart) = x by omega, hl] at e1
    obtain rfl := Option.some.inj e1
    rw [hl'] at e4; obtain rfl := Option.some.inj e4
    refine ⟨fun h => absurd ⟨ctx.topStart, ctx.bottomEnd - 1, lf, ll, by omega, by omega, c1, c4, c2, c5⟩ h, ?_⟩
    intro _ b' hb'
    rw [e2] at hb'; obtain rfl := Option.some.inj hb'
    rfl
  · rw [List.getElem?_append_right (by simp only [List.length_append, htl]; omega), List.length_append, htl, List.getElem?_drop,
      show ctx.bottomEnd + (x - (ctx.topStart + body.length)) = x by omega, hl] at hl'
    refine ⟨fun _ => (Option.some.inj hl').symm, ?_⟩
    rintro ⟨a, e, la, le, -, h1, -, h2, -, h3⟩
    have := b5 e le (by omega) h2
    rw [h3] at this; simp at this

/-- a piece of input that is a line, possibly empty -/
theorem readLine_row {db : CharDb} {opt : Opt} (hr : opt.r = true) (ht : 1 ≤ opt.tabstop) {junk : Nat} (hj : junk ≠ 0x0d) {row e : Str} (he : LineEnd e)
    (h : Rereadable row ∨ (row = [] ∧ e ≠ [])) :
    ∃ l, readLine db opt junk (row ++ e) = .ok l ∧ l.text = fromUnicode db row := by
  rcases h with h | ⟨rfl, h⟩
  · obtain ⟨l, h1, h2, -⟩ := readLine_reread (db := db) hr ht junk h he
    exact ⟨l, h1, h2⟩
  · refine ⟨{ text := some emptyBxs }, ?_, ?_⟩
    · unfold readLine trimCarefully
      rcases he with rfl | rfl | rfl
      · exact absurd rfl h
      · simp [hr, stripLast, chNl, chCr, hj]
      · simp [hr, stripLast, chNl, chCr]
    · rfl


theorem readLines_rows {db : CharDb} {opt : Opt} (hr : opt.r = true) (ht : 1 ≤ opt.tabstop) {junk : Nat} (hj : junk ≠ 0x0d) :
    ∀ (rows : List (Str × Str)), (∀ p ∈ rows, LineEnd p.2 ∧ (Rereadable p.1 ∨ (p.1 = [] ∧ p.2 ≠ []))) →
    ∃ lines, readLines db opt junk (rows.map (fun p => p.1 ++ p.2)) = .ok lines ∧ lines.map Line.text = rows.map (fun p => fromUnicode db p.1)
  | [], _ => ⟨[], rfl, rfl⟩
  | p :: rows, h => by
    obtain ⟨h1, h2⟩ := h p (by simp)
    obtain ⟨l, a1, a2⟩ := readLine_row (db := db) hr ht hj h1 h2
    obtain ⟨lines, b1, b2⟩ := readLines_rows (db := db) hr ht hj rows (fun p hp => h p (by simp [hp]))
    refine ⟨l :: lines, ?_, by simp [a2, b2]⟩
    simp only [List.map_cons, readLines, a1, b1, Res.ok_bind]

/-- the input of a removal, with empty lines -/
theorem read_rows {db : CharDb} {opt : Opt} (hr : opt.r = true) (ht : 1 ≤ opt.tabstop) {junk : Nat} (hj : junk ≠ 0x0d) (d : Design) (rows : List (Str × Str))
    (hne : rows ≠ []) (hrows : ∀ p ∈ rows, LineEnd p.2 ∧ (Rereadable p.1 ∨ (p.1 = [] ∧ p.2 ≠ [])))
    (hleg : ∀ p ∈ rows, (∀ c ∈ p.1, c ≠ 0x1b) ∧ Legit db p.1) :
    ∃ i j, readAllInput db opt junk (rows.map (fun p => p.1 ++ p.2)) = .ok i ∧ analyzeInput db opt d [] i = .ok j ∧
      j.lines.map Line.text = rows.map (fun p => fromUnicode db p.1) ∧
      (j.finalNewline = true ↔ ∃ p, rows.getLast? = some p ∧ p.2 ≠ []) ∧
      LeastIndent db (rows.map Prod.fst) j.indent := by
  obtain ⟨lines, a1, a2⟩ := readLines_rows (db := db) hr ht hj rows hrows
  have hread : ∃ i, readAllInput db opt junk (rows.map (fun p => p.1 ++ p.2)) = .ok i ∧ i.lines = lines := by
    unfold readAllInput
    rw [a1]
    exact ⟨_, rfl, rfl⟩
  obtain ⟨i, i1, i2⟩ := hread
  obtain ⟨-, hfin⟩ := C47_lines db opt junk _ i1
  have hb : ∀ p ∈ rows, ∃ b, fromUnicode db p.1 = some b ∧ b.cols = columns db p.1 ∧ b.indent = leadingBlanks db p.1 := by
    intro p hp
    obtain ⟨h1, h2, h3⟩ := hleg p hp
    obtain ⟨b, hb⟩ := analysed db (Text.plain h1) h2
    obtain ⟨-, -, -, -, m1, -, m2, -⟩ := C01_metrics db (Text.plain h1) hb
    exact ⟨b, hb, m1, by rw [m2, indent_narrow db _ h3]⟩
  have hT : i.lines.map Line.text = (rows.map (fun p => (fromUnicode db p.1).getD emptyBxs)).map some := by
    rw [i2, a2, List.map_map]
    apply List.map_congr_left
    intro p hp
    obtain ⟨b, e, -⟩ := hb p hp
    simp [e]
  obtain ⟨j, j1, j2, j3, j4, j5, j6, j7, j8, j9⟩ := C09_kept db opt d (.inr hr) i _ hT (by simpa using hne) (by
    intro t ht'
    obtain ⟨p, hp, rfl⟩ := List.mem_map.1 ht'
    obtain ⟨b, e, e1, e2⟩ := hb p hp
    rw [e]; simp only [Option.getD_some]; rw [e1, e2]
    have h3 := (hleg p hp).2.2
    obtain ⟨c1, c2⟩ := columns_take db p.1 (leadingBlanks db p.1) h3 (Nat.le_refl _)
    have := columns_take_drop db p.1 (leadingBlanks db p.1)
    omega)
  refine ⟨i, j, i1, j1, by rw [j2, i2, a2], ?_, ⟨?_, ?_, ?_⟩⟩
  · rw [j3, hfin]
    rcases List.eq_nil_or_concat rows with h0 | ⟨a, p, h0⟩
    · exact absurd h0 hne
    · rw [List.concat_eq_append] at h0
      subst h0
      obtain ⟨g2, g1⟩ := hrows p (by simp)
      simp only [List.map_append, List.map_cons, List.map_nil, List.getLast?_append, List.getLast?_singleton, Option.some_or, Option.some.injEq,
        exists_eq_left']
      constructor
      · rintro ⟨x, q, c, hq, hc⟩
        intro h0
        rcases g1 with g1 | g1
        · have := List.append_inj_right' hq (by simp)
          simp only [List.cons.injEq, and_true] at this
          rw [h0, List.append_nil] at this
          have hl := g1.last c (by rw [this]; simp)
          rcases hc with hc | hc
          · exact hl.1 hc
          · exact hl.2 hc
        · exact g1.2 h0
      · intro h0
        rcases g2 with g2 | g2 | g2
        · exact absurd g2 h0
        · exact ⟨_, p.1, 0x0a, by rw [g2], .inl rfl⟩
        · exact ⟨a.map (fun p => p.1 ++ p.2), p.1 ++ [0x0d], 0x0a, by rw [g2]; simp [List.append_assoc], .inl rfl⟩
  · intro v hv h0
    obtain ⟨p, hp, rfl⟩ := List.mem_map.1 hv
    obtain ⟨b, e, e1, e2⟩ := hb p hp
    have := j6 b (List.mem_map.2 ⟨p, hp, by rw [e]; rfl⟩) (by omega)
    omega
  · rintro ⟨v, hv, h0⟩
    obtain ⟨p, hp, rfl⟩ := List.mem_map.1 hv
    obtain ⟨b, e, e1, e2⟩ := hb p hp
    rcases j7 ⟨b, List.mem_map.2 ⟨p, hp, by rw [e]; rfl⟩, by omega⟩ with h | ⟨t, ht', hc', hin⟩
    · exact .inl h
    · obtain ⟨q, hq, rfl⟩ := List.mem_map.1 ht'
      obtain ⟨b', e', e1', e2'⟩ := hb q hq
      rw [e'] at hc' hin
      simp only [Option.getD_some] at hc' hin
      exact .inr ⟨q.1, List.mem_map.2 ⟨q, hq, rfl⟩, by omega, by omega⟩
  · intro hz
    apply j8
    intro t ht'
    obtain ⟨q, hq, rfl⟩ := List.mem_map.1 ht'
    obtain ⟨b', e', e1', -⟩ := hb q hq
    rw [e']
    simp only [Option.getD_some]
    rw [e1']; exact hz q.1 (List.mem_map.2 ⟨q, hq, rfl⟩)

/-- a text of which some line is not indented has no common indentation -/
theorem least_flush {db : CharDb} {vs : List Str} {n : Nat} (h : LeastIndent db vs n) {c : Nat} {r : Str} (hm : c :: r ∈ vs) (hc : ¬ Blank db c)
    (hs : Seen db (c :: r)) : n = 0 := by
  have := h.le _ hm (seen_columns hs)
  have h0 : leadingBlanks db (c :: r) = 0 := by simp [leadingBlanks, List.takeWhile, hc]
  omega

end Boxes
