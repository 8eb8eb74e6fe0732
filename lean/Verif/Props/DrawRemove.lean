import Verif.Lemmas.Drawn
import Verif.Props.Print

/-!
# Drawing a box and removing it again (C71)
-/
namespace Boxes
open Spec ShapeName
set_option linter.unusedSimpArgs false

theorem recognisable_shape {db : CharDb} {d d' : Design} (hd : Recognisable db d) (hs : d'.shape = d.shape) (hg : GoodDesign db d') :
    Recognisable db d' where
  ready := ⟨hg, by rw [hs]; exact hd.ready.lines⟩
  plain := by rw [hs]; exact hd.plain
  corners := by rw [hs]; exact hd.corners
  west := by rw [hs]; exact hd.west
  east := by rw [hs]; exact hd.east
  westAlike := by rw [hs]; exact hd.westAlike
  eastAlike := by rw [hs]; exact hd.eastAlike

theorem blankLinesDropped_congr {db : CharDb} {limit : Option Nat} {ts ts' : List Str} {k : Nat} (hlen : ts.length = ts'.length)
    (hb : ∀ (x : Nat) a b, ts[x]? = some a → ts'[x]? = some b → (BlankText db a ↔ BlankText db b)) (h : BlankLinesDropped db limit ts k) :
    BlankLinesDropped db limit ts' k where
  inside := by rw [← hlen]; exact h.inside
  blank := by
    intro j t hj ht
    have hlt : j < ts.length := by have := h.inside; omega
    exact (hb j _ t (List.getElem?_eq_getElem hlt) ht).1 (h.blank j _ hj (List.getElem?_eq_getElem hlt))
  atMost := h.atMost
  most := by
    intro hk
    rcases h.most (by omega) with h1 | ⟨t, h1, h2⟩
    · exact .inl h1
    · have := List.getElem?_eq_getElem hk
      exact .inr ⟨_, this, fun h3 => h2 ((hb k t _ h1 this).2 h3)⟩

theorem plain_last {db : CharDb} (hbr : BreaksSane db) {t p : Str} {c : Nat} (h : PlainLine db t) (ht : t = p ++ [c]) : ¬ Blank db c := by
  intro hb
  have h1 := (h.chars c (by simp [ht])).2.2.2.2 hb
  have h2 := h.last c (by simp [ht])
  rw [h1, hbr.space_white] at h2; simp at h2

theorem plain_nonblank {db : CharDb} {t : Str} (h : PlainLine db t) (h0 : t ≠ []) : ∃ c ∈ t, ¬ Blank db c := by
  rcases h.shows with h1 | h1
  · exact absurd h1 h0
  · exact seen_nonblank h1

theorem from_zero {s q : Str} (hp : ∀ c ∈ s, c ≠ 0x1b) (h : From 0 s s q) : q = s := by
  rcases h with ⟨h1, rfl⟩ | ⟨a, e, c, q', h1, -, -, h4, -, -⟩
  · have : s = [] := List.eq_nil_of_length_eq_zero (by omega)
    exact this.symm
  · have : a = [] := by
      have := text_of_plain (fun c hc => hp c (by rw [h1]; simp [hc])) h4
      simpa using this.symm
    rw [h1, this]; rfl

/-- blanks in front of the text of a plain line that are removed and put back -/
theorem take_plain {db : CharDb} {t : Str} {n : Nat} (h : PlainLine db t) (hn : n ≤ leadingBlanks db t) : spaces n ++ t.drop n = t := by
  have : t.take n = spaces n := by
    apply List.eq_replicate_iff.2
    have hl := leading_le_length db t
    refine ⟨by simp; omega, ?_⟩
    intro c hc
    obtain ⟨x, hx⟩ := List.getElem?_of_mem hc
    rw [List.getElem?_take] at hx
    split at hx
    · exact (h.chars c (List.mem_of_getElem? hx)).2.2.2.2 (leading_get db t x c (by omega) hx)
    · simp at hx
  rw [← this, List.take_append_drop]

theorem endsInBreak_iff {db : CharDb} {lines : List (Str × Str)} (hl : ∀ p ∈ lines, PlainLine db p.1 ∧ LineEnd p.2) :
    EndsInBreak (lines.map (fun p => p.1 ++ p.2)) ↔ ∃ p, lines.getLast? = some p ∧ p.2 ≠ [] := by
  rcases List.eq_nil_or_concat lines with h0 | ⟨a, p, h0⟩
  · subst h0
    simp [EndsInBreak]
  · rw [List.concat_eq_append] at h0
    subst h0
    obtain ⟨g1, g2⟩ := hl p (by simp)
    simp only [EndsInBreak, List.map_append, List.map_cons, List.map_nil, List.getLast?_append, List.getLast?_singleton, Option.some_or,
      Option.some.injEq, exists_eq_left']
    constructor
    · rintro ⟨x, q, c, hq, hc⟩ h0
      have := List.append_inj_right' hq (by simp)
      simp only [List.cons.injEq, and_true] at this
      rw [h0, List.append_nil] at this
      have hl := g1.chars c (by rw [this]; simp)
      omega
    · intro h0
      rcases g2 with g2 | g2 | g2
      · exact absurd g2 h0
      · exact ⟨_, p.1, 0x0a, by rw [g2], .inl rfl⟩
      · exact ⟨a.map (fun p => p.1 ++ p.2), p.1 ++ [0x0d], 0x0a, by rw [g2]; simp [List.append_assoc], .inl rfl⟩

theorem printed_same {db : CharDb} {t s v q : Str} (hp : ∀ c ∈ t, c ≠ 0x1b) (h1 : EndTrimmed db t t s v) (h2 : From 0 s v q) : q = s := by
  obtain ⟨e0, e⟩ := h1
  have hs : ∀ c ∈ s, c ≠ 0x1b := by
    rcases e with ⟨-, rfl, -⟩ | ⟨-, -, ⟨-, rfl⟩ | ⟨-, p, e, -⟩⟩
    · exact hp
    · exact hp
    · intro c hc; exact hp c (by rw [e]; simp [hc])
  have hv : v = s := text_of_plain hs e0
  subst hv
  exact from_zero hs h2

/-- a line as it is printed: without trailing blanks unless it is blank -/
theorem printed_plain {db : CharDb} {t s v q : Str} (hp : ∀ c ∈ t, c ≠ 0x1b) (h1 : EndTrimmed db t t s v) (h2 : From 0 s v q) :
    ((∀ c ∈ t, Blank db c) → q = t) ∧ ((∃ c ∈ t, ¬ Blank db c) → q = dropTrailing db t) := by
  obtain ⟨e0, e⟩ := h1
  have hs : ∀ c ∈ s, c ≠ 0x1b := by
    rcases e with ⟨-, rfl, -⟩ | ⟨-, -, ⟨-, rfl⟩ | ⟨-, p, e, -⟩⟩
    · exact hp
    · exact hp
    · intro c hc; exact hp c (by rw [e]; simp [hc])
  have hv : v = s := text_of_plain hs e0
  subst hv
  have hq := from_zero hs h2
  subst hq
  constructor
  · intro hb
    rcases e with ⟨-, rfl, -⟩ | ⟨⟨c, c1, c2⟩, -⟩
    · rfl
    · exact absurd (hb c c1) c2
  · rintro ⟨c, c1, c2⟩
    rcases e with ⟨hb, -⟩ | ⟨-, e, -⟩
    · exact absurd (hb c c1) c2
    · exact e

/-- C70: the whole of `handle_remove_box` for a box around the texts `ms`: what is printed.  The texts `ts` (visible characters: `us`) are those
inside of the box without the padding, with the indentation of the box put back; blank lines at the beginning and at the end are dropped unless the user
asked to keep them (then only as many as the padding of the design, if a box is being repaired); the remaining lines are printed without trailing
blanks, from the first visible character on (`From`: with the escape sequence in front of it unless that is a reset). -/
theorem C70_printed (db : CharDb) (hdb : Sane db) (opt : Opt) (htab : opt.tabexp ≠ 'u' ∧ opt.tabexp ≠ 'k') (hts1 : 1 ≤ opt.tabstop) (hmend : opt.mend ≤ 0)
    (d : Design) (hd : Recognisable db d) (i : Input) (ind : Nat) (ms ts us : List Str) (hbox : BoxAround db d ind ms i.lines)
    (hts : ts = ms.map (fun m => spaces (restored opt i.indent) ++ m.drop d.padding.left))
    (hlu : us.length = ts.length) (hus : ∀ (x : Nat) t u, ts[x]? = some t → us[x]? = some u → Text t u) :
    ∃ j out k k', handleRemoveBox db opt d [] i = .ok (j, out) ∧ j.lines.length = out.length ∧ j.finalNewline = i.finalNewline ∧
      k + out.length + k' = ts.length ∧
      (opt.killblank ≠ 0 → BlankLinesDropped db none us k ∧ BlankLinesDropped db none (us.drop k).reverse k') ∧
      (opt.killblank = 0 → opt.mend = 0 → k = 0 ∧ k' = 0) ∧
      (opt.killblank = 0 → opt.mend ≠ 0 → BlankLinesDropped db (some d.padding.top) us k ∧
        BlankLinesDropped db (some d.padding.bottom) (us.drop k).reverse k') ∧
      ∀ (x : Nat) p, out[x]? = some p → ∃ t u s v l, ts[k + x]? = some t ∧ us[k + x]? = some u ∧ EndTrimmed db t u s v ∧
        j.lines[x]? = some l ∧ l.text = fromUnicode db s ∧ From 0 s v p.1 ∧
        p.2 = (if x + 1 = out.length ∧ i.finalNewline = false then [] else opt.eol) := by
  have hside := side_seen hdb hd
  have hkb : ∀ o : Opt, (if o.killblank = -1 then (if emptySide d.shape northSide ∧ emptySide d.shape southSide then (0 : Int) else 1) else o.killblank) =
      (if o.killblank = -1 then 1 else o.killblank) := by
    intro o
    have : ¬ (emptySide d.shape northSide = true ∧ emptySide d.shape southSide = true) := by
      intro h
      have := congrArg Sides.top hside
      simp only [determineEmptySides] at this
      rw [h.1] at this; simp at this
    rw [if_neg this]
  obtain ⟨kb, hkbd⟩ : ∃ kb : Int, kb = if opt.killblank = -1 then 1 else opt.killblank := ⟨_, rfl⟩
  have hkb0 : kb = 0 ↔ opt.killblank = 0 := by rw [hkbd]; split <;> omega
  obtain ⟨j0, k, k', r1, r2, r3, r4, r5, r6⟩ := C70_removed db hdb { opt with killblank := kb } d hd i ind ms ts us hbox hts hlu hus
  have hchar : ∀ t ∈ ts, ∀ c ∈ t, ¬ Forbidden db c := by
    intro t ht c hc
    rw [hts] at ht
    obtain ⟨m, hm, rfl⟩ := List.mem_map.1 ht
    rcases List.mem_append.1 hc with hc | hc
    · refine spaces_all (P := fun c => ¬ Forbidden db c) ?_ _ c hc
      intro h
      have := h.1
      rw [hdb.space_ok] at this; simp at this
    · exact hbox.allowed m hm c (List.mem_of_mem_drop hc)
  -- the lines that are left, with their visible texts
  obtain ⟨ps, hps⟩ : ∃ ps, ps = ((ts.zip us).drop k).take j0.lines.length := ⟨_, rfl⟩
  have hzl : (ts.zip us).length = ts.length := by rw [List.length_zip]; omega
  have hpslen : ps.length = j0.lines.length := by rw [hps]; simp only [List.length_take, List.length_drop, hzl]; omega
  have hps_get : ∀ (x : Nat) q, ps[x]? = some q → ts[k + x]? = some q.1 ∧ us[k + x]? = some q.2 ∧ Text q.1 q.2 ∧ ∀ c ∈ q.1, ¬ Forbidden db c := by
    intro x q hx
    have hlt := (List.getElem?_eq_some_iff.1 hx).1
    rw [hps, List.getElem?_take, if_pos (by omega), List.getElem?_drop, List.getElem?_zip_eq_some] at hx
    exact ⟨hx.1, hx.2, hus _ _ _ hx.1 hx.2, hchar _ (List.mem_of_getElem? hx.1)⟩
  have htexts : j0.lines.map Line.text = ps.map (fun q => fromUnicode db q.1) := by
    apply List.ext_getElem?
    intro x
    rw [List.getElem?_map, List.getElem?_map]
    by_cases hx : x < j0.lines.length
    · have hl := List.getElem?_eq_getElem hx
      have hq := List.getElem?_eq_getElem (l := ps) (i := x) (by omega)
      obtain ⟨t, l0, e1, -, e3⟩ := r6 x _ hl
      obtain ⟨e4, -⟩ := hps_get x _ hq
      rw [e1] at e4
      obtain rfl := Option.some.inj e4
      rw [hl, hq, e3]; rfl
    · rw [List.getElem?_eq_none_iff.2 (by omega), List.getElem?_eq_none_iff.2 (by omega)]; rfl
  have hps_mem : ∀ q ∈ ps, Text q.1 q.2 ∧ ∀ c ∈ q.2, ¬ Forbidden db c := by
    intro q hq
    obtain ⟨x, hx⟩ := List.getElem?_of_mem hq
    obtain ⟨-, -, e1, e2⟩ := hps_get x q hx
    exact ⟨e1, fun c hc => e2 c (text_mem e1 c hc)⟩
  obtain ⟨j1, s1, s2, s3⟩ : ∃ j1, applySubstitutions db d [] j0 = .ok j1 ∧ j1.lines = j0.lines ∧ j1.finalNewline = j0.finalNewline := by
    unfold applySubstitutions
    rw [substLines_nil, Res.ok_bind]
    by_cases hm : d.indentmode = 't'
    · rw [if_pos hm]
      obtain ⟨n, hn, -⟩ := getIndent_eq (lines := j0.lines) (ts := ps.map (fun q => (fromUnicode db q.1).getD emptyBxs)) (by
        unfold HasTexts
        rw [htexts, List.map_map]
        apply List.map_congr_left
        intro q hq
        obtain ⟨b, hb⟩ := analysed db (hps_mem q hq).1 (hps_mem q hq).2
        simp [hb])
      rw [hn, Res.ok_bind]
      exact ⟨_, rfl, rfl, rfl⟩
    · rw [if_neg hm]
      exact ⟨_, rfl, rfl, rfl⟩
  obtain ⟨j, out, o1, -, -, o4, o5, -, o7, o8⟩ := C68_printed db { opt with killblank := kb } false j1 ps ⟨by
      rw [s2, htexts], fun q hq => hps_mem q hq, fun hk => absurd hk htab.2, hts1⟩
  have o7 := o7 rfl
  refine ⟨j, out, k, k', ?_, by omega, by rw [o4, s3, r5], by omega, ?_, ?_, ?_, ?_⟩
  · unfold handleRemoveBox
    simp only [hkb]
    rw [← hkbd, r1, Res.ok_bind, s1, Res.ok_bind]
    have : decide (opt.mend > 0) = false := decide_eq_false (by omega)
    simp only [this]
    exact o1
  · intro h0
    have h1 : kb ≠ 0 := fun h => h0 (hkb0.1 h)
    rw [if_pos (.inl h1)] at r3
    simpa only [maxRemovable, h1, and_false, if_false] using r3
  · intro h0 h1
    have h2 := hkb0.2 h0
    rw [if_neg (by simp [h2, h1])] at r3
    exact r3
  · intro h0 h1
    have h2 := hkb0.2 h0
    rw [if_pos (.inr h1)] at r3
    have h3 : (opt.mend ≠ 0 ∧ kb = 0) := ⟨h1, h2⟩
    simpa only [maxRemovable, if_pos h3] using r3
  · intro x p hx
    have hlt : x < ps.length := by have := (List.getElem?_eq_some_iff.1 hx).1; omega
    have hu := List.getElem?_eq_getElem hlt
    obtain ⟨s, v, l, e1, -, e3, e4⟩ := o8 x _ hu
    obtain ⟨q, e5, e6⟩ := e4 rfl
    rw [hx] at e5
    obtain rfl := Option.some.inj e5
    obtain ⟨g1, g2, -⟩ := hps_get x _ hu
    refine ⟨_, _, s, v, _, g1, g2, e1, e3, rfl, e6.plain htab.1 htab.2, ?_⟩
    simp only [o7, s3, r5]

/-- C70: the same for a box around texts without escape sequences. -/
theorem C70_printed_plain (db : CharDb) (hdb : Sane db) (opt : Opt) (htab : opt.tabexp ≠ 'u' ∧ opt.tabexp ≠ 'k') (hts1 : 1 ≤ opt.tabstop) (hmend : opt.mend ≤ 0)
    (d : Design) (hd : Recognisable db d) (i : Input) (ind : Nat) (ms ts : List Str) (hbox : BoxAround db d ind ms i.lines)
    (hclean : ∀ m ∈ ms, ∀ c ∈ m, c ≠ 0x1b)
    (hts : ts = ms.map (fun m => spaces (restored opt i.indent) ++ m.drop d.padding.left)) :
    ∃ j out k k', handleRemoveBox db opt d [] i = .ok (j, out) ∧ LeftTexts db j out ∧ j.finalNewline = i.finalNewline ∧
      k + out.length + k' = ts.length ∧
      (opt.killblank ≠ 0 → BlankLinesDropped db none ts k ∧ BlankLinesDropped db none (ts.drop k).reverse k') ∧
      (opt.killblank = 0 → opt.mend = 0 → k = 0 ∧ k' = 0) ∧
      (opt.killblank = 0 → opt.mend ≠ 0 → BlankLinesDropped db (some d.padding.top) ts k ∧
        BlankLinesDropped db (some d.padding.bottom) (ts.drop k).reverse k') ∧
      ∀ (x : Nat) p, out[x]? = some p → ∃ t, ts[k + x]? = some t ∧ ((∀ c ∈ t, Blank db c) → p.1 = t) ∧
        ((∃ c ∈ t, ¬ Blank db c) → p.1 = dropTrailing db t) ∧
        p.2 = (if x + 1 = out.length ∧ i.finalNewline = false then [] else opt.eol) := by
  have hchar : ∀ t ∈ ts, ∀ c ∈ t, c ≠ 0x1b := by
    intro t ht c hc
    rw [hts] at ht
    obtain ⟨m, hm, rfl⟩ := List.mem_map.1 ht
    rcases List.mem_append.1 hc with hc | hc
    · exact spaces_all (P := fun c => c ≠ 0x1b) (by decide) _ c hc
    · exact hclean m hm c (List.mem_of_mem_drop hc)
  obtain ⟨j, out, k, k', a1, a2, a3, a4, a5, a6, a7, a8⟩ := C70_printed db hdb opt htab hts1 hmend d hd i ind ms ts ts hbox hts rfl (by
    intro x t u h1 h2
    rw [h1] at h2
    obtain rfl := Option.some.inj h2
    exact Spec.Text.plain (hchar t (List.mem_of_getElem? h1)))
  refine ⟨j, out, k, k', a1, ⟨a2, ?_⟩, a3, a4, a5, a6, a7, ?_⟩
  · intro x p hx
    obtain ⟨t, u, s, v, l, e1, e2, e3, e4, e5, e6, -⟩ := a8 x p hx
    rw [e1] at e2
    obtain rfl := Option.some.inj e2
    exact ⟨l, e4, by rw [e5, printed_same (hchar t (List.mem_of_getElem? e1)) e3 e6]⟩
  · intro x p hx
    obtain ⟨t, u, s, v, l, e1, e2, e3, e4, e5, e6, e7⟩ := a8 x p hx
    rw [e1] at e2
    obtain rfl := Option.some.inj e2
    obtain ⟨g1, g2⟩ := printed_plain (hchar t (List.mem_of_getElem? e1)) e3 e6
    exact ⟨t, e1, g1, g2, e7⟩

/-- C71: a box is drawn around plain text, the printed lines are read again, and the box is removed (the two runs may use different options,
and the prepared design may differ in minimum size and indentation mode).  Both runs succeed.  Of the text (with the empty lines that the design
adds above and below) blank lines are dropped at the beginning and at the end if that was asked for.  Every line that is printed is the original line
(without the common indentation if it was dropped when drawing); an empty line may come back as a line of blanks. -/
theorem C71_restored (db : CharDb) (hdb : Sane db) (hbr : BreaksSane db) (opt opt' : Opt) (ho : PlainDrawing opt) (ho' : PlainRemoving opt')
    (d d' : Design) (hd : Restorable db d) (hd' : GoodDesign db d') (hshape : d'.shape = d.shape)
    (hpad : wanted opt'.padding.left d'.padding.left = wanted opt.padding.left d.padding.left)
    (hmode : d.indentmode = 'b' → opt'.indentmode = 'b' ∨ opt'.indentmode = '\x00') (junk junk' : Nat)
    (lines : List (Str × Str)) (hl : ∀ p ∈ lines, PlainLine db p.1 ∧ LineEnd p.2) (hne : lines ≠ []) (fuel : Nat)
    {r : Res (List (Bxs × Str))} (h : drawOnce db opt d [] junk (lines.map (fun p => p.1 ++ p.2)) fuel = some r) :
    ∃ out n above below ts, r = .ok out ∧ LeastIndent db (lines.map Prod.fst) n ∧
      ts = List.replicate above [] ++ lines.map (fun p => comesBack d.indentmode n p.1) ++ List.replicate below [] ∧
      out.length = (d.shape NE).height + ts.length + (d.shape SE).height ∧
      (opt.reqheight = 0 → wanted opt.padding.top d.padding.top ≤ above ∧ wanted opt.padding.bottom d.padding.bottom ≤ below) ∧
      ((∀ p ∈ out, p.1.memory.length < 16370) → ∃ raw i j back k k',
        readAllInput db opt' junk' (out.map (fun p => p.1.memory ++ p.2)) = .ok raw ∧ analyzeInput db opt' d' [] raw = .ok i ∧
        handleRemoveBox db opt' (adjustSizeAndPadding opt' d' i) [] i = .ok (j, back) ∧ LeftTexts db j back ∧
        (j.finalNewline = true ↔ EndsInBreak (lines.map (fun p => p.1 ++ p.2))) ∧ k + back.length + k' = ts.length ∧
        (opt'.killblank ≠ 0 → BlankLinesDropped db none ts k ∧ BlankLinesDropped db none (ts.drop k).reverse k') ∧
        (opt'.killblank = 0 → opt'.mend = 0 → k = 0 ∧ k' = 0) ∧
        (opt'.killblank = 0 → opt'.mend ≠ 0 → opt'.reqheight = 0 → BlankLinesDropped db (some (wanted opt'.padding.top d'.padding.top)) ts k ∧
          BlankLinesDropped db (some (wanted opt'.padding.bottom d'.padding.bottom)) (ts.drop k).reverse k') ∧
        ∀ (x : Nat) p, back[x]? = some p → ∃ t e, ts[k + x]? = some t ∧ p.1 = t ++ spaces e ∧ (t ≠ [] → e = 0) ∧
          (x + 1 = back.length → ¬ EndsInBreak (lines.map (fun p => p.1 ++ p.2)) → p.2 = []) ∧
          (x + 1 ≠ back.length ∨ EndsInBreak (lines.map (fun p => p.1 ++ p.2)) → p.2 = opt'.eol)) := by
  obtain ⟨out, n, above, below, w, h1, h2, hroom, h3, h4⟩ := drawn_rows db hdb hbr opt ho d hd junk lines hl hne fuel h
  refine ⟨out, n, above, below, _, h1, h2, rfl, by rw [h3.count, innerTexts_length]; simp; omega, hroom, fun hshort => ?_⟩
  obtain ⟨ts, hts⟩ : ∃ ts, ts = List.replicate above [] ++ lines.map (fun p => comesBack d.indentmode n p.1) ++ List.replicate below [] := ⟨_, rfl⟩
  obtain ⟨ind, hind⟩ : ∃ ind, ind = if d.indentmode = 'b' then n else 0 := ⟨_, rfl⟩
  obtain ⟨m, hm⟩ : ∃ m, m = if d.indentmode = 't' then 0 else n := ⟨_, rfl⟩
  obtain ⟨lp, hlp⟩ : ∃ lp, lp = wanted opt.padding.left d.padding.left := ⟨_, rfl⟩
  rw [← hts]
  rw [← hind, ← hm, ← hlp] at h3
  -- the texts between the sides
  obtain ⟨prs, hprs⟩ : ∃ prs, prs = List.replicate above (([], []) : Str × Str) ++ lines.map (fun p => (p.1.drop m, comesBack d.indentmode n p.1)) ++
    List.replicate below ([], []) := ⟨_, rfl⟩
  have hvs : innerTexts above below m (lines.map Prod.fst) = prs.map Prod.fst := by
    rw [hprs]; simp [innerTexts, Function.comp_def]
  have hts' : ts = prs.map Prod.snd := by rw [hprs, hts]; simp [Function.comp_def]
  have hpr : ∀ q ∈ prs, (∀ c ∈ q.1, CleanChar db c) ∧
      ((q.1 = [] ∧ q.2 = []) ∨ (q.2 = spaces ind ++ q.1 ∧ ∃ p c, q.1 = p ++ [c] ∧ ¬ Blank db c)) := by
    intro q hq
    rw [hprs] at hq
    simp only [List.mem_append, List.mem_replicate, List.mem_map] at hq
    rcases hq with (⟨-, rfl⟩ | ⟨p, hp, rfl⟩) | ⟨-, rfl⟩
    · exact ⟨by simp, .inl ⟨rfl, rfl⟩⟩
    · have hpl := (hl p hp).1
      refine ⟨fun c hc => cleanChar_plain hpl c (List.mem_of_mem_drop hc), ?_⟩
      by_cases h0 : p.1 = []
      · left; simp [h0, comesBack]
      · right
        have hnb := plain_nonblank hpl h0
        have hcols : 0 < columns db p.1 := by
          rcases hpl.shows with h1 | h1
          · exact absurd h1 h0
          · exact seen_columns h1
        have hn := h2.le p.1 (List.mem_map.2 ⟨p, hp, rfl⟩) hcols
        have hmn : m ≤ leadingBlanks db p.1 := by rw [hm]; split <;> omega
        constructor
        · by_cases hb : d.indentmode = 'b'
          · have e1 : m = n := by rw [hm, if_neg (by rw [hb]; decide)]
            have e2 : ind = n := by rw [hind, if_pos hb]
            simp only [comesBack, hb, true_or, if_true]
            rw [e1, e2, take_plain hpl hn]
          · have e2 : ind = 0 := by rw [hind, if_neg hb]
            by_cases ht : d.indentmode = 't'
            · have e1 : m = 0 := by rw [hm, if_pos ht]
              simp only [comesBack, ht, or_true, if_true]
              rw [e1, e2]; rfl
            · have e1 : m = n := by rw [hm, if_neg ht]
              simp only [comesBack, hb, ht, or_self, if_false]
              rw [e1, e2]; rfl
        · obtain ⟨c0, hc0, -⟩ := leading_first db hnb
          have hlt := (List.getElem?_eq_some_iff.1 hc0).1
          rcases List.eq_nil_or_concat p.1 with h9 | ⟨a, c, h9⟩
          · exact absurd h9 h0
          · rw [List.concat_eq_append] at h9
            refine ⟨a.drop m, c, ?_, plain_last hbr hpl h9⟩
            simp only
            rw [h9, List.drop_append_of_le_length]
            rw [h9] at hlt hmn
            simp at hlt; omega
    · exact ⟨by simp, .inl ⟨rfl, rfl⟩⟩
  -- reading
  have heol : opt.eol ≠ [] := by rcases ho.eol with e | e <;> simp [e]
  obtain ⟨raw, i, i1, i2, i3, i4, -, -, i6⟩ := drawn_reread hdb ho'.removes ho'.tabstop junk' d' hd h3 (by
      intro v hv
      rw [hvs] at hv
      obtain ⟨q, hq, rfl⟩ := List.mem_map.1 hv
      exact (hpr q hq).1) (by
      intro p hp
      obtain ⟨x, hx⟩ := List.getElem?_of_mem hp
      obtain ⟨g1, g2⟩ := h4 x p hx
      by_cases hb : EndsInBreak (lines.map (fun p => p.1 ++ p.2)) ∨ x + 1 ≠ out.length
      · rw [g1 hb]; exact .inr ho.eol
      · have hb1 := fun h => hb (.inl h)
        have hb2 : x + 1 = out.length := Classical.byContradiction fun h => hb (.inr h)
        exact .inl (g2 hb1 hb2)) hshort
  obtain ⟨p1, p2, p3, -⟩ := C21_padding opt' d' i
  have hpt : opt'.reqheight = 0 → (adjustSizeAndPadding opt' d' i).padding.top = wanted opt'.padding.top d'.padding.top ∧
      (adjustSizeAndPadding opt' d' i).padding.bottom = wanted opt'.padding.bottom d'.padding.bottom := by
    intro h0
    by_cases h1 : i.lines.length + ((d'.shape NW).height + (d'.shape SW).height) + (wanted opt'.padding.top d'.padding.top + wanted opt'.padding.bottom d'.padding.bottom) ≤ d'.minheight ∨
        wanted opt'.padding.top d'.padding.top + wanted opt'.padding.bottom d'.padding.bottom = 0
    · exact ⟨(p1.enough h1).1, (p1.enough h1).2.1⟩
    · have := p1.grow (by omega) (by omega) (by simp [h0])
      exact ⟨this.1, this.2.1⟩
  have hlpad : (adjustSizeAndPadding opt' d' i).padding.left = lp := by
    rw [hlp, ← hpad]
    by_cases h1 : i.maxline + ((d'.shape NW).width + (d'.shape NE).width) + (wanted opt'.padding.left d'.padding.left + wanted opt'.padding.right d'.padding.right) ≤ d'.minwidth ∨
        wanted opt'.padding.left d'.padding.left + wanted opt'.padding.right d'.padding.right = 0
    · exact (p2.enough h1).1
    · exact (p2.grow (by omega) (by omega) (by have := ho'.reqwidth; simp [this])).1
  have hshape3 : (adjustSizeAndPadding opt' d' i).shape = d.shape := p3.trans hshape
  have hbox := i6 (adjustSizeAndPadding opt' d' i) hshape3 hlpad
  have hR : restored opt' i.indent = ind := by
    rw [i3]
    unfold restored
    by_cases hb : d.indentmode = 'b'
    · rw [if_pos (hmode hb)]
    · rw [hind, if_neg hb]; split <;> rfl
  obtain ⟨j, back, k, k', b1, bl, bf, b2, b3, b4, b5, b6⟩ := C70_printed_plain db hdb opt' ho'.tabs ho'.tabstop ho'.mend _
    (recognisable_shape hd.recognisable hshape3 (C20_adjusted_design db opt' d' hd' i).2) i ind _
    (prs.map (fun q => spaces ind ++ q.1 ++ spaces (w - columns db q.1))) hbox (by
      intro x hx c hc
      rw [hvs, List.map_map] at hx
      obtain ⟨q, hq, rfl⟩ := List.mem_map.1 hx
      simp only [Function.comp, List.mem_append] at hc
      rcases hc with (hc | hc) | hc
      · exact (spaces_all (cleanChar_space hdb) _ c hc).1
      · exact ((hpr q hq).1 c hc).1
      · exact (spaces_all (cleanChar_space hdb) _ c hc).1) (by
      rw [hvs, List.map_map, List.map_map]
      apply List.map_congr_left
      intro q hq
      simp only [Function.comp]
      rw [hR, hlpad, List.append_assoc (spaces lp), List.drop_append_of_le_length (by simp [spaces])]
      simp [spaces])
  have hlen : (prs.map (fun q => spaces ind ++ q.1 ++ spaces (w - columns db q.1))).length = ts.length := by rw [hts']; simp
  have hblank : ∀ q ∈ prs, BlankText db (spaces ind ++ q.1 ++ spaces (w - columns db q.1)) ↔ BlankText db q.2 := by
    intro q hq
    obtain ⟨hc, h0⟩ := hpr q hq
    rcases h0 with ⟨e1, e2⟩ | ⟨e1, p, c, e2, e3⟩
    · rw [e1, e2]
      refine ⟨fun _ => by intro c hc; simp at hc, fun _ => ?_⟩
      intro c hc
      simp only [List.append_nil, List.mem_append] at hc
      exact .inl (hc.elim (spaces_blank hdb _ c) (spaces_blank hdb _ c))
    · have hcc := hc c (by rw [e2]; simp)
      constructor
      · intro hb
        rcases hb c (by rw [e2]; simp) with h | h
        · exact absurd h e3
        · exact absurd h hcc.2.2.2.2.2
      · intro hb
        rcases hb c (by rw [e1, e2]; simp) with h | h
        · exact absurd h e3
        · exact absurd h hcc.2.2.2.2.2
  have hcongr : ∀ (x : Nat) a b, (prs.map (fun q => spaces ind ++ q.1 ++ spaces (w - columns db q.1)))[x]? = some a → ts[x]? = some b →
      (BlankText db a ↔ BlankText db b) := by
    intro x a b ha hb
    rw [hts', List.getElem?_map] at hb
    rw [List.getElem?_map] at ha
    cases hq : prs[x]? with
    | none => rw [hq] at ha; simp at ha
    | some q =>
      rw [hq] at ha hb
      obtain rfl := Option.some.inj ha
      obtain rfl := Option.some.inj hb
      exact hblank q (List.mem_of_getElem? hq)
  have hlast : i.finalNewline = true ↔ EndsInBreak (lines.map (fun p => p.1 ++ p.2)) := by
    rw [i4]
    have hne' : out ≠ [] := by
      intro h0
      have := h3.count
      have hp : 0 < (d.shape NE).height := (hd.recognisable.ready.good.corner NE (by simp)).2.2
      rw [h0] at this; simp at this; omega
    have hlt : out.length - 1 < out.length := by have := List.length_pos_iff.2 hne'; omega
    have hg := List.getElem?_eq_getElem hlt
    rw [List.getLast?_eq_getElem?, hg]
    obtain ⟨f1, f2⟩ := h4 _ _ hg
    constructor
    · rintro ⟨p, hp, hp2⟩
      obtain rfl := Option.some.inj hp
      exact Classical.byContradiction fun hb => hp2 (f2 hb (by omega))
    · intro hb
      exact ⟨_, rfl, by rw [f1 (.inl hb)]; exact heol⟩
  have hcongr2 : ∀ (x : Nat) a b, ((prs.map (fun q => spaces ind ++ q.1 ++ spaces (w - columns db q.1))).drop k).reverse[x]? = some a →
      (ts.drop k).reverse[x]? = some b → (BlankText db a ↔ BlankText db b) := by
    intro x a b ha hb
    have hx := (List.getElem?_eq_some_iff.1 ha).1
    have hx' := (List.getElem?_eq_some_iff.1 hb).1
    rw [List.length_reverse] at hx hx'
    rw [List.getElem?_reverse hx, List.getElem?_drop] at ha
    rw [List.getElem?_reverse hx', List.getElem?_drop] at hb
    simp only [List.length_drop] at ha hb
    rw [hlen] at ha
    exact hcongr _ a b ha hb
  have hlen2 : ((prs.map (fun q => spaces ind ++ q.1 ++ spaces (w - columns db q.1))).drop k).reverse.length = (ts.drop k).reverse.length := by
    rw [List.length_reverse, List.length_reverse, List.length_drop, List.length_drop, hlen]
  refine ⟨raw, i, j, back, k, k', i1, i2, b1, bl, by rw [bf]; exact hlast, by omega, ?_, b4, ?_, ?_⟩
  · intro h0
    obtain ⟨d1, d2⟩ := b3 h0
    exact ⟨blankLinesDropped_congr hlen hcongr d1, blankLinesDropped_congr hlen2 hcongr2 d2⟩
  · intro h0 h1 h2
    obtain ⟨d1, d2⟩ := b5 h0 h1
    rw [(hpt h2).1] at d1
    rw [(hpt h2).2] at d2
    exact ⟨blankLinesDropped_congr hlen hcongr d1, blankLinesDropped_congr hlen2 hcongr2 d2⟩
  · intro x p hx
    obtain ⟨t', g1, g2, g3, g4⟩ := b6 x p hx
    rw [List.getElem?_map] at g1
    cases hq : prs[k + x]? with
    | none => rw [hq] at g1; simp at g1
    | some q =>
      rw [hq] at g1
      obtain rfl := Option.some.inj g1
      simp only at g2 g3
      obtain ⟨hc, h0⟩ := hpr q (List.mem_of_getElem? hq)
      have hterm : (x + 1 = back.length → ¬ EndsInBreak (lines.map (fun p => p.1 ++ p.2)) → p.2 = []) ∧
          (x + 1 ≠ back.length ∨ EndsInBreak (lines.map (fun p => p.1 ++ p.2)) → p.2 = opt'.eol) := by
        rw [g4]
        constructor
        · intro h1 h2
          rw [if_pos ⟨h1, by cases hf : i.finalNewline with | false => rfl | true => exact absurd (hlast.1 hf) h2⟩]
        · intro h1
          refine if_neg ?_
          rintro ⟨h2, h3⟩
          rcases h1 with h1 | h1
          · exact h1 h2
          · rw [hlast.2 h1] at h3; simp at h3
      have htx : ts[k + x]? = some q.2 := by rw [hts', List.getElem?_map, hq]; rfl
      rcases h0 with ⟨e1, e2⟩ | ⟨e1, pp, c, e2, e3⟩
      · refine ⟨q.2, ind + (w - columns db q.1), htx, ?_, fun h => absurd e2 h, hterm⟩
        rw [g2 (by
          intro c hc
          rw [e1] at hc
          simp only [List.append_nil, List.mem_append] at hc
          exact hc.elim (spaces_blank hdb _ c) (spaces_blank hdb _ c)), e2, e1]
        rw [List.nil_append, List.append_nil, spaces_append]
      · refine ⟨q.2, 0, htx, ?_, fun _ => rfl, hterm⟩
        rw [g3 ⟨c, by rw [e2]; simp, e3⟩, e1, e2]
        have := dropTrailing_app db (spaces ind ++ pp) c (spaces (w - columns db (pp ++ [c]))) e3 (spaces_blank hdb _)
        simp only [List.append_assoc, List.cons_append, List.nil_append] at this ⊢
        rw [this]; simp [spaces]

theorem dropped_exact {db : CharDb} {a k : Nat} {limit : Option Nat} (hlim : limit = none ∨ limit = some a) {ls : List Str} {t : Str}
    (h : BlankLinesDropped db limit (List.replicate a [] ++ ls) k) (h0 : ls[0]? = some t) (ht : ¬ BlankText db t) : k = a := by
  have hlt : 0 < ls.length := (List.getElem?_eq_some_iff.1 h0).1
  have h1 : ¬ a < k := by
    intro hk
    refine ht (h.blank a t hk ?_)
    rw [List.getElem?_append_right (by simp)]
    simpa using h0
  have h2 : ¬ k < a := by
    intro hk
    rcases h.most (by simp; omega) with h2 | ⟨t', h2, h3⟩
    · rcases hlim with h3 | h3 <;> rw [h3] at h2
      · simp at h2
      · have := Option.some.inj h2
        omega
    · rw [List.getElem?_append_left (by simpa using hk), replicate_get hk] at h2
      obtain rfl := Option.some.inj h2
      exact h3 (by intro c hc; simp at hc)
  omega

theorem comesBack_shows {db : CharDb} (hbr : BreaksSane db) {mode : Char} {n : Nat} {t : Str} (ht : PlainLine db t) (h0 : t ≠ [])
    (hn : n ≤ leadingBlanks db t) : ¬ BlankText db (comesBack mode n t) := by
  obtain ⟨c, h1, h2⟩ := leading_first db (plain_nonblank ht h0)
  intro hb
  have hc : c ∈ comesBack mode n t := by
    unfold comesBack
    split
    · exact List.mem_of_getElem? h1
    · refine List.mem_of_getElem? (i := leadingBlanks db t - n) ?_
      rw [List.getElem?_drop, ← h1]; congr 1; omega
  rcases hb c hc with h | h
  · exact h2 h
  · exact (ht.chars c (List.mem_of_getElem? h1)).2.2.1 h

/-- Exactly the lines of the text come back if its first and last line are not empty, provided that blank lines are removed, or that no more of them than the padding are in
the box and these are removed. -/
theorem lines_back (db : CharDb) (hdb : Sane db) (hbr : BreaksSane db) (opt opt' : Opt) (ho : PlainDrawing opt) (ho' : PlainRemoving opt')
    (d d' : Design) (hd : Restorable db d) (hd' : GoodDesign db d') (hshape : d'.shape = d.shape)
    (hpad : wanted opt'.padding.left d'.padding.left = wanted opt.padding.left d.padding.left)
    (hmode : d.indentmode = 'b' → opt'.indentmode = 'b' ∨ opt'.indentmode = '\x00') (junk junk' : Nat)
    (lines : List (Str × Str)) (hl : ∀ p ∈ lines, PlainLine db p.1 ∧ LineEnd p.2) (hne : lines ≠ [])
    (hfirst : ∀ p, lines[0]? = some p → p.1 ≠ []) (hlast : ∀ p, lines.getLast? = some p → p.1 ≠ []) (fuel : Nat)
    {r : Res (List (Bxs × Str))} (h : drawOnce db opt d [] junk (lines.map (fun p => p.1 ++ p.2)) fuel = some r) :
    ∃ out n, r = .ok out ∧ LeastIndent db (lines.map Prod.fst) n ∧
      ((∀ p ∈ out, p.1.memory.length < 16370) →
        (opt'.killblank ≠ 0 ∨ (opt'.killblank = 0 ∧ opt'.mend ≠ 0 ∧ opt.reqheight = 0 ∧ opt'.reqheight = 0 ∧
          wanted opt'.padding.top d'.padding.top = wanted opt.padding.top d.padding.top ∧
          wanted opt'.padding.bottom d'.padding.bottom = wanted opt.padding.bottom d.padding.bottom ∧
          out.length = (d.shape NE).height + wanted opt.padding.top d.padding.top + lines.length + wanted opt.padding.bottom d.padding.bottom + (d.shape SE).height)) →
        ∃ raw i j back,
        readAllInput db opt' junk' (out.map (fun p => p.1.memory ++ p.2)) = .ok raw ∧ analyzeInput db opt' d' [] raw = .ok i ∧
        handleRemoveBox db opt' (adjustSizeAndPadding opt' d' i) [] i = .ok (j, back) ∧ LeftTexts db j back ∧
        (j.finalNewline = true ↔ EndsInBreak (lines.map (fun p => p.1 ++ p.2))) ∧ back.length = lines.length ∧
        ∀ (x : Nat) q, lines[x]? = some q → ∃ p e, back[x]? = some p ∧ p.1 = comesBack d.indentmode n q.1 ++ spaces e ∧ (q.1 ≠ [] → e = 0) ∧
          (x + 1 = lines.length → q.2 = [] → p.2 = []) ∧ (x + 1 ≠ lines.length ∨ q.2 ≠ [] → p.2 = opt'.eol)) := by
  obtain ⟨out, n, above, below, ts, h1, h2, h3, hcnt, hroom, h4⟩ :=
    C71_restored db hdb hbr opt opt' ho ho' d d' hd hd' hshape hpad hmode junk junk' lines hl hne fuel h
  refine ⟨out, n, h1, h2, fun hshort hkill => ?_⟩
  obtain ⟨raw, i, j, back, k, k', e1, e2, e3, el, ef, e4, e5, -, e6, e7⟩ := h4 hshort
  have hshow : ∀ p ∈ lines, p.1 ≠ [] → ¬ BlankText db (comesBack d.indentmode n p.1) := by
    intro p hp h0
    have hpl := (hl p hp).1
    refine comesBack_shows hbr hpl h0 (h2.le p.1 (List.mem_map.2 ⟨p, hp, rfl⟩) ?_)
    rcases hpl.shows with h1 | h1
    · exact absurd h1 h0
    · exact seen_columns h1
  have hlen : 0 < lines.length := List.length_pos_iff.2 hne
  have hts : ts.length = above + lines.length + below := by rw [h3]; simp; omega
  obtain ⟨l1, l2, hl1, hl2, d1, d2⟩ : ∃ l1 l2, (l1 = none ∨ l1 = some above) ∧ (l2 = none ∨ l2 = some below) ∧
      BlankLinesDropped db l1 ts k ∧ BlankLinesDropped db l2 (ts.drop k).reverse k' := by
    rcases hkill with h0 | ⟨h0, h1, h5, h6, h7, h8, h9⟩
    · exact ⟨none, none, .inl rfl, .inl rfl, e5 h0⟩
    · obtain ⟨r1, r2⟩ := hroom h5
      refine ⟨_, _, .inr ?_, .inr ?_, e6 h0 h1 h6⟩
      · rw [h7]; congr 1; omega
      · rw [h8]; congr 1; omega
  rw [h3, List.append_assoc] at d1
  have hk : k = above := by
    have hg := List.getElem?_eq_getElem hlen
    refine dropped_exact hl1 d1 (t := comesBack d.indentmode n lines[0].1) ?_ (hshow _ (List.getElem_mem hlen) (hfirst _ hg))
    rw [List.getElem?_append_left (by simpa using hlen), List.getElem?_map, hg]; rfl
  have hk' : k' = below := by
    rw [h3, hk, List.append_assoc, List.drop_append_of_le_length (by simp)] at d2
    simp only [List.drop_replicate, Nat.sub_self, List.replicate_zero, List.nil_append, List.reverse_append, List.reverse_replicate] at d2
    cases hg : lines.getLast? with
    | none => rw [List.getLast?_eq_none_iff] at hg; exact absurd hg hne
    | some p =>
      refine dropped_exact hl2 d2 (t := comesBack d.indentmode n p.1) ?_ (hshow p (List.mem_of_getLast? hg) (hlast p hg))
      rw [← List.map_reverse, List.getElem?_map]
      have : lines.reverse[0]? = some p := by rw [← List.head?_eq_getElem?, List.head?_reverse, hg]
      rw [this]; rfl
  have hb : back.length = lines.length := by omega
  have hbreak := endsInBreak_iff hl
  refine ⟨raw, i, j, back, e1, e2, e3, el, ef, hb, ?_⟩
  intro x q hq
  have hx := (List.getElem?_eq_some_iff.1 hq).1
  have hx' : x < back.length := by omega
  obtain ⟨t, e, g1, g2, g3, g4, g5⟩ := e7 x _ (List.getElem?_eq_getElem hx')
  have ht : t = comesBack d.indentmode n q.1 := by
    rw [h3, hk, List.append_assoc, List.getElem?_append_right (by simp), List.length_replicate, Nat.add_sub_cancel_left,
      List.getElem?_append_left (by simpa using hx), List.getElem?_map, hq] at g1
    exact (Option.some.inj g1).symm
  subst ht
  refine ⟨_, e, List.getElem?_eq_getElem hx', g2, fun h0 => g3 ?_, ?_, ?_⟩
  · intro h9
    refine hshow q (List.mem_of_getElem? hq) h0 ?_
    rw [h9]; intro c hc; simp at hc
  · intro h5 h6
    refine g4 (by omega) (fun hbr => ?_)
    obtain ⟨p, p1, p2⟩ := hbreak.1 hbr
    rw [List.getLast?_eq_getElem?, (by omega : lines.length - 1 = x), hq] at p1
    obtain rfl := Option.some.inj p1
    exact p2 h6
  · intro h5
    by_cases h6 : x + 1 = lines.length
    · refine g5 (.inr (hbreak.2 ⟨q, ?_, h5.resolve_left (fun h => h h6)⟩))
      rw [List.getLast?_eq_getElem?, (by omega : lines.length - 1 = x), hq]
    · exact g5 (.inl (by omega))

/-- C71: unless the user asked to keep blank lines, exactly the lines of the text come back if its first and last line are not empty. -/
theorem C71_lines (db : CharDb) (hdb : Sane db) (hbr : BreaksSane db) (opt opt' : Opt) (ho : PlainDrawing opt) (ho' : PlainRemoving opt')
    (d d' : Design) (hd : Restorable db d) (hd' : GoodDesign db d') (hshape : d'.shape = d.shape)
    (hpad : wanted opt'.padding.left d'.padding.left = wanted opt.padding.left d.padding.left)
    (hmode : d.indentmode = 'b' → opt'.indentmode = 'b' ∨ opt'.indentmode = '\x00') (hkill : opt'.killblank ≠ 0) (junk junk' : Nat)
    (lines : List (Str × Str)) (hl : ∀ p ∈ lines, PlainLine db p.1 ∧ LineEnd p.2) (hne : lines ≠ [])
    (hfirst : ∀ p, lines[0]? = some p → p.1 ≠ []) (hlast : ∀ p, lines.getLast? = some p → p.1 ≠ []) (fuel : Nat)
    {r : Res (List (Bxs × Str))} (h : drawOnce db opt d [] junk (lines.map (fun p => p.1 ++ p.2)) fuel = some r) :
    ∃ out n, r = .ok out ∧ LeastIndent db (lines.map Prod.fst) n ∧
      ((∀ p ∈ out, p.1.memory.length < 16370) → ∃ raw i j back,
        readAllInput db opt' junk' (out.map (fun p => p.1.memory ++ p.2)) = .ok raw ∧ analyzeInput db opt' d' [] raw = .ok i ∧
        handleRemoveBox db opt' (adjustSizeAndPadding opt' d' i) [] i = .ok (j, back) ∧ LeftTexts db j back ∧
        (j.finalNewline = true ↔ EndsInBreak (lines.map (fun p => p.1 ++ p.2))) ∧ back.length = lines.length ∧
        ∀ (x : Nat) q, lines[x]? = some q → ∃ p e, back[x]? = some p ∧ p.1 = comesBack d.indentmode n q.1 ++ spaces e ∧ (q.1 ≠ [] → e = 0) ∧
          (x + 1 = lines.length → q.2 = [] → p.2 = []) ∧ (x + 1 ≠ lines.length ∨ q.2 ≠ [] → p.2 = opt'.eol)) := by
  obtain ⟨out, n, h1, h2, h3⟩ := lines_back db hdb hbr opt opt' ho ho' d d' hd hd' hshape hpad hmode junk junk' lines hl hne hfirst hlast fuel h
  exact ⟨out, n, h1, h2, fun hshort => h3 hshort (.inl hkill)⟩

/-- C71: drawing a box around a text and removing it again prints exactly the text: plain lines that are not empty, in the first or second
indentation mode (box indented, or text indented inside of the box). -/
theorem C71_identity (db : CharDb) (hdb : Sane db) (hbr : BreaksSane db) (opt opt' : Opt) (ho : PlainDrawing opt) (ho' : PlainRemoving opt')
    (d d' : Design) (hd : Restorable db d) (hd' : GoodDesign db d') (hshape : d'.shape = d.shape)
    (hpad : wanted opt'.padding.left d'.padding.left = wanted opt.padding.left d.padding.left)
    (hmode : d.indentmode = 't' ∨ (d.indentmode = 'b' ∧ (opt'.indentmode = 'b' ∨ opt'.indentmode = '\x00'))) (hkill : opt'.killblank ≠ 0) (junk junk' : Nat)
    (lines : List (Str × Str)) (hl : ∀ p ∈ lines, PlainLine db p.1 ∧ p.1 ≠ []) (hne : lines ≠ [])
    (hterm : ∀ (x : Nat) p, lines[x]? = some p → p.2 = opt'.eol ∨ (x + 1 = lines.length ∧ p.2 = [])) (heol : opt'.eol = [0x0a] ∨ opt'.eol = [0x0d, 0x0a])
    (fuel : Nat) {r : Res (List (Bxs × Str))} (h : drawOnce db opt d [] junk (lines.map (fun p => p.1 ++ p.2)) fuel = some r) :
    ∃ out, r = .ok out ∧ ((∀ p ∈ out, p.1.memory.length < 16370) → ∃ raw i j,
        readAllInput db opt' junk' (out.map (fun p => p.1.memory ++ p.2)) = .ok raw ∧ analyzeInput db opt' d' [] raw = .ok i ∧
        handleRemoveBox db opt' (adjustSizeAndPadding opt' d' i) [] i = .ok (j, lines) ∧ LeftTexts db j lines ∧
        (j.finalNewline = true ↔ EndsInBreak (lines.map (fun p => p.1 ++ p.2)))) := by
  have hmem : ∀ p ∈ lines, p.2 = opt'.eol ∨ p.2 = [] := by
    intro p hp
    obtain ⟨x, hx⟩ := List.getElem?_of_mem hp
    exact (hterm x p hx).imp id And.right
  obtain ⟨out, n, h1, h2, h3⟩ := C71_lines db hdb hbr opt opt' ho ho' d d' hd hd' hshape hpad
    (fun hb => by rcases hmode with h | h; (rw [h] at hb; simp at hb); exact h.2) hkill junk junk' lines
    (by
      intro p hp
      refine ⟨(hl p hp).1, ?_⟩
      rcases hmem p hp with h | h
      · rw [h]; exact .inr heol
      · exact .inl h) hne
    (fun p hp => (hl p (List.mem_of_getElem? hp)).2) (fun p hp => (hl p (List.mem_of_getLast? hp)).2) fuel h
  refine ⟨out, h1, fun hshort => ?_⟩
  obtain ⟨raw, i, j, back, e1, e2, e3, el, ef, e4, e5⟩ := h3 hshort
  refine ⟨raw, i, j, e1, e2, ?_⟩
  have : back = lines := by
    apply List.ext_getElem?
    intro x
    cases hq : lines[x]? with
    | none => rw [List.getElem?_eq_none_iff] at hq ⊢; omega
    | some q =>
      obtain ⟨p, e, f1, f2, f3, f4, f5⟩ := e5 x q hq
      rw [f1]
      congr 1
      have hm : comesBack d.indentmode n q.1 = q.1 := by
        unfold comesBack
        rw [if_pos (by rcases hmode with h | h; exact .inr h; exact .inl h.1)]
      refine Prod.ext ?_ ?_
      · rw [f2, f3 (hl q (List.mem_of_getElem? hq)).2, hm]; simp [spaces]
      · have hne' : opt'.eol ≠ [] := by rcases heol with h | h <;> simp [h]
        rcases hterm x q hq with h | ⟨h, h'⟩
        · rw [f5 (.inr (by rw [h]; exact hne')), h]
        · rw [f4 h h', h']
  exact ⟨by rw [← this]; exact e3, by rw [← this]; exact el, ef⟩

/-! ## Examples -/

theorem sampleDb_breaks : BreaksSane sampleDb := ⟨rfl, rfl, rfl, rfl, rfl⟩

theorem sampleDesign_restorable : Restorable sampleDb sampleDesign where
  recognisable := sampleDesign_recognisable
  roomy := by unfold Roomy; decide +kernel
  flush := ⟨NW, by simp, fromAscii (lit ".."), by decide +kernel, 0x2e, [0x2e], by decide +kernel, by decide +kernel⟩
  clean := by
    intro n _
    cases n <;> decide +kernel

/-- what is printed when a box is drawn and what is drawn is removed again -/
def drawAndRemove (db : CharDb) (opt opt' : Opt) (d : Design) (pieces : List Str) (fuel : Nat) : Option (List (Str × Str)) :=
  match drawOnce db opt d [] 0 pieces fuel with
  | some (.ok out) =>
    match (do
      let raw ← readAllInput db opt' 0 (out.map (fun p => p.1.memory ++ p.2))
      let i ← analyzeInput db opt' d [] raw
      handleRemoveBox db opt' (adjustSizeAndPadding opt' d i) [] i : Res (Input × List (Str × Str))) with
    | .ok q => some q.2
    | _ => none
  | _ => none

example : drawAndRemove sampleDb {} { r := true } sampleDesign [lit "  a b\n", lit " cd\n"] 100 = some [(lit "  a b", [0x0a]), (lit " cd", [0x0a])] := by
  decide +kernel

/-- An empty line within the text comes back as a line of blanks (what is inside of the box, without the padding on the left).  So `C71_identity` needs that no line is empty. -/
theorem C71_empty_line_disagrees :
    drawAndRemove sampleDb {} { r := true } sampleDesign [lit "ab\n", lit "\n", lit "cd\n"] 100 ≠
      some [(lit "ab", [0x0a]), (lit "", [0x0a]), (lit "cd", [0x0a])] ∧
    drawAndRemove sampleDb {} { r := true } sampleDesign [lit "ab\n", lit "\n", lit "cd\n"] 100 =
      some [(lit "ab", [0x0a]), (lit "     ", [0x0a]), (lit "cd", [0x0a])] := by
  decide +kernel

/-- a design with a margin: its left side begins with a blank in every row -/
def marginDesign : Design where
  indentmode := 'b'
  shape := fun
    | .NW => mkShape .NW [" *"]
    | .N => mkShape .N ["*"] true
    | .NE => mkShape .NE ["*"]
    | .E => mkShape .E ["*"] true
    | .SE => mkShape .SE ["*"]
    | .S => mkShape .S ["*"] true
    | .SW => mkShape .SW [" *"]
    | .W => mkShape .W [" *"] true
    | n => { emptyShape with name := n }
  minwidth := 4
  minheight := 3
  padding := ⟨0, 1, 0, 1⟩

/-- The margin of a design is mistaken for the indentation of the box: the text comes back indented by it.  So `Restorable` needs `flush`. -/
theorem C71_margin_disagrees :
    drawAndRemove sampleDb {} { r := true } marginDesign [lit "ab\n"] 100 = some [(lit " ab", [0x0a])] := by
  decide +kernel

/-- With the indentation mode `none`, the common indentation of the text is lost (as documented): `C71_identity` needs `hmode`. -/
theorem C71_mode_none_loses :
    drawAndRemove sampleDb {} { r := true } { sampleDesign with indentmode := 'n' } [lit "  a b\n", lit " cd\n"] 100 =
      some [(lit " a b", [0x0a]), (lit "cd", [0x0a])] := by
  decide +kernel

theorem sample_plain : ∀ p ∈ [(lit "  a b", [0x0a]), (lit " cd", [0x0a])], PlainLine sampleDb p.1 ∧ p.1 ≠ [] := by
  intro p hp
  simp only [List.mem_cons, List.not_mem_nil, or_false] at hp
  rcases hp with rfl | rfl
  · refine ⟨⟨?_, .inr ?_, ?_, by decide⟩, by decide⟩
    · unfold Forbidden Blank; decide +kernel
    · exact ⟨0x61, by decide, by unfold Blank; decide +kernel, by decide, by decide +kernel⟩
    · decide +kernel
  · refine ⟨⟨?_, .inr ?_, ?_, by decide⟩, by decide⟩
    · unfold Forbidden Blank; decide +kernel
    · exact ⟨0x63, by decide, by unfold Blank; decide +kernel, by decide, by decide +kernel⟩
    · decide +kernel

theorem plain_drawing : PlainDrawing {} := ⟨rfl, by decide, rfl, by decide, rfl, by decide, .inl rfl⟩
theorem plain_removing : PlainRemoving { r := true } := ⟨rfl, by decide, rfl, by decide, by decide⟩

/-- the hypotheses of `C71_identity` hold of a box drawn with the sample design -/
example {r : Res (List (Bxs × Str))} (h : drawOnce sampleDb {} sampleDesign [] 0 [lit "  a b\n", lit " cd\n"] 100 = some r) :
    ∃ out, r = .ok out ∧ ((∀ p ∈ out, p.1.memory.length < 16370) → ∃ raw i j,
        readAllInput sampleDb { r := true } 0 (out.map (fun p => p.1.memory ++ p.2)) = .ok raw ∧
        analyzeInput sampleDb { r := true } sampleDesign [] raw = .ok i ∧
        handleRemoveBox sampleDb { r := true } (adjustSizeAndPadding { r := true } sampleDesign i) [] i =
          .ok (j, [(lit "  a b", [0x0a]), (lit " cd", [0x0a])]) ∧ LeftTexts sampleDb j [(lit "  a b", [0x0a]), (lit " cd", [0x0a])] ∧
        (j.finalNewline = true ↔ EndsInBreak [lit "  a b\n", lit " cd\n"])) :=
  C71_identity sampleDb sampleDb_sane sampleDb_breaks {} { r := true } plain_drawing plain_removing sampleDesign sampleDesign
    sampleDesign_restorable sampleDesign_good rfl rfl (.inr ⟨rfl, .inr rfl⟩) (by decide) 0 0 _ sample_plain (by decide)
    (by
      intro x p h
      match x with
      | 0 => simp at h; subst h; exact .inl rfl
      | 1 => simp at h; subst h; exact .inl rfl
      | x + 2 => simp at h) (.inl rfl) 100 h

end Boxes
