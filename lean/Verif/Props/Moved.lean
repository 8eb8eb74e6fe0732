import Verif.Lemmas.Moved

set_option linter.unusedSimpArgs false

namespace Boxes
open Boxes.Spec ShapeName

/-- C98: The same text with `k` spaces in front of every line is drawn in the same box, which is moved by `k` columns if boxes are indented, and which stays where it is if
indentation is dropped. -/
theorem C98_moved_box (db : CharDb) (hdb : Sane db) (hsp : db.white 0x20 = true) (opt : Opt) (hr : opt.r = false) (ht : 1 ≤ opt.tabstop) (d : Design)
    (hmode : d.indentmode ≠ 't') (hd : GoodDesign db d) (junk junk' k : Nat)
    (hexp : d.indentmode = 'b' → opt.tabexp ≠ 'k' ∧ (opt.tabexp = 'u' → opt.tabstop ∣ k)) (pieces : List Str) (hp : ∀ s ∈ pieces, Readable db opt.tabstop s) (hp' : ∀ s ∈ pieces, Readable db opt.tabstop (spaces k ++ s))
    (htabs : ∀ s ∈ pieces, TabsFirst s ∧ (opt.tabstop ∣ k ∨ 0x09 ∉ s)) (hfill : ∀ s ∈ pieces, Filled db s ∨ AllWhite db s) (hsome : ∃ s ∈ pieces, Filled db s)
    (fuel : Nat) {r : Res (List (Bxs × Str))} (h : drawOnce db opt d [] junk pieces fuel = some r) :
    ∃ out out' e, r = .ok out ∧ drawOnce db opt d [] junk' (pieces.map (spaces k ++ ·)) fuel = some (.ok out') ∧ out'.length = out.length ∧ pieces.length ≤ out.length ∧
      (e = opt.eol ∨ e = []) ∧
      ∀ (t : Nat) p p', out[t]? = some p → out'[t]? = some p' → Moved (movedBy d.indentmode opt.tabexp opt.tabstop k) p.1.memory p'.1.memory ∧
        p.2 = (if t + 1 = out.length then e else opt.eol) ∧ p'.2 = p.2 ∧
        fromUnicode db p.1.memory = some p.1 ∧ fromUnicode db p'.1.memory = some p'.1 := by
  obtain ⟨s0, hs0, hf0⟩ := hsome
  have hne : pieces ≠ [] := List.ne_nil_of_mem hs0
  have hne' : pieces.map (spaces k ++ ·) ≠ [] := by simpa using hne
  have hlen' : (pieces.map (spaces k ++ ·)).length = pieces.length := by simp
  have hend := break_moved k pieces
  have hpm : ∀ s ∈ pieces.map (spaces k ++ ·), Readable db opt.tabstop s := by
    intro s hs
    obtain ⟨s1, h1, rfl⟩ := List.mem_map.1 hs
    exact hp' s1 h1
  obtain ⟨j, us, ls, a1, a2, a3, a4, a5, a6, a7, a8, a9, a10⟩ := draw_input db hdb opt hr ht d junk pieces hp hne fuel
  obtain ⟨j', us', ls', b1, b2, b3, b4, b5, b6, b7, b8, b9, b10⟩ := draw_input db hdb opt hr ht d junk' _ hpm hne' fuel
  have hget : ∀ {i : Nat}, i < pieces.length → ∃ s, pieces[i]? = some s ∧ (pieces.map (spaces k ++ ·))[i]? = some (spaces k ++ s) := by
    intro i hi
    exact ⟨_, List.getElem?_eq_getElem hi, by rw [List.getElem?_map, List.getElem?_eq_getElem hi]; rfl⟩
  -- the texts
  have hread : ∀ (x : Nat) s, pieces[x]? = some s → ∃ u p u' p', us[x]? = some u ∧ us'[x]? = some u' ∧ ls[x]? = some p ∧ ls'[x]? = some p' ∧
      u'.2 = moved k u.2 ∧ (u.2 ≠ [] → 0 < columns db u.2) ∧ (Filled db s → u.2 ≠ []) ∧ Unindented db j.indent u p ∧ Unindented db j'.indent u' p' ∧ u'.2.length < 16382 := by
    intro x s e1
    have e2 : (pieces.map (spaces k ++ ·))[x]? = some (spaces k ++ s) := by rw [List.getElem?_map, e1]; rfl
    obtain ⟨u, p, q, z, y, g1, g0, g7, g2, g3, g4, g5, g6⟩ := a10 x s e1
    obtain ⟨u', p', q', z', y', k1, k0, k7, k2, k3, k4, k5, k6⟩ := b10 x _ e2
    have hs := List.mem_of_getElem? e1
    obtain ⟨c1, c2, c3⟩ := read_moved hsp (htabs s hs).2 (htabs s hs).1 (hfill s hs) g2 g3 g4 g5 g6 (a8 u (List.mem_of_getElem? g1)).1 k2 k3 k4 k5 k6 (b8 u' (List.mem_of_getElem? k1)).1
    rw [if_neg hmode] at g7 k7
    refine ⟨u, p, u', p', g1, k1, g0, k0, c1, c2, c3, g7, k7, ?_⟩
    obtain ⟨v, t, -, -, h5, h6⟩ := hp' s hs
    rw [k2] at h5
    have := expand_length h5 k6
    have := text_length (b8 u' (List.mem_of_getElem? k1)).1
    omega
  have hus : us'.map Prod.snd = (us.map Prod.snd).map (moved k) := by
    apply List.ext_getElem?
    intro x
    rw [List.getElem?_map, List.getElem?_map, List.getElem?_map]
    by_cases hx : x < pieces.length
    · obtain ⟨u, p, u', p', g1, g2, -, -, g3, -⟩ := hread x _ (List.getElem?_eq_getElem hx)
      rw [g1, g2]
      simp [g3]
    · rw [List.getElem?_eq_none (by omega), List.getElem?_eq_none (by omega)]
      rfl
  have hfind : ∀ v ∈ us.map Prod.snd, (v ≠ [] → 0 < columns db v) ∧ (moved k v).length < 16382 := by
    intro v hv
    obtain ⟨u, hu, rfl⟩ := List.mem_map.1 hv
    obtain ⟨x, hx⟩ := List.getElem?_of_mem hu
    have hlt := (List.getElem?_eq_some_iff.1 hx).1
    obtain ⟨u1, p, u', p', g1, g2, -, -, g3, g4, -, -, -, g5⟩ := hread x _ (List.getElem?_eq_getElem (by omega))
    obtain rfl : u = u1 := by rw [hx] at g1; exact Option.some.inj g1
    rw [g3] at g5
    exact ⟨g4, g5⟩
  have hind : j'.indent = j.indent + k := by
    rw [hus] at b2
    refine leastIndent_moved hdb (fun v hv => (hfind v hv).1) ?_ a2 b2 (fun v hv => (hfind v hv).2)
    obtain ⟨x, hx⟩ := List.getElem?_of_mem hs0
    obtain ⟨u, p, u', p', g1, -, -, -, -, -, g2, -⟩ := hread x s0 hx
    exact ⟨u.2, List.mem_map.2 ⟨u, List.mem_of_getElem? g1, rfl⟩, g2 hf0⟩
  have hls : ls.map Prod.snd = ls'.map Prod.snd := by
    apply List.ext_getElem?
    intro x
    rw [List.getElem?_map, List.getElem?_map]
    by_cases hx : x < pieces.length
    · obtain ⟨u, p, u', p', -, -, g1, g2, g3, g4, -, g5, g6, -⟩ := hread x _ (List.getElem?_eq_getElem hx)
      rw [g1, g2]
      simp only [Option.map_some, Option.some.injEq]
      rw [hind] at g6
      exact unindented_moved g3 g4 g5 g6
    · rw [List.getElem?_eq_none (by omega), List.getElem?_eq_none (by omega)]
  have hmax : j'.maxline = j.maxline := by
    have key : ∀ {la lb : List (Str × Str)} {ma mb : Nat}, la.map Prod.snd = lb.map Prod.snd → (∃ p ∈ la, columns db p.2 = ma) →
        (∀ p ∈ lb, columns db p.2 ≤ mb) → ma ≤ mb := by
      rintro la lb ma mb e ⟨p, h1, rfl⟩ h2
      have : p.2 ∈ lb.map Prod.snd := by rw [← e]; exact List.mem_map.2 ⟨p, h1, rfl⟩
      obtain ⟨q, h3, h4⟩ := List.mem_map.1 this
      rw [← h4]; exact h2 q h3
    exact Nat.le_antisymm (key hls.symm b3 a5.fits) (key hls a3 b5.fits)
  -- the box is the same
  obtain ⟨e1, e2⟩ := same_box (db := db) (opt := opt) (d := d) hmax (by omega : j'.lines.length = j.lines.length) fuel
  rw [a1] at h
  unfold handleGenerateBox at h
  rw [Option.map_eq_some_iff] at h
  obtain ⟨q, hq, rfl⟩ := h
  obtain ⟨box, rfl, c1, c2⟩ := C20_room db opt d hd j fuel hq
  have hgd := (C20_adjusted_design db opt d hd j).2
  have hmd : (adjustSizeAndPadding opt d j).indentmode = d.indentmode := (C21_padding opt d j).2.2.2
  rw [e1] at b5
  obtain ⟨out, above, below, lp, rp, s, e, o1, o2, o3, o4, o5, o6, o7, o8, o9⟩ := C16_box db hdb opt _ j ls box hgd c1 a5 (by rw [a6, ← a7]; exact c2)
  obtain ⟨out', above', below', lp', rp', s', e', q1, q2, q3, q4, q5, q6, q7, q8, q9⟩ := C16_box db hdb opt _ j' ls' box hgd c1 b5
    (by rw [b6, hlen', ← a7, hmax]; exact c2)
  have hll : ls'.length = ls.length := by omega
  rw [hll] at q2 q3
  rw [hmax] at q4 q5
  obtain rfl : above' = above := by rw [q2, o2]
  obtain rfl : below' = below := by omega
  obtain rfl : lp' = lp := by rw [q4, o4]
  obtain rfl : rp' = rp := by omega
  have hs : s' = s := by
    by_cases hb : BlankSide db (adjustSizeAndPadding opt d j) [NW, NNW, N, NNE, NE]
    · rw [o6.1 hb, q6.1 hb]
    · rw [o6.2 hb, q6.2 hb]
  have he : e' = e := by
    by_cases hb : BlankSide db (adjustSizeAndPadding opt d j) [SE, SSE, S, SSW, SW]
    · rw [o7.1 hb, q7.1 hb]
    · rw [o7.2 hb, q7.2 hb]
  subst hs he
  have hfin : j'.finalNewline = j.finalNewline := by
    rw [Bool.eq_iff_iff, b9, a9, hend]
  refine ⟨out, out', if j.finalNewline = true then opt.eol else [], by rw [Res.ok_bind]; exact o1, ?_, by omega, ?_, ?_, ?_⟩
  · rw [b1, e1]
    unfold handleGenerateBox
    rw [e2, hq, Option.map_some, Res.ok_bind, q1]
  · have hs : s' ≤ box.top.height := by
      by_cases hb : BlankSide db (adjustSizeAndPadding opt d j) [NW, NNW, N, NNE, NE]
      · rw [o6.1 hb]; exact Nat.le_refl _
      · rw [o6.2 hb]; exact Nat.zero_le _
    have he : e' ≤ box.bottom.height := by
      by_cases hb : BlankSide db (adjustSizeAndPadding opt d j) [SE, SSE, S, SSW, SW]
      · rw [o7.1 hb]; exact Nat.le_refl _
      · rw [o7.2 hb]; exact Nat.zero_le _
    omega
  · split
    · exact .inl rfl
    · exact .inr rfl
  · intro t p p' ht1 ht2
    have hlt := (List.getElem?_eq_some_iff.1 ht1).1
    obtain ⟨row, n, m, x, g1, g2, g3, g4, g5⟩ := o9 t hlt
    obtain ⟨row', n', m', x', k1, k2, k3, k4, k5⟩ := q9 t (by omega)
    rw [ht1] at g5; rw [ht2] at k5
    obtain rfl := Option.some.inj g5
    obtain rfl := Option.some.inj k5
    have hm := rowAt_same (i' := { j' with indent := j.indent }) hls hmax rfl o3 c1 g1 (rowAt_indent (by rw [hmd]; exact hmode) j.indent k1)
    have hrow := row_moved ht (by rw [hmd]; exact hexp) hind c1 (by omega) hm g2 k2
    rw [hmd] at hrow
    obtain ⟨r1, -, r2, r3⟩ := rtrim_moved hdb movedBy_blank hrow g3 k3 g4 k4
    refine ⟨r1, ?_, ?_, r2, r3⟩
    · simp only
      by_cases hl : t + 1 = out.length <;> simp [hl]
    · simp only [hfin]
      rw [show out'.length = out.length by omega]

/-- C98, for the complete program: `mode` is the indentation mode of the box, from the command line or from the design.  In mode `b` (box), every printed line is moved by the
`k` columns by which the text has been moved, with spaces or, if asked for, with tabs; in mode `n` (none), the same is printed. -/
theorem C98_program (m : Machine) (hdb : Sane m.db) (hsp : m.db.white 0x20 = true) (c : CommandLine) (fuel : Nat) (hfirst : c.first ≠ some (lit "-?")) {a : Args}
    (hopts : optionLoop c.options createNewOpt = some (a, false)) (hfiles : UsableFiles m.canRead m.canWrite c.files)
    (hlist : .list ∉ c.options) (hq : ∀ s, .query s ∉ c.options) (hrm : .remove ∉ c.options) (hmend : .mend ∉ c.options)
    (hcr : ∀ s, .create s ∉ c.options)
    {file : Bxs} {d : DesignDef} {ds : List DesignDef} {ps : List Bxs} (h : Loaded m a fuel file d ds ps)
    (hesc : ∀ f decls, m.contents f = some decls → WellEscaped decls) (hrules : d.reprules = [])
    {mode : Char} (hmode : mode = if a.opt.indentmode = '\x00' then d.core.indentmode else a.opt.indentmode) (hnt : mode ≠ 't')
    (k : Nat) (hexp : mode = 'b' → a.opt.tabexp ≠ 'k' ∧ (a.opt.tabexp = 'u' → a.opt.tabstop ∣ k)) {pieces : List Str} (hin : m.input (named c.files 0) = pieces)
    (hp : ∀ s ∈ pieces, Readable m.db a.opt.tabstop s) (hp' : ∀ s ∈ pieces, Readable m.db a.opt.tabstop (spaces k ++ s))
    (htabs : ∀ s ∈ pieces, TabsFirst s ∧ (a.opt.tabstop ∣ k ∨ 0x09 ∉ s)) (hfill : ∀ s ∈ pieces, Filled m.db s ∨ AllWhite m.db s) (hsome : ∃ s ∈ pieces, Filled m.db s)
    {r : Res Outcome} (hrun : wholeProgram m c fuel = some r) :
    ∃ lines lines' e, (e = a.opt.eol ∨ e = []) ∧ r = .ok (.output (named c.files 1) (printedLines a.opt.eol e lines)) ∧
      wholeProgram { m with input := fun f => (m.input f).map (spaces k ++ ·) } c fuel = some (.ok (.output (named c.files 1) (printedLines a.opt.eol e lines'))) ∧
      pieces.length ≤ lines.length ∧ lines'.length = lines.length ∧
      ∀ (t : Nat) l l', lines[t]? = some l → lines'[t]? = some l' → Moved (movedBy mode a.opt.tabexp a.opt.tabstop k) l l' ∧
        (colours c.options m.terminalColors = false → l' = movedBy mode a.opt.tabexp a.opt.tabstop k ++ l) := by
  subst hin
  cases fuel with
  | zero =>
    have := h.designs
    simp [parseConfigFiles, mergeLoop] at this
  | succ n =>
  have hl' : Loaded { m with input := fun f => (m.input f).map (spaces k ++ ·) } a (n + 1) file d ds ps := ⟨h.found, h.designs⟩
  obtain ⟨hr, w1⟩ := whole_draws m c n hfirst hopts hfiles hlist hq hrm hmend hcr h hrules
  obtain ⟨-, w2⟩ := whole_draws { m with input := fun f => (m.input f).map (spaces k ++ ·) } c n hfirst hopts hfiles hlist hq hrm hmend hcr hl' hrules
  have hgood := (C20_adjusted_design m.db a.opt _ (loaded_good m hdb (n + 1) h hesc d List.mem_cons_self) {}).1
  have ht := (C37_range c.options a hopts).1
  rw [← prepared_mode] at hmode
  subst hmode
  rw [w1] at hrun
  cases hd : drawOnce m.db a.opt (prepareDesign a.opt d.core) [] m.junk (m.input (named c.files 0)) (n + 1) with
  | none => simp [hd] at hrun
  | some x =>
    obtain ⟨out, out', e, rfl, g1, g2, g4, g5, g3⟩ := C98_moved_box m.db hdb hsp a.opt hr ht _ hnt hgood m.junk m.junk k hexp _ hp hp' htabs hfill hsome (n + 1) hd
    obtain ⟨lines, lines', t1, t2, t3, t4, t5⟩ := render_moved (colours c.options m.terminalColors) a.opt.eol e movedBy_blank out out' g2 g3
    refine ⟨lines, lines', e, g5, ?_, ?_, by omega, by omega, t5⟩
    · simp only [hd, Option.map_some, Res.ok_bind, t1, Option.some.injEq] at hrun
      exact hrun.symm
    · rw [w2]
      simp only [g1, Option.map_some, Res.ok_bind, t2]

/-- C98, for a terminal without colours: what is printed in mode `b` is what was printed with `k` spaces, or as many tabs, in front of every line; in mode `n`, it is what was printed. -/
theorem C98_plain (m : Machine) (hdb : Sane m.db) (hsp : m.db.white 0x20 = true) (c : CommandLine) (fuel : Nat) (hfirst : c.first ≠ some (lit "-?")) {a : Args}
    (hopts : optionLoop c.options createNewOpt = some (a, false)) (hfiles : UsableFiles m.canRead m.canWrite c.files)
    (hlist : .list ∉ c.options) (hq : ∀ s, .query s ∉ c.options) (hrm : .remove ∉ c.options) (hmend : .mend ∉ c.options)
    (hcr : ∀ s, .create s ∉ c.options) (hcol : colours c.options m.terminalColors = false)
    {file : Bxs} {d : DesignDef} {ds : List DesignDef} {ps : List Bxs} (h : Loaded m a fuel file d ds ps)
    (hesc : ∀ f decls, m.contents f = some decls → WellEscaped decls) (hrules : d.reprules = [])
    {mode : Char} (hmode : mode = if a.opt.indentmode = '\x00' then d.core.indentmode else a.opt.indentmode) (hnt : mode ≠ 't')
    (k : Nat) (hexp : mode = 'b' → a.opt.tabexp ≠ 'k' ∧ (a.opt.tabexp = 'u' → a.opt.tabstop ∣ k)) {pieces : List Str} (hin : m.input (named c.files 0) = pieces)
    (hp : ∀ s ∈ pieces, Readable m.db a.opt.tabstop s) (hp' : ∀ s ∈ pieces, Readable m.db a.opt.tabstop (spaces k ++ s))
    (htabs : ∀ s ∈ pieces, TabsFirst s ∧ (a.opt.tabstop ∣ k ∨ 0x09 ∉ s)) (hfill : ∀ s ∈ pieces, Filled m.db s ∨ AllWhite m.db s) (hsome : ∃ s ∈ pieces, Filled m.db s)
    {r : Res Outcome} (hrun : wholeProgram m c fuel = some r) :
    ∃ lines e, (e = a.opt.eol ∨ e = []) ∧ pieces.length ≤ lines.length ∧ r = .ok (.output (named c.files 1) (printedLines a.opt.eol e lines)) ∧
      (mode = 'b' → a.opt.tabexp ≠ 'u' → wholeProgram { m with input := fun f => (m.input f).map (spaces k ++ ·) } c fuel =
        some (.ok (.output (named c.files 1) (printedLines a.opt.eol e (lines.map (spaces k ++ ·)))))) ∧
      (mode = 'b' → a.opt.tabexp = 'u' → wholeProgram { m with input := fun f => (m.input f).map (spaces k ++ ·) } c fuel =
        some (.ok (.output (named c.files 1) (printedLines a.opt.eol e (lines.map (List.replicate (k / a.opt.tabstop) 0x09 ++ ·)))))) ∧
      (mode ≠ 'b' → wholeProgram { m with input := fun f => (m.input f).map (spaces k ++ ·) } c fuel = some r) := by
  obtain ⟨lines, lines', e, h1, h2, h3, h4, h5, h6⟩ := C98_program m hdb hsp c fuel hfirst hopts hfiles hlist hq hrm hmend hcr h hesc hrules hmode hnt k hexp hin hp hp' htabs hfill hsome hrun
  have hl : lines' = lines.map (movedBy mode a.opt.tabexp a.opt.tabstop k ++ ·) := by
    apply List.ext_getElem?
    intro t
    rw [List.getElem?_map]
    by_cases ht : t < lines.length
    · rw [List.getElem?_eq_getElem ht, List.getElem?_eq_getElem (by omega : t < lines'.length), Option.map_some]
      exact congrArg some ((h6 t _ _ (List.getElem?_eq_getElem ht) (List.getElem?_eq_getElem (by omega))).2 hcol)
    · rw [List.getElem?_eq_none (by omega), List.getElem?_eq_none (by omega)]
      rfl
  refine ⟨lines, e, h1, h4, h2, fun hb hu => ?_, fun hb hu => ?_, fun hb => ?_⟩
  · have e : movedBy mode a.opt.tabexp a.opt.tabstop k = spaces k := by simp [movedBy, hb, hu]
    rw [e] at hl
    rw [h3, hl]
  · have e : movedBy mode a.opt.tabexp a.opt.tabstop k = List.replicate (k / a.opt.tabstop) 0x09 := by simp [movedBy, hb, hu]
    rw [e] at hl
    rw [h3, hl]
  · have e : movedBy mode a.opt.tabexp a.opt.tabstop k = [] := by simp [movedBy, hb]
    rw [e] at hl
    have : lines.map (([] : Str) ++ ·) = lines := by simp
    rw [h3, hl, this, h2]

/-! ## Examples -/

/-- the lines of the examples: a tab, colours, an empty line -/
theorem tinted_filled : ∀ s ∈ tintedPieces ++ [lit " \n"], Readable sampleDb 8 s ∧ Readable sampleDb 8 (spaces 8 ++ s) ∧ TabsFirst s ∧ (Filled sampleDb s ∨ AllWhite sampleDb s) := by
  intro s hs
  rcases List.mem_append.1 hs with hs | hs
  · obtain ⟨i, hi⟩ := List.getElem?_of_mem hs
    obtain ⟨s0, s', t, t', v, h1, h2, h3, h4, h5, h6, h7, h8, h9, h10⟩ := tinted_texts i (List.getElem?_eq_some_iff.1 hi).1
    obtain rfl : s0 = s := by simpa [hi] using h1.symm
    obtain ⟨s2, hs2⟩ : ∃ s2, untintedPieces[i]? = some s2 := ⟨_, h2⟩
    have hlen : t.length < 16000 := by
      have hb : ∀ s ∈ tintedPieces, (s.length + 7 * (s.filter (· = 0x09)).length) < 16000 := by decide
      have key : ∀ {col : Nat} {s t : Str}, Expand 8 col s t → t.length ≤ s.length + 7 * (s.filter (· = 0x09)).length := by
        intro col s t h
        induction h with
        | nil => simp
        | char c hc h ih => simp [hc]; omega
        | tab n a1 a2 a3 h ih => simp; omega
      have := hb s0 hs
      have := key h6
      omega
    refine ⟨⟨v, t, h3, h5, h6, h7⟩, ⟨spaces 8 ++ v, spaces 8 ++ t, (Text.plain (by decide)).append h3, ⟨?_, ?_⟩, expand_behind (.inl (by decide)) h6, ?_⟩,
      (tinted_same i s0 s' hi h2).2.1, .inl ⟨v, h3, ?_⟩⟩
    · intro c hc
      rcases List.mem_append.1 hc with hc | hc
      · have : ∀ c ∈ spaces 8, ¬ Forbidden sampleDb c := by decide
        exact this c hc
      · exact h5.1 c hc
    · intro c hc hb
      rcases List.mem_append.1 hc with hc | hc
      · have : ∀ c ∈ spaces 8, Spec.width sampleDb c = 1 := by decide
        exact this c hc
      · exact h5.2 c hc hb
    · simp [spaces]; omega
    · have hu : ∀ s ∈ untintedPieces, (∀ c ∈ s, c ≠ 0x1b) ∧ ∃ c ∈ s, sampleDb.white c = false ∧ 0 < Spec.width sampleDb c := by decide
      obtain ⟨u1, u2⟩ := hu s' (List.mem_of_getElem? h2)
      rw [h4.unique (.plain u1)]
      exact u2
  · obtain rfl : s = lit " \n" := by simpa using hs
    refine ⟨⟨_, _, .plain (by decide), ⟨by decide, by unfold NarrowBlanks; decide⟩, expand_plain _ _ _ (by decide), by decide⟩,
      ⟨_, _, .plain (by decide), ⟨by decide, by unfold NarrowBlanks; decide⟩, expand_plain _ _ _ (by decide), by decide⟩, ?_, .inr ⟨_, .plain (by decide), by decide⟩⟩
    intro a b hab
    exact absurd (show 0x09 ∈ lit " \n" by rw [hab]; simp) (by decide)

/-- a box around coloured text with a tab and a blank line: each of its rows is moved by 8 columns -/
example : ∃ out out', drawOnce sampleDb {} sampleDesign [] 0 (tintedPieces ++ [lit " \n"]) 50 = some (.ok out) ∧
    drawOnce sampleDb {} sampleDesign [] 0 ((tintedPieces ++ [lit " \n"]).map (spaces 8 ++ ·)) 50 = some (.ok out') ∧
    out'.length = out.length ∧ 3 ≤ out.length ∧ ∀ (t : Nat) p p', out[t]? = some p → out'[t]? = some p' → Moved (spaces 8) p.1.memory p'.1.memory := by
  cases hd : drawOnce sampleDb {} sampleDesign [] 0 (tintedPieces ++ [lit " \n"]) 50 with
  | none => exact absurd hd (by decide +kernel)
  | some r =>
    have h0 := tinted_filled (lit "\tif\x1b[31m x\x1b[0m\n") (by decide)
    obtain ⟨out, out', e, rfl, h1, h2, h3, -, h4⟩ := C98_moved_box sampleDb sampleDb_sane rfl {} rfl (by decide) sampleDesign (by decide) sampleDesign_good 0 0 8 (by decide) (tintedPieces ++ [lit " \n"])
      (fun s hs => (tinted_filled s hs).1) (fun s hs => (tinted_filled s hs).2.1) (fun s hs => ⟨(tinted_filled s hs).2.2.1, .inl (by decide)⟩) (fun s hs => (tinted_filled s hs).2.2.2)
      ⟨lit "\tif\x1b[31m x\x1b[0m\n", by decide, by
        refine h0.2.2.2.resolve_right ?_
        rintro ⟨v, hv, hw⟩
        obtain ⟨s0, s', t, t', v', h1, h2, h3, h4, -⟩ := tinted_texts 0 (by decide)
        obtain rfl : s0 = lit "\tif\x1b[31m x\x1b[0m\n" := (Option.some.inj h1).symm
        obtain rfl : s' = lit "\tif x\n" := (Option.some.inj h2).symm
        obtain rfl := hv.unique h3
        obtain rfl := h4.unique (.plain (by decide))
        exact absurd hw (by decide)⟩ 50 hd
    refine ⟨out, out', rfl, h1, h2, h3, fun t p p' hp hp' => ?_⟩
    have := (h4 t p p' hp hp').1
    rwa [show movedBy sampleDesign.indentmode ({} : Opt).tabexp ({} : Opt).tabstop 8 = spaces 8 by decide] at this

/-- `boxes -d fr` for a text and for the text moved by three columns -/
example : ∃ lines, wholeProgram sampleMachine { options := [.design (lit "fr")] } 20 = some (.ok (.output none (printedLines (lit "\n") (lit "\n") lines))) ∧
    wholeProgram { sampleMachine with input := fun f => (sampleMachine.input f).map (spaces 3 ++ ·) } { options := [.design (lit "fr")] } 20 =
      some (.ok (.output none (printedLines (lit "\n") (lit "\n") (lines.map (spaces 3 ++ ·))))) :=
  ⟨[lit "  +--*", lit "  |ab!", lit "  |c !", lit "  +==+"], by decide +kernel, by decide +kernel⟩

example (c : CommandLine) (hc : c = { options := [.design (lit "fr")] }) {r : Res Outcome} (h : wholeProgram sampleMachine c 20 = some r) :
    ∃ lines e, r = .ok (.output none (printedLines (lit "\n") e lines)) ∧
      wholeProgram { sampleMachine with input := fun f => (sampleMachine.input f).map (spaces 3 ++ ·) } c 20 = some (.ok (.output none (printedLines (lit "\n") e (lines.map (spaces 3 ++ ·))))) := by
  subst hc
  have hr : ∀ s ∈ [lit "  ab\n", lit "  c\n"], (∀ c ∈ s, c ≠ 0x1b ∧ c ≠ 0x09 ∧ ¬ Forbidden sampleDb c ∧ (Blank sampleDb c → Spec.width sampleDb c = 1)) ∧ s.length < 100 ∧
      ∃ c ∈ s, sampleDb.white c = false ∧ 0 < Spec.width sampleDb c := by decide
  have hr' : ∀ s ∈ [lit "  ab\n", lit "  c\n"], (∀ c ∈ spaces 3 ++ s, c ≠ 0x1b ∧ c ≠ 0x09 ∧ ¬ Forbidden sampleDb c ∧ (Blank sampleDb c → Spec.width sampleDb c = 1)) ∧
      (spaces 3 ++ s).length < 100 := by decide
  have key : ∀ s, (∀ c ∈ s, c ≠ 0x1b ∧ c ≠ 0x09 ∧ ¬ Forbidden sampleDb c ∧ (Blank sampleDb c → Spec.width sampleDb c = 1)) → s.length < 100 → Readable sampleDb 8 s := by
    intro s h1 h2
    exact ⟨s, s, .plain fun c hc => (h1 c hc).1, ⟨fun c hc => (h1 c hc).2.2.1, fun c hc => (h1 c hc).2.2.2⟩, expand_plain _ _ _ (fun c hc => (h1 c hc).2.1), by omega⟩
  have hfl : ∀ s ∈ [lit "  ab\n", lit "  c\n"], Filled sampleDb s := fun s hs => ⟨s, .plain fun c hc => ((hr s hs).1 c hc).1, (hr s hs).2.2⟩
  obtain ⟨lines, e, -, -, h1, h2, -⟩ := C98_plain sampleMachine sampleDb_sane rfl { options := [.design (lit "fr")] } 20 (by decide) (a := frArgs) rfl
    ⟨by simp, by simp, by simp⟩ (by simp) (by simp) (by simp) (by simp) (by simp) (by decide) (file := fileName "/h/.config/boxes/boxes-config") (d := frDesign) (ds := []) (ps := [])
    frDesign_loaded (by
      intro f decls hf
      simp only [sampleMachine] at hf
      split at hf
      · obtain rfl := Option.some.inj hf
        intro s hs
        have : ∀ s ∈ fileTexts [.box (lit "dots") [lit "dt"] minimalItems (lit "dots"), .box (lit "frame") [lit "fr"] frameItems (lit "frame")], ∀ c ∈ s, c ≠ 0x1b := by decide +kernel
        exact ⟨s, .plain (this s hs)⟩
      · simp at hf) (by decide +kernel) (mode := 'b') (by decide +kernel) (by decide) 3 (by decide) (pieces := [lit "  ab\n", lit "  c\n"]) (by decide)
    (fun s hs => key s (hr s hs).1 (hr s hs).2.1) (fun s hs => key _ (hr' s hs).1 (hr' s hs).2)
    (fun s hs => by
      have h9 : 0x09 ∉ s := fun h9 => ((hr s hs).1 _ h9).2.1 rfl
      exact ⟨fun a b hab => absurd (by rw [hab]; simp) h9, .inr h9⟩)
    (fun s hs => .inl (hfl s hs)) ⟨lit "  ab\n", by decide, hfl _ (by decide)⟩ h
  exact ⟨lines, e, h1, h2 rfl (by decide)⟩

/-- With `-t 2u`, a text that is moved by four columns moves its box by two tabs. -/
example : ∃ lines, wholeProgram sampleMachine { options := [.design (lit "fr"), .tabs (lit "2u")] } 20 = some (.ok (.output none (printedLines (lit "\n") (lit "\n") lines))) ∧
    wholeProgram { sampleMachine with input := fun f => (sampleMachine.input f).map (spaces 4 ++ ·) } { options := [.design (lit "fr"), .tabs (lit "2u")] } 20 =
      some (.ok (.output none (printedLines (lit "\n") (lit "\n") (lines.map ([0x09, 0x09] ++ ·))))) :=
  ⟨[lit "\t+--*", lit "\t|ab!", lit "\t|c !", lit "\t+==+"], by decide +kernel, by decide +kernel⟩

/-- In mode `n` (`-i none`) the box stays where it is. -/
example : wholeProgram sampleMachine { options := [.design (lit "fr"), .indent (lit "none")] } 20 = some (.ok (.output none (lit "+--*\n|ab!\n|c !\n+==+\n"))) ∧
    wholeProgram { sampleMachine with input := fun f => (sampleMachine.input f).map (spaces 3 ++ ·) } { options := [.design (lit "fr"), .indent (lit "none")] } 20 =
      some (.ok (.output none (lit "+--*\n|ab!\n|c !\n+==+\n"))) := by decide +kernel

/-- A text of blank lines has no indentation, so the box around it is not moved: one line must show something. -/
example : (drawOnce sampleDb {} starDesign [] 0 [lit "\n"] 50).map (fun r => (do let out ← r; renderBox false out : Res Str)) = some (.ok (lit "***\n* *\n***\n")) ∧
    (drawOnce sampleDb {} starDesign [] 0 [lit "   \n"] 50).map (fun r => (do let out ← r; renderBox false out : Res Str)) = some (.ok (lit "***\n* *\n***\n")) := by decide +kernel

end Boxes
