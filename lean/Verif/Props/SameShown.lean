import Verif.Lemmas.SameShown

set_option linter.unusedSimpArgs false

namespace Boxes
open Boxes.Spec ShapeName

/-- C81: two inputs that differ only in their escape sequences give boxes that differ only in their escape sequences -/
theorem C81_same_box (db : CharDb) (hdb : Sane db) (opt : Opt) (hr : opt.r = false) (ht : 1 ≤ opt.tabstop) (hk : opt.tabexp ≠ 'k') (d : Design)
    (hd : GoodDesign db d) (junk junk' : Nat) (pieces pieces' : List Str) (hp : ∀ s ∈ pieces, Readable db opt.tabstop s) (hp' : ∀ s ∈ pieces', Readable db opt.tabstop s)
    (hlen : pieces'.length = pieces.length)
    (hsame : ∀ (i : Nat) s s', pieces[i]? = some s → pieces'[i]? = some s' → ShowSame s s' ∧ TabsFirst s ∧ TabsFirst s')
    (hend : EndsInBreak pieces' ↔ EndsInBreak pieces) (fuel : Nat) {r : Res (List (Bxs × Str))} (h : drawOnce db opt d [] junk pieces fuel = some r) :
    ∃ out out', r = .ok out ∧ drawOnce db opt d [] junk' pieces' fuel = some (.ok out') ∧ out'.length = out.length ∧ pieces.length ≤ out.length ∧
      ∀ (t : Nat) p p', out[t]? = some p → out'[t]? = some p' → ShowSame p.1.memory p'.1.memory ∧ p'.2 = p.2 ∧ (p.2 = opt.eol ∨ p.2 = []) ∧
        fromUnicode db p.1.memory = some p.1 ∧ fromUnicode db p'.1.memory = some p'.1 := by
  by_cases hne : pieces = []
  · subst hne
    obtain rfl : pieces' = [] := List.eq_nil_of_length_eq_zero (by simpa using hlen)
    have hnil : ∀ junk, drawOnce db opt d [] junk [] fuel = some (.ok []) := by
      intro junk
      simp [drawOnce, readAllInput, readLines, analyzeInput, maxCols, Res.ok_bind]
    rw [hnil] at h
    exact ⟨[], [], (Option.some.inj h).symm, hnil junk', rfl, by simp, by simp⟩
  have hne' : pieces' ≠ [] := by
    intro h0; rw [h0] at hlen
    exact hne (List.eq_nil_of_length_eq_zero hlen.symm)
  obtain ⟨j, us, ls, a1, a2, a3, a4, a5, a6, a7, a8, a9, a10⟩ := draw_input db hdb opt hr ht d junk pieces hp hne fuel
  obtain ⟨j', us', ls', b1, b2, b3, b4, b5, b6, b7, b8, b9, b10⟩ := draw_input db hdb opt hr ht d junk' pieces' hp' hne' fuel
  have hget : ∀ {i : Nat}, i < pieces.length → ∃ s s', pieces[i]? = some s ∧ pieces'[i]? = some s' := by
    intro i hi
    exact ⟨_, _, List.getElem?_eq_getElem hi, List.getElem?_eq_getElem (by omega)⟩
  -- the texts show the same
  have hus : us.map Prod.snd = us'.map Prod.snd := by
    apply List.ext_getElem?
    intro x
    rw [List.getElem?_map, List.getElem?_map]
    by_cases hx : x < pieces.length
    · obtain ⟨s, s', e1, e2⟩ := hget hx
      obtain ⟨u, p, q, z, y, g1, -, -, g2, g3, g4, g5, g6⟩ := a10 x s e1
      obtain ⟨u', p', q', z', y', k1, -, -, k2, k3, k4, k5, k6⟩ := b10 x s' e2
      obtain ⟨c1, c2, c3⟩ := hsame x s s' e1 e2
      rw [g1, k1]
      simp only [Option.map_some, Option.some.injEq]
      exact read_same c1 c2 c3 g2 g3 g4 g5 g6 (a8 u (List.mem_of_getElem? g1)).1 k2 k3 k4 k5 k6 (b8 u' (List.mem_of_getElem? k1)).1
    · rw [List.getElem?_eq_none (by omega), List.getElem?_eq_none (by omega)]
  have hind : j'.indent = j.indent := by
    rw [← hus] at b2
    refine leastIndent_unique b2 a2 ?_
    intro v hv
    obtain ⟨u, hu, rfl⟩ := List.mem_map.1 hv
    obtain ⟨x, hx⟩ := List.getElem?_of_mem hu
    have hlt := (List.getElem?_eq_some_iff.1 hx).1
    obtain ⟨s, s', e1, -⟩ := hget (i := x) (by omega)
    obtain ⟨u1, p, q, z, y, g1, -, -, g2, -, -, -, g6⟩ := a10 x s e1
    obtain rfl : u = u1 := by rw [hx] at g1; exact Option.some.inj g1
    obtain ⟨v, t, -, -, h5, h6⟩ := hp s (List.mem_of_getElem? e1)
    subst g2
    have := expand_length h5 g6
    have := text_length (a8 u hu).1
    omega
  have hls : ls.map Prod.snd = ls'.map Prod.snd := by
    apply List.ext_getElem?
    intro x
    rw [List.getElem?_map, List.getElem?_map]
    by_cases hx : x < pieces.length
    · obtain ⟨s, s', e1, e2⟩ := hget hx
      obtain ⟨u, p, q, z, y, g1, g2, g3, -⟩ := a10 x s e1
      obtain ⟨u', p', q', z', y', k1, k2, k3, -⟩ := b10 x s' e2
      rw [g2, k2]
      simp only [Option.map_some, Option.some.injEq]
      rw [hind] at k3
      refine unindented_same (a8 u (List.mem_of_getElem? g1)).2.2 ?_ g3 k3
      have := congrArg (fun l => l[x]?) hus
      simpa [g1, k1] using this
    · rw [List.getElem?_eq_none (by omega), List.getElem?_eq_none (by omega)]
  have hmax : j'.maxline = j.maxline := by
    have key : ∀ {la lb : List (Str × Str)} {ma mb : Nat}, la.map Prod.snd = lb.map Prod.snd → (∃ p ∈ la, columns db p.2 = ma) →
        (∀ p ∈ lb, columns db p.2 ≤ mb) → ma ≤ mb := by
      rintro la lb ma mb e ⟨p, h1, rfl⟩ h2
      have : p.2 ∈ lb.map Prod.snd := by rw [← e]; exact List.mem_map.2 ⟨p, h1, rfl⟩
      obtain ⟨q, h3, h4⟩ := List.mem_map.1 this
      rw [← h4]; exact h2 q h3
    exact Nat.le_antisymm (key hls.symm b3 a5.fits) (key hls a3 b5.fits)
  -- the box is the same
  obtain ⟨e1, e2⟩ := same_box (db := db) (opt := opt) (d := d) hmax (by omega : j'.lines.length = j.lines.length) fuel
  rw [a1] at h
  unfold handleGenerateBox at h
  rw [Option.map_eq_some_iff] at h
  obtain ⟨q, hq, rfl⟩ := h
  obtain ⟨box, rfl, c1, c2⟩ := C20_room db opt d hd j fuel hq
  have hgd := (C20_adjusted_design db opt d hd j).2
  rw [e1] at b5
  obtain ⟨out, above, below, lp, rp, s, e, o1, o2, o3, o4, o5, o6, o7, o8, o9⟩ := C16_box db hdb opt _ j ls box hgd c1 a5 (by rw [a6, ← a7]; exact c2)
  obtain ⟨out', above', below', lp', rp', s', e', q1, q2, q3, q4, q5, q6, q7, q8, q9⟩ := C16_box db hdb opt _ j' ls' box hgd c1 b5
    (by rw [b6, hlen, ← a7, hmax]; exact c2)
  have hll : ls'.length = ls.length := by omega
  rw [hll] at q2 q3
  rw [hmax] at q4 q5
  obtain rfl : above' = above := by rw [q2, o2]
  obtain rfl : below' = below := by omega
  obtain rfl : lp' = lp := by rw [q4, o4]
  obtain rfl : rp' = rp := by omega
  have hs : s' = s := by
    by_cases hb : BlankSide db (adjustSizeAndPadding opt d j) [NW, NNW, N, NNE, NE]
    · rw [o6.1 hb, q6.1 hb]
    · rw [o6.2 hb, q6.2 hb]
  have he : e' = e := by
    by_cases hb : BlankSide db (adjustSizeAndPadding opt d j) [SE, SSE, S, SSW, SW]
    · rw [o7.1 hb, q7.1 hb]
    · rw [o7.2 hb, q7.2 hb]
  subst hs he
  have hfin : j'.finalNewline = j.finalNewline := by
    rw [Bool.eq_iff_iff, b9, a9, hend]
  refine ⟨out, out', by rw [Res.ok_bind]; exact o1, ?_, by omega, ?_, ?_⟩
  · rw [b1, e1]
    unfold handleGenerateBox
    rw [e2, hq, Option.map_some, Res.ok_bind, q1]
  · have hs : s' ≤ box.top.height := by
      by_cases hb : BlankSide db (adjustSizeAndPadding opt d j) [NW, NNW, N, NNE, NE]
      · rw [o6.1 hb]; exact Nat.le_refl _
      · rw [o6.2 hb]; exact Nat.zero_le _
    have he : e' ≤ box.bottom.height := by
      by_cases hb : BlankSide db (adjustSizeAndPadding opt d j) [SE, SSE, S, SSW, SW]
      · rw [o7.1 hb]; exact Nat.le_refl _
      · rw [o7.2 hb]; exact Nat.zero_le _
    omega
  · intro t p p' ht1 ht2
    have hlt := (List.getElem?_eq_some_iff.1 ht1).1
    obtain ⟨row, n, m, x, g1, g2, g3, g4, g5⟩ := o9 t hlt
    obtain ⟨row', n', m', x', k1, k2, k3, k4, k5⟩ := q9 t (by omega)
    rw [ht1] at g5; rw [ht2] at k5
    obtain rfl := Option.some.inj g5
    obtain rfl := Option.some.inj k5
    have hm := rowAt_same hls hmax hind o3 c1 g1 k1
    have hrow := row_same hk ht hind c1 (by omega) hm g2 k2
    obtain ⟨r1, r2, r3⟩ := rtrim_same hrow g3 k3 g4 k4
    refine ⟨r1, ?_, ?_, r2, r3⟩
    · simp only [hfin]
      rw [show out'.length = out.length by omega]
    · simp only
      split
      · exact .inl rfl
      · exact .inr rfl
/-- C81, for the complete program: two inputs that differ only in their escape sequences are given to the program with the same options and configuration.  What is printed for
them differs only in escape sequences, and not at all if no colours are used. -/
theorem C81_program (m : Machine) (hdb : Sane m.db) (c : CommandLine) (fuel : Nat) (hfirst : c.first ≠ some (lit "-?")) {a : Args}
    (hopts : optionLoop c.options createNewOpt = some (a, false)) (hfiles : UsableFiles m.canRead m.canWrite c.files)
    (hlist : .list ∉ c.options) (hq : ∀ s, .query s ∉ c.options) (hrm : .remove ∉ c.options) (hmend : .mend ∉ c.options)
    (hcr : ∀ s, .create s ∉ c.options) (hk : a.opt.tabexp ≠ 'k') (heol : 0x1b ∉ a.opt.eol)
    {file : Bxs} {d : DesignDef} {ds : List DesignDef} {ps : List Bxs} (h : Loaded m a fuel file d ds ps)
    (hesc : ∀ f decls, m.contents f = some decls → WellEscaped decls) (hrules : d.reprules = [])
    (input' : Option Str → List Str)
    (hp : ∀ s ∈ m.input (named c.files 0), Readable m.db a.opt.tabstop s) (hp' : ∀ s ∈ input' (named c.files 0), Readable m.db a.opt.tabstop s)
    (hlen : (input' (named c.files 0)).length = (m.input (named c.files 0)).length)
    (hsame : ∀ (i : Nat) s s', (m.input (named c.files 0))[i]? = some s → (input' (named c.files 0))[i]? = some s' → ShowSame s s' ∧ TabsFirst s ∧ TabsFirst s')
    (hend : EndsInBreak (input' (named c.files 0)) ↔ EndsInBreak (m.input (named c.files 0)))
    {r : Res Outcome} (hrun : wholeProgram m c fuel = some r) :
    ∃ text text', r = .ok (.output (named c.files 1) text) ∧ wholeProgram { m with input := input' } c fuel = some (.ok (.output (named c.files 1) text')) ∧
      ShowSame text text' ∧ (colours c.options m.terminalColors = false → text' = text) := by
  cases fuel with
  | zero =>
    have := h.designs
    simp [parseConfigFiles, mergeLoop] at this
  | succ n =>
  have hl' : Loaded { m with input := input' } a (n + 1) file d ds ps := ⟨h.found, h.designs⟩
  obtain ⟨hr, w1⟩ := whole_draws m c n hfirst hopts hfiles hlist hq hrm hmend hcr h hrules
  obtain ⟨-, w2⟩ := whole_draws { m with input := input' } c n hfirst hopts hfiles hlist hq hrm hmend hcr hl' hrules
  have hgood := (C20_adjusted_design m.db a.opt _ (loaded_good m hdb (n + 1) h hesc d List.mem_cons_self) {}).1
  have ht := (C37_range c.options a hopts).1
  rw [w1] at hrun
  cases hd : drawOnce m.db a.opt (prepareDesign a.opt d.core) [] m.junk (m.input (named c.files 0)) (n + 1) with
  | none => simp [hd] at hrun
  | some x =>
    obtain ⟨out, out', rfl, g1, g2, -, g3⟩ := C81_same_box m.db hdb a.opt hr ht hk _ hgood m.junk m.junk _ _ hp hp' hlen hsame hend (n + 1) hd
    obtain ⟨text, text', t1, t2, t3, t4⟩ := render_same (colours c.options m.terminalColors) out out' g2 (by
      intro t p p' e e'
      obtain ⟨q1, q2, q3, q4⟩ := g3 t p p' e e'
      refine ⟨q1, q2, ?_, q4⟩
      intro z hz hz'
      subst hz'
      rcases q3 with q3 | q3 <;> rw [q3] at hz
      · exact heol hz
      · simp at hz)
    refine ⟨text, text', ?_, ?_, t3, t4⟩
    · simp only [hd, Option.map_some, Res.ok_bind, t1, Option.some.injEq] at hrun
      exact hrun.symm
    · rw [w2]
      simp only [g1, Option.map_some, Res.ok_bind, t2]

/-! ## Examples -/

/-- the inputs of the examples: the same text with and without colours -/
def tintedPieces : List Str := [lit "\tif\x1b[31m x\x1b[0m\n", lit "\x1b[1m  c\n"]
def untintedPieces : List Str := [lit "\tif x\n", lit "  c\n"]

theorem tinted_texts : ∀ i < 2, ∃ s s' t t' v, tintedPieces[i]? = some s ∧ untintedPieces[i]? = some s' ∧ Text s v ∧ Text s' v ∧ Legit sampleDb v ∧
    Expand 8 0 s t ∧ t.length < 16370 ∧ Expand 8 0 s' t' ∧ t'.length < 16370 ∧ (0x1b ∈ s → ∃ p q, s = p ++ q ∧ 0x1b ∉ p ∧ 0x09 ∉ q) := by
  have red : EscSeq (lit "\x1b[31m") := csi_sgr (params := [0x33, 0x31]) (by decide)
  have off : EscSeq (lit "\x1b[0m") := csi_sgr (params := [0x30]) (by decide)
  have bold : EscSeq (lit "\x1b[1m") := csi_sgr (params := [0x31]) (by decide)
  intro i hi
  obtain rfl | rfl : i = 0 ∨ i = 1 := by omega
  · refine ⟨_, _, lit "        if\x1b[31m x\x1b[0m\n", lit "        if x\n", lit "\tif x\n", rfl, rfl, ?_, .plain (by decide), ⟨by decide, by unfold NarrowBlanks; decide⟩, ?_, by decide, ?_, by decide,
      fun _ => ⟨lit "\tif", lit "\x1b[31m x\x1b[0m\n", by decide, by decide, by decide⟩⟩
    · exact (Text.plain (v := lit "\tif") (by decide)).append (.esc _ red ((Text.plain (v := lit " x") (by decide)).append (.esc _ off (.plain (v := lit "\n") (by decide)))))
    · refine Expand.tab 8 (by decide) (by decide) (by decide) (expand_plain _ _ _ (by decide))
    · refine Expand.tab 8 (by decide) (by decide) (by decide) (expand_plain _ _ _ (by decide))
  · refine ⟨_, _, lit "\x1b[1m  c\n", lit "  c\n", lit "  c\n", rfl, rfl, ?_, .plain (by decide), ⟨by decide, by unfold NarrowBlanks; decide⟩, expand_plain _ _ _ (by decide), by decide,
      expand_plain _ _ _ (by decide), by decide, fun _ => ⟨[], lit "\x1b[1m  c\n", by decide, by decide, by decide⟩⟩
    exact .esc _ bold (.plain (v := lit "  c\n") (by decide))


theorem tinted_readable : (∀ s ∈ tintedPieces, Readable sampleDb 8 s) ∧ ∀ s ∈ untintedPieces, Readable sampleDb 8 s := by
  constructor
  · intro s hs
    obtain ⟨i, hi⟩ := List.getElem?_of_mem hs
    obtain ⟨s0, s', t, t', v, h1, h2, h3, h4, h5, h6, h7, h8, h9, -⟩ := tinted_texts i (List.getElem?_eq_some_iff.1 hi).1
    obtain rfl : s0 = s := by simpa [hi] using h1.symm
    exact ⟨v, t, h3, h5, h6, h7⟩
  · intro s hs
    obtain ⟨i, hi⟩ := List.getElem?_of_mem hs
    obtain ⟨s0, s', t, t', v, h1, h2, h3, h4, h5, h6, h7, h8, h9, -⟩ := tinted_texts i (List.getElem?_eq_some_iff.1 hi).1
    obtain rfl : s' = s := by simpa [hi] using h2.symm
    exact ⟨v, t', h4, h5, h8, h9⟩

theorem tinted_same (i : Nat) (s s' : Str) (h : tintedPieces[i]? = some s) (h' : untintedPieces[i]? = some s') : ShowSame s s' ∧ TabsFirst s ∧ TabsFirst s' := by
  obtain ⟨s0, s0', t, t', v, h1, h2, h3, h4, h5, h6, h7, h8, h9, h10⟩ := tinted_texts i (List.getElem?_eq_some_iff.1 h).1
  obtain rfl : s0 = s := by simpa [h] using h1.symm
  obtain rfl : s0' = s' := by simpa [h'] using h2.symm
  have hno : ∀ s ∈ untintedPieces, 0x1b ∉ s := by decide
  refine ⟨⟨v, h3, h4⟩, ?_, ?_⟩
  · intro a b hab hesc
    obtain ⟨p, q, rfl, hp, hq⟩ := h10 (by rw [hab]; simp [hesc])
    rcases List.append_eq_append_iff.1 hab with ⟨w, -, e⟩ | ⟨w, e, -⟩
    · exact hq (by rw [e]; simp)
    · exact hp (by rw [e]; simp [hesc])
  · intro a b hab hesc
    exact hno _ (List.mem_of_getElem? h') (by rw [hab]; simp [hesc])

theorem tinted_end : EndsInBreak untintedPieces ↔ EndsInBreak tintedPieces := by
  refine ⟨fun _ => ⟨[lit "\tif\x1b[31m x\x1b[0m\n"], lit "\x1b[1m  c", 0x0a, by decide, .inl rfl⟩, fun _ => ⟨[lit "\tif x\n"], lit "  c", 0x0a, by decide, .inl rfl⟩⟩

/-- the boxes around them have the same rows but for the escape sequences -/
example : ∃ out out', drawOnce sampleDb {} sampleDesign [] 0 tintedPieces 50 = some (.ok out) ∧ drawOnce sampleDb {} sampleDesign [] 0 untintedPieces 50 = some (.ok out') ∧
    out'.length = out.length ∧ ∀ (t : Nat) p p', out[t]? = some p → out'[t]? = some p' → ShowSame p.1.memory p'.1.memory := by
  cases hd : drawOnce sampleDb {} sampleDesign [] 0 tintedPieces 50 with
  | none => exact absurd hd (by decide +kernel)
  | some r =>
    obtain ⟨out, out', rfl, h1, h2, -, h3⟩ := C81_same_box sampleDb sampleDb_sane {} rfl (by decide) (by decide) sampleDesign sampleDesign_good 0 0 tintedPieces untintedPieces
      tinted_readable.1 tinted_readable.2 rfl tinted_same tinted_end 50 hd
    exact ⟨out, out', rfl, h1, h2, fun t p p' hp hp' => (h3 t p p' hp hp').1⟩

/-- `boxes -d fr` for the text with and without colours, on a terminal without colours: the same is printed -/
example {r : Res Outcome} (h : wholeProgram { sampleMachine with input := fun _ => tintedPieces } { options := [.design (lit "fr")] } 20 = some r) :
    wholeProgram { sampleMachine with input := fun _ => untintedPieces } { options := [.design (lit "fr")] } 20 = some r := by
  obtain ⟨text, text', rfl, h2, h3, h4⟩ := C81_program { sampleMachine with input := fun _ => tintedPieces } sampleDb_sane { options := [.design (lit "fr")] } 20 (by decide) (a := frArgs) rfl
    ⟨by simp, by simp, by simp⟩ (by simp) (by simp) (by simp) (by simp) (by simp) (by decide) (by decide) (file := fileName "/h/.config/boxes/boxes-config") (d := frDesign) (ds := []) (ps := [])
    (let h := frDesign_loaded; { found := h.found, designs := h.designs }) (by
      intro f decls hf
      have hf' : sampleMachine.contents f = some decls := hf
      simp only [sampleMachine] at hf'
      split at hf'
      · obtain rfl := Option.some.inj hf'
        intro s hs
        have : ∀ s ∈ fileTexts [.box (lit "dots") [lit "dt"] minimalItems (lit "dots"), .box (lit "frame") [lit "fr"] frameItems (lit "frame")], ∀ c ∈ s, c ≠ 0x1b := by decide +kernel
        exact ⟨s, .plain (this s hs)⟩
      · simp at hf') (by decide +kernel) (fun _ => untintedPieces)
    tinted_readable.1 tinted_readable.2 rfl tinted_same tinted_end h
  have e := h4 (by decide)
  rw [e] at h2
  exact h2

/-- C81: An escape sequence in front of a tab moves the text behind the tab: the characters of the sequence, which are not seen, count as columns when the tab is replaced with
spaces.  So the text with and without colours is drawn differently. -/
theorem C81_tab_disagrees : ∃ s s' rows rows', ShowSame s s' ∧ Readable sampleDb 8 s ∧ Readable sampleDb 8 s' ∧
    (drawOnce sampleDb {} starDesign [] 0 [s] 50).map (fun r => (do let out ← r; renderBox false out : Res Str)) = some (.ok rows) ∧
    (drawOnce sampleDb {} starDesign [] 0 [s'] 50).map (fun r => (do let out ← r; renderBox false out : Res Str)) = some (.ok rows') ∧
    rows = lit "**********\n*a      b*\n**********\n" ∧ rows' = lit "***********\n*a       b*\n***********\n" := by
  have red : EscSeq (lit "\x1b[31m") := csi_sgr (params := [0x33, 0x31]) (by decide)
  have off : EscSeq (lit "\x1b[0m") := csi_sgr (params := [0x30]) (by decide)
  have h : Text (lit "\x1b[31ma\x1b[0m\tb\n") (lit "a\tb\n") := .esc _ red (.vis 0x61 (by decide) (.esc _ off (.plain (v := lit "\tb\n") (by decide))))
  have hl : Legit sampleDb (lit "a\tb\n") := ⟨by decide, by unfold NarrowBlanks; decide⟩
  have h' : Text (lit "a\tb\n") (lit "a\tb\n") := .plain (by decide)
  refine ⟨lit "\x1b[31ma\x1b[0m\tb\n", lit "a\tb\n", _, _, ⟨_, h, h'⟩, ⟨_, lit "\x1b[31ma\x1b[0m      b\n", h, hl, ?_, by decide⟩, ⟨_, lit "a       b\n", h', hl, ?_, by decide⟩,
    by decide +kernel, by decide +kernel, rfl, rfl⟩
  · repeat first | exact Expand.tab 6 (by decide) (by decide) (by decide) (expand_plain _ _ _ (by decide)) | refine Expand.char _ (by decide) ?_
  · repeat first | exact Expand.tab 7 (by decide) (by decide) (by decide) (expand_plain _ _ _ (by decide)) | refine Expand.char _ (by decide) ?_

end Boxes
