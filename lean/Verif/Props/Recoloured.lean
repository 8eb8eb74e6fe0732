import Verif.Lemmas.Recoloured

/-!
# The colours of a design do not matter where no colours are shown (C82)
-/
set_option linter.unusedSimpArgs false

namespace Boxes
open Boxes.Spec ShapeName

/-- C82: two designs that differ only in escape sequences draw boxes that differ only in escape sequences -/
theorem C82_drawn (db : CharDb) (hdb : Sane db) (opt : Opt) (hr : opt.r = false) (ht : 1 ≤ opt.tabstop) (d d' : Design) (hd : ReadyDesign db d)
    (h : Recoloured db d d') (junk : Nat) (pieces : List Str) (hp : ∀ s ∈ pieces, Readable db opt.tabstop s) (fuel : Nat) {r : Res (List (Bxs × Str))}
    (hr1 : drawOnce db opt d [] junk pieces fuel = some r) :
    ∃ out out', r = .ok out ∧ drawOnce db opt d' [] junk pieces fuel = some (.ok out') ∧ out'.length = out.length ∧
      ∀ (t : Nat) p p', out[t]? = some p → out'[t]? = some p' → ShowSame p.1.memory p'.1.memory ∧ p'.2 = p.2 ∧ (p.2 = opt.eol ∨ p.2 = []) ∧
        fromUnicode db p.1.memory = some p.1 ∧ fromUnicode db p'.1.memory = some p'.1 := by
  have hd' := recoloured_ready h hd
  by_cases hne : pieces = []
  · subst hne
    have hnil : ∀ d, drawOnce db opt d [] junk [] fuel = some (.ok []) := by
      intro d
      simp [drawOnce, readAllInput, readLines, analyzeInput, maxCols, Res.ok_bind]
    rw [hnil] at hr1
    exact ⟨[], [], (Option.some.inj hr1).symm, hnil d', rfl, by simp⟩
  obtain ⟨j, ls, hj, hin⟩ := draw_input_any db hdb opt hr ht d junk pieces hp hne fuel
  have h0 := adjust_same (opt := opt) h j
  have r0 := adjust_ready (opt := opt) hd j
  have r0' := adjust_ready (opt := opt) hd' j
  rw [hj d rfl] at hr1
  unfold handleGenerateBox at hr1
  rw [Option.map_eq_some_iff] at hr1
  obtain ⟨q, hq, rfl⟩ := hr1
  obtain ⟨box, rfl, c1, c2⟩ := C20_room db opt d hd.good j fuel hq
  obtain ⟨q', hq'⟩ := generate_ends h0 hq
  obtain ⟨box', rfl, c1', c2'⟩ := C20_room db opt d' hd'.good j fuel hq'
  have hlen : j.lines.length = ls.length := by
    have := congrArg List.length hin.texts
    simpa using this
  obtain ⟨out, above, below, lp, rp, s, e, o1, -, -, -, -, -, -, -, o9⟩ := C16_box db hdb opt _ j ls box r0.good c1 hin (by rw [← hlen]; exact c2)
  have hs := output_same hdb r0 r0' h0 hin (generate_same h0 hq hq')
  rw [o1] at hs
  cases e' : outputBox db opt (adjustSizeAndPadding opt d' j) j box' with
  | fail n => rw [e'] at hs; exact hs.elim
  | ub => rw [e'] at hs; exact hs.elim
  | ok out' =>
    rw [e'] at hs
    refine ⟨out, out', by rw [Res.ok_bind]; exact o1, ?_, hs.length, ?_⟩
    · rw [hj d' h.indentmode]
      unfold handleGenerateBox
      rw [hq', Option.map_some, Res.ok_bind, e']
    · intro t p p' h1 h2
      obtain ⟨g1, g2⟩ := hs.get h1 h2
      obtain ⟨row, n, m, x, -, -, -, -, k5⟩ := o9 t (List.getElem?_eq_some_iff.1 h1).1
      rw [h1] at k5
      obtain rfl := Option.some.inj k5
      refine ⟨g1.same, g2, ?_, g1.row, g1.row'⟩
      simp only
      split
      · exact .inl rfl
      · exact .inr rfl

/-- C82: a box is removed in the same way with two designs that differ only in escape sequences, if the input has no escape sequences -/
theorem C82_removed (db : CharDb) (hdb : Sane db) (opt : Opt) (d d' : Design) (hd : ReadyDesign db d) (h : Recoloured db d d') (rules : List Subst)
    (i : Input) (hi : ∀ l ∈ i.lines, ∃ b, l.text = some b ∧ fromUnicode db b.memory = some b ∧ 0x1b ∉ b.memory) :
    handleRemoveBox db opt (adjustSizeAndPadding opt d' i) rules i = handleRemoveBox db opt (adjustSizeAndPadding opt d i) rules i := by
  have r0 := adjust_ready (opt := opt) hd i
  have r0' := adjust_ready (opt := opt) (recoloured_ready h hd) i
  obtain ⟨m, hm⟩ := designIsMono_total r0
  obtain ⟨m', hm'⟩ := designIsMono_total r0'
  refine handle_same hdb r0 r0' (adjust_same h i) hm hm' (inputIsMono_plain _ ?_)
  intro l hl
  obtain ⟨b, h1, h2, h3⟩ := hi l hl
  exact ⟨b, h1, (fromUnicode_vis h3 h2).2⟩

/-- the main loop, when it removes a box with a chosen design -/
theorem run_remove_same (s s' : Setup) (hdb : Sane s.db) (h1 : s'.db = s.db) (h2 : s'.junk = s.junk) (h3 : s'.pieces = s.pieces) (hu : s.byUser = true) (hu' : s'.byUser = true)
    (hrev : s'.revRules 0 = s.revRules 0) (opt : Opt) (hm : opt.mend ≤ 0) (hr : opt.r = true) (d d' : Design) (ds ds' : List Design) (hd : ReadyDesign s.db d) (h : Recoloured s.db d d')
    (hp : ∀ t ∈ s.pieces, 0x1b ∉ t) (n : Nat) : runProgram s' opt (d' :: ds') (n + 1) = runProgram s opt (d :: ds) (n + 1) := by
  have r0 := prepare_ready (opt := opt) hd
  have g0 := prepare_same (opt := opt) hdb hd h
  unfold runProgram
  simp only [List.getElem?_cons_zero, List.set_cons_zero]
  generalize prepareDesign opt d = d at r0 g0 ⊢
  generalize prepareDesign opt d' = d' at g0 ⊢
  unfold mainLoop mainPhase handleInput
  have ho1 : { opt with r := if opt.mend = 1 then false else opt.r, mend := opt.mend - 1 } = { opt with mend := opt.mend - 1 } := by
    rw [if_neg (by omega)]
  simp only [ho1, List.getElem?_cons_zero, List.set_cons_zero, h1, h2, h3]
  have ho : ({ opt with mend := opt.mend - 1 } : Opt).r = true := hr
  have hm1 : ({ opt with mend := opt.mend - 1 } : Opt).mend < 0 := by show opt.mend - 1 < 0; omega
  generalize ({ opt with mend := opt.mend - 1 } : Opt) = o at ho hm1 ⊢
  have ha : ∀ raw, analyzeInput s.db o { d' with minwidth := d'.minwidth } (s'.rules 0) raw = analyzeInput s.db o { d with minwidth := d.minwidth } (s.rules 0) raw := by
    intro raw
    unfold analyzeInput
    simp [ho]
  have hne : opt.mend - 1 ≠ 0 := by omega
  have hif : (if opt.mend = 1 then false else opt.r) = true := by rw [if_neg (by omega)]; exact hr
  simp only [if_pos hne, ha, if_pos hif]
  cases hread : readAllInput s.db o s.junk s.pieces with
  | fail k => rfl
  | ub => rfl
  | ok raw =>
  simp only [Res.ok_bind]
  cases hana : analyzeInput s.db o { d with minwidth := d.minwidth } (s.rules 0) raw with
  | fail k => rfl
  | ub => rfl
  | ok i =>
  have hi := analysed_plain ho hp hread hana
  simp only [Res.ok_bind]
  by_cases hl : i.lines = []
  · simp only [if_pos hl, Bool.true_eq_false, false_and, if_false]
  simp only [if_neg hl]
  unfold removePhase
  obtain ⟨kb, hkb⟩ : ∃ kb, kb = killblankDefault o.killblank (adjustSizeAndPadding o d i) := ⟨_, rfl⟩
  have hk := killblank_same hdb (adjust_ready (opt := o) r0 i) (adjust_same (opt := o) g0 i) o.killblank
  have hrm := C82_removed s.db hdb { o with killblank := kb } d d' r0 g0 (s.revRules 0) i hi
  have e1 : adjustSizeAndPadding o { d with minwidth := d.minwidth } i = adjustSizeAndPadding { o with killblank := kb } d i := rfl
  have e2 : adjustSizeAndPadding o { d' with minwidth := d'.minwidth } i = adjustSizeAndPadding { o with killblank := kb } d' i := rfl
  simp only [hu, hu', if_true, detectDesignIfNeeded, Res.ok_bind, List.getElem?_cons_zero, Res.get_some, hrev, h1]
  rw [show killblankDefault o.killblank (adjustSizeAndPadding o { d' with minwidth := d'.minwidth } i) = kb from hk.trans hkb.symm,
    show killblankDefault o.killblank (adjustSizeAndPadding o { d with minwidth := d.minwidth } i) = kb from hkb.symm, e1, e2, hrm]
  cases handleRemoveBox s.db { o with killblank := kb } (adjustSizeAndPadding { o with killblank := kb } d i) (s.revRules 0) i with
  | fail k => rfl
  | ub => rfl
  | ok q =>
    simp only [Res.ok_bind]
    rw [if_neg (by show ¬ (True ∧ o.mend > 0); omega), if_neg (by show ¬ (True ∧ o.mend > 0); omega)]
/-- C82: on a terminal without colours, a box drawn with a design with colours can be removed with a design with colours (the same or another one), and exactly the text
is left: as C71, with colours in the designs.  `d` and `d'` are the designs without their colours. -/
theorem C82_identity (db : CharDb) (hdb : Sane db) (hbr : BreaksSane db) (opt opt' : Opt) (ho : PlainDrawing opt) (ho' : PlainRemoving opt')
    (d d' e e' : Design) (hd : Restorable db d) (hd' : ReadyDesign db d') (hshape : d'.shape = d.shape)
    (hc : Recoloured db d e) (hc' : Recoloured db d' e')
    (hpad : wanted opt'.padding.left e'.padding.left = wanted opt.padding.left e.padding.left)
    (hmode : e.indentmode = 't' ∨ (e.indentmode = 'b' ∧ (opt'.indentmode = 'b' ∨ opt'.indentmode = '\x00'))) (hkill : opt'.killblank ≠ 0) (junk junk' : Nat)
    (lines : List (Str × Str)) (hl : ∀ p ∈ lines, PlainLine db p.1 ∧ p.1 ≠ []) (hne : lines ≠ [])
    (hterm : ∀ (x : Nat) p, lines[x]? = some p → p.2 = opt'.eol ∨ (x + 1 = lines.length ∧ p.2 = [])) (heol : opt'.eol = [0x0a] ∨ opt'.eol = [0x0d, 0x0a])
    (fuel : Nat) {r : Res (List (Bxs × Str))} (h : drawOnce db opt e [] junk (lines.map (fun p => p.1 ++ p.2)) fuel = some r) :
    ∃ out printed, r = .ok out ∧ renderBox false out = .ok printed.flatten ∧ printed.length = out.length ∧
      (∀ (t : Nat) p, out[t]? = some p → ∃ v, Text p.1.memory v ∧ printed[t]? = some (v ++ p.2)) ∧
      ((∀ s ∈ printed, s.length < 16370) → ∃ raw i j,
        readAllInput db opt' junk' printed = .ok raw ∧ analyzeInput db opt' e' [] raw = .ok i ∧
        handleRemoveBox db opt' (adjustSizeAndPadding opt' e' i) [] i = .ok (j, lines) ∧ LeftTexts db j lines ∧
        (j.finalNewline = true ↔ EndsInBreak (lines.map (fun p => p.1 ++ p.2)))) := by
  have hmem : ∀ p ∈ lines, PlainLine db p.1 ∧ LineEnd p.2 := by
    intro p hp
    refine ⟨(hl p hp).1, ?_⟩
    obtain ⟨x, hx⟩ := List.getElem?_of_mem hp
    rcases hterm x p hx with h | h
    · rw [h]; exact .inr heol
    · exact .inl h.2
  obtain ⟨out, plain, rfl, h1, h2, h3⟩ := C82_drawn db hdb opt ho.draws ho.tabstop e d (recoloured_ready hc hd.recognisable.ready) (recoloured_symm hc) junk _ (by
      intro s hs
      obtain ⟨p, hp, rfl⟩ := List.mem_map.1 hs
      exact plain_readable hbr (hmem p hp).1 (hmem p hp).2) fuel h
  obtain ⟨plain', q1, q2⟩ := C71_identity db hdb hbr opt opt' ho ho' d d' hd hd'.good hshape (by rw [← hc.padding, ← hc'.padding]; exact hpad) (by rw [← hc.indentmode]; exact hmode)
    hkill junk junk' lines hl hne hterm heol fuel h1
  obtain rfl := Res.ok.inj q1
  obtain ⟨plain', n, above, below, w, k1, k2, -, k3, k4⟩ := drawn_rows db hdb hbr opt ho d hd junk lines hmem hne fuel h1
  obtain rfl := Res.ok.inj k1
  have hvs : ∀ v ∈ innerTexts above below (if d.indentmode = 't' then 0 else n) (lines.map Prod.fst), ∀ c ∈ v, CleanChar db c := by
    intro v hv c hc
    simp only [innerTexts, List.mem_append, List.mem_replicate, List.mem_map] at hv
    rcases hv with (⟨-, rfl⟩ | ⟨t, ⟨q, hq, rfl⟩, rfl⟩) | ⟨-, rfl⟩
    · simp at hc
    · exact cleanChar_plain (hmem q hq).1 c (List.mem_of_mem_drop hc)
    · simp at hc
  obtain ⟨hclean, -⟩ := drawn_clean hdb hd k3 hvs
  have hesc : ∀ p ∈ plain, ∀ c ∈ p.1.memory, c ≠ 0x1b := fun p hp c hc => (hclean p hp c hc).1
  have hplain : ∀ (t : Nat) p p', out[t]? = some p → plain[t]? = some p' → Text p.1.memory p'.1.memory := by
    intro t p p' e1 e2
    obtain ⟨⟨v, g1, g2⟩, -⟩ := h3 t p p' e1 e2
    rw [(Text.plain (hesc p' (List.mem_of_getElem? e2))).unique g2]
    exact g1
  have hend : ∀ p ∈ plain, p.2 = [] ∨ p.2 = [0x0a] ∨ p.2 = [0x0d, 0x0a] := by
    intro p hp
    obtain ⟨t, ht⟩ := List.getElem?_of_mem hp
    have hlt := (List.getElem?_eq_some_iff.1 ht).1
    obtain ⟨-, g2, g3, -⟩ := h3 t _ p (List.getElem?_eq_getElem (by omega)) ht
    rw [g2]
    rcases g3 with g3 | g3
    · rw [g3]; exact .inr ho.eol
    · exact .inl g3
  have hboth := render_same (db := db) false plain out h2.symm (by
    intro t p p' e1 e2
    obtain ⟨⟨v, g1, g2⟩, g3, g4, g5, g6⟩ := h3 t p' p e2 e1
    refine ⟨⟨v, g2, g1⟩, g3.symm, ?_, g6, g5⟩
    rcases hend p (List.mem_of_getElem? e1) with h | h | h <;> rw [h] <;> simp)
  obtain ⟨text, text', t1, t2, -, t3⟩ := hboth
  have hprint := renderBox_plain db false plain fun p hp => ⟨k3.read p hp, hesc p hp⟩
  refine ⟨out, plain.map (fun p => p.1.memory ++ p.2), rfl, ?_, by simpa using h2, ?_, ?_⟩
  · rw [t2, t3 rfl, ← t1, hprint]
    try simp [List.flatMap]
  · intro t p hp
    have hlt := (List.getElem?_eq_some_iff.1 hp).1
    have hp' : plain[t]? = some plain[t] := List.getElem?_eq_getElem (by omega)
    refine ⟨plain[t].1.memory, hplain t p _ hp hp', ?_⟩
    rw [List.getElem?_map, hp', Option.map_some, (h3 t p _ hp hp').2.1]
  · intro hshort
    have hshort' : ∀ p ∈ plain, p.1.memory.length < 16370 := by
      intro p hp
      have := hshort _ (List.mem_map.2 ⟨p, hp, rfl⟩)
      simp at this; omega
    obtain ⟨raw, i, j, w1, w2, w3, w4, w5⟩ := q2 hshort'
    obtain ⟨raw', i', w6, w7, -, -, -, w8, -⟩ := drawn_reread hdb ho'.removes ho'.tabstop junk' d' hd k3 hvs hend hshort'
    rw [w1] at w6
    obtain rfl := Res.ok.inj w6
    rw [w2] at w7
    obtain rfl := Res.ok.inj w7
    refine ⟨raw, i, j, w1, ?_, ?_, w4, w5⟩
    · rw [← w2]
      unfold analyzeInput applySubstitutions
      rw [hc'.indentmode]
    · rw [C82_removed db hdb opt' d' e' hd' hc' [] i, w3]
      intro l hl
      have : l.text ∈ i.lines.map Line.text := List.mem_map.2 ⟨l, hl, rfl⟩
      rw [w8] at this
      obtain ⟨p, hp, e1⟩ := List.mem_map.1 this
      exact ⟨p.1, e1.symm, k3.read p hp, fun hx => hesc p hp _ hx rfl⟩

/-- C82, for the complete program that draws a box: the design that is used comes from two configurations, with different colours.  What is printed differs only in escape
sequences, and not at all if no colours are used; then there are no escape sequences in it. -/
theorem C82_program (m : Machine) (hdb : Sane m.db) (c : CommandLine) (fuel : Nat) (hfirst : c.first ≠ some (lit "-?")) {a : Args}
    (hopts : optionLoop c.options createNewOpt = some (a, false)) (hfiles : UsableFiles m.canRead m.canWrite c.files)
    (hlist : .list ∉ c.options) (hq : ∀ s, .query s ∉ c.options) (hrm : .remove ∉ c.options) (hmend : .mend ∉ c.options)
    (hcr : ∀ s, .create s ∉ c.options) (heol : 0x1b ∉ a.opt.eol)
    {file : Bxs} {d : DesignDef} {ds : List DesignDef} {ps : List Bxs} (h : Loaded m a fuel file d ds ps)
    (m' : Machine) (hm' : m' = { m with contents := m'.contents })
    {file' : Bxs} {d' : DesignDef} {ds' : List DesignDef} {ps' : List Bxs} (h' : Loaded m' a fuel file' d' ds' ps')
    (hd : ReadyDesign m.db d.core) (hsame : Recoloured m.db d.core d'.core) (hrules : d.reprules = []) (hrules' : d'.reprules = [])
    (hp : ∀ s ∈ m.input (named c.files 0), Readable m.db a.opt.tabstop s)
    {r : Res Outcome} (hrun : wholeProgram m c fuel = some r) :
    ∃ text text', r = .ok (.output (named c.files 1) text) ∧ wholeProgram m' c fuel = some (.ok (.output (named c.files 1) text')) ∧
      ShowSame text text' ∧ (colours c.options m.terminalColors = false → text' = text ∧ 0x1b ∉ text) := by
  cases fuel with
  | zero =>
    have := h.designs
    simp [parseConfigFiles, mergeLoop] at this
  | succ n =>
  have f1 : m'.canRead = m.canRead := by rw [hm']
  have f2 : m'.canWrite = m.canWrite := by rw [hm']
  have f3 : m'.db = m.db := by rw [hm']
  have f4 : m'.junk = m.junk := by rw [hm']
  have f5 : m'.input = m.input := by rw [hm']
  have f6 : m'.terminalColors = m.terminalColors := by rw [hm']
  obtain ⟨hr, w1⟩ := whole_draws m c n hfirst hopts hfiles hlist hq hrm hmend hcr h hrules
  obtain ⟨-, w2⟩ := whole_draws m' c n hfirst hopts (by rw [f1, f2]; exact hfiles) hlist hq hrm hmend hcr h' hrules'
  have ht := (C37_range c.options a hopts).1
  rw [w1] at hrun
  rw [f3, f4, f5, f6] at w2
  cases hdr : drawOnce m.db a.opt (prepareDesign a.opt d.core) [] m.junk (m.input (named c.files 0)) (n + 1) with
  | none => simp [hdr] at hrun
  | some x =>
    obtain ⟨out, out', rfl, g1, g2, g3⟩ := C82_drawn m.db hdb a.opt hr ht _ _ (prepare_ready (opt := a.opt) hd) (prepare_same (opt := a.opt) hdb hd hsame) m.junk _ hp (n + 1) hdr
    have hnone : ∀ {e : Str}, e = a.opt.eol ∨ e = [] → 0x1b ∉ e := by
      intro e he
      rcases he with he | he <;> rw [he]
      · exact heol
      · simp
    obtain ⟨text, text', t1, t2, t3, t4⟩ := render_same (colours c.options m.terminalColors) out out' g2 (by
      intro t p p' e e'
      obtain ⟨q1, q2, q3, q4⟩ := g3 t p p' e e'
      exact ⟨q1, q2, fun z hz hz' => hnone q3 (hz' ▸ hz), q4⟩)
    refine ⟨text, text', ?_, ?_, t3, fun hcol => ⟨t4 hcol, ?_⟩⟩
    · simp only [hdr, Option.map_some, Res.ok_bind, t1, Option.some.injEq] at hrun
      exact hrun.symm
    · rw [w2]
      simp only [g1, Option.map_some, Res.ok_bind, t2]
    · rw [hcol] at t1
      refine render_plain (db := m.db) out ?_ t1
      intro p hpo
      obtain ⟨t, ht⟩ := List.getElem?_of_mem hpo
      have hlt := (List.getElem?_eq_some_iff.1 ht).1
      rw [← g2] at hlt
      obtain ⟨⟨v, q1, -⟩, q2, q3, q4, -⟩ := g3 t p _ ht (List.getElem?_eq_getElem hlt)
      exact ⟨⟨v, q1⟩, q4, hnone q3⟩

/-- C82, for the complete program that removes a box (`boxes -d X -r`), whose input has no escape sequences: it makes no difference which colours the design has. -/
theorem C82_program_removed (m : Machine) (hdb : Sane m.db) (c : CommandLine) (fuel : Nat) (hfirst : c.first ≠ some (lit "-?")) {a : Args}
    (hopts : optionLoop c.options createNewOpt = some (a, false)) (hfiles : UsableFiles m.canRead m.canWrite c.files)
    (hlist : .list ∉ c.options) (hq : ∀ s, .query s ∉ c.options) (hrm : .remove ∈ c.options) (hmend : .mend ∉ c.options)
    (hcr : ∀ s, .create s ∉ c.options) (hdes : ∃ s, .design s ∈ c.options)
    {file : Bxs} {d : DesignDef} {ds : List DesignDef} {ps : List Bxs} (h : Loaded m a fuel file d ds ps)
    (m' : Machine) (hm' : m' = { m with contents := m'.contents })
    {file' : Bxs} {d' : DesignDef} {ds' : List DesignDef} {ps' : List Bxs} (h' : Loaded m' a fuel file' d' ds' ps')
    (hd : ReadyDesign m.db d.core) (hsame : Recoloured m.db d.core d'.core) (hrules : d'.revrules = d.revrules)
    (hp : ∀ s ∈ m.input (named c.files 0), 0x1b ∉ s) : wholeProgram m' c fuel = wholeProgram m c fuel := by
  cases fuel with
  | zero =>
    have := h.designs
    simp [parseConfigFiles, mergeLoop] at this
  | succ n =>
  have f1 : m'.canRead = m.canRead := by rw [hm']
  have f2 : m'.canWrite = m.canWrite := by rw [hm']
  have f3 : m'.db = m.db := by rw [hm']
  have f4 : m'.junk = m.junk := by rw [hm']
  have f5 : m'.input = m.input := by rw [hm']
  have f6 : m'.terminalColors = m.terminalColors := by rw [hm']
  have f7 : m'.substitution = m.substitution := by rw [hm']
  obtain ⟨s1, s2, s3, s4, -⟩ := C58_switches c.options a hopts
  have hqn : a.query = none := by
    rcases (C58_words c.options a hopts).2.2.2.2.2 with ⟨x, ⟨pre', post', e, -, hno⟩, arg', q, rfl, hq', e'⟩ | ⟨hn, e⟩
    · exact absurd (by rw [e]; simp) (hq arg')
    · exact e
  have hln : a.l = false := by
    cases hb : a.l with
    | false => rfl
    | true => exact absurd (s1.1 hb) hlist
  have hu : a.byUser = true := s4.2 (hdes.imp fun s hs => .inl hs)
  rw [whole_run m c (n + 1) hfirst hopts hfiles hcr hqn hln h, whole_run m' c (n + 1) hfirst hopts (by rw [f1, f2]; exact hfiles) hcr hqn hln h', f5, f6,
    run_remove_same (setupOf m a (m.input (named c.files 0)) (d :: ds) (n + 1)) (setupOf m' a (m.input (named c.files 0)) (d' :: ds') (n + 1)) hdb f3 f4 rfl hu hu
      (by simp [setupOf, rulesOf, hrules, f7]) a.opt (by rw [s3, if_neg hmend]; decide) (s2.2 (.inl hrm)) d.core d'.core (ds.map (·.core)) (ds'.map (·.core)) hd hsame hp n]

/-- C82, for the complete program (`boxes -d X | boxes -d X -r`) without colours, with a design with colours: the second run prints exactly what the first one read.
`m0` is a machine whose configuration has the same design without colours. -/
theorem C82_pipeline (m : Machine) (hdb : Sane m.db) (hbr : BreaksSane m.db) (c : CommandLine) (hc : DrawsWith c) (fuel : Nat) {a : Args}
    (hopts : optionLoop c.options createNewOpt = some (a, false)) (hfiles : UsableFiles m.canRead m.canWrite c.files)
    (htab : a.opt.tabexp ≠ 'u' ∧ a.opt.tabexp ≠ 'k') (heol : a.opt.eol = [0x0a] ∨ a.opt.eol = [0x0d, 0x0a]) (hkill : a.opt.killblank ≠ 0)
    (hcol : colours c.options m.terminalColors = false)
    {file : Bxs} {d : DesignDef} {ds : List DesignDef} {ps : List Bxs} (h : Loaded m a fuel file d ds ps)
    (m0 : Machine) (hm0 : m0 = { m with contents := m0.contents })
    {file0 : Bxs} {d0 : DesignDef} {ds0 : List DesignDef} {ps0 : List Bxs} (h0 : Loaded m0 a fuel file0 d0 ds0 ps0)
    (hd0 : Restorable m.db d0.core) (hsame : Recoloured m.db d0.core d.core)
    (hrules : d.reprules = [] ∧ d0.reprules = []) (hrev : d.revrules = [] ∧ d0.revrules = [])
    (mode : Char) (hmode : mode = if a.opt.indentmode = '\x00' then d.core.indentmode else a.opt.indentmode) (hmode' : mode = 't' ∨ mode = 'b')
    (lines : List (Str × Str)) (hl : ∀ p ∈ lines, PlainLine m.db p.1 ∧ p.1 ≠ []) (hne : lines ≠ [])
    (hterm : ∀ (x : Nat) p, lines[x]? = some p → p.2 = a.opt.eol ∨ (x + 1 = lines.length ∧ p.2 = []))
    (hpieces : m.input (named c.files 0) = lines.map (fun p => p.1 ++ p.2))
    {r : Res Outcome} (hrun : wholeProgram m c fuel = some r) :
    ∃ text, r = .ok (.output (named c.files 1) text) ∧ ∀ (c' : CommandLine) (input' : Option Str → List Str), c'.first ≠ some (lit "-?") →
      c'.options = c.options ++ [.remove] → UsableFiles m.canRead m.canWrite c'.files →
      ReadInLines text (input' (named c'.files 0)) → (∀ p ∈ input' (named c'.files 0), p.length < 16370) →
      wholeProgram { m with input := input' } c' fuel = some (.ok (.output (named c'.files 1) (m.input (named c.files 0)).flatten)) := by
  have f1 : m0.canRead = m.canRead := by rw [hm0]
  have f2 : m0.canWrite = m.canWrite := by rw [hm0]
  have f3 : m0.db = m.db := by rw [hm0]
  have f5 : m0.input = m.input := by rw [hm0]
  have hd := recoloured_ready hsame hd0.recognisable.ready
  have hesc : 0x1b ∉ a.opt.eol := by rcases heol with h | h <;> rw [h] <;> decide
  obtain ⟨text, text', rfl, h2, -, h3⟩ := C82_program m hdb c fuel hc.first hopts hfiles hc.list hc.query hc.remove hc.mend hc.create hesc h m0 hm0 h0 hd (recoloured_symm hsame)
    hrules.1 hrules.2 (by
      rw [hpieces]
      intro s hs
      obtain ⟨p, hp, rfl⟩ := List.mem_map.1 hs
      obtain ⟨x, hx⟩ := List.getElem?_of_mem hp
      refine plain_readable hbr (hl p hp).1 ?_
      rcases hterm x p hx with h | h
      · rw [h]; exact .inr heol
      · exact .inl h.2) hrun
  obtain ⟨rfl, h4⟩ := h3 hcol
  obtain ⟨text, g1, g2⟩ := C71_pipeline m0 (f3 ▸ hdb) (f3 ▸ hbr) c hc fuel hopts (by rw [f1, f2]; exact hfiles) htab heol hkill h0 (f3 ▸ hd0) hrules.2 hrev.2 mode
    (by rw [hmode, hsame.indentmode]) hmode' lines (by rw [f3]; exact hl) hne hterm (by rw [f5]; exact hpieces) h2
  obtain rfl : text = text' := by simpa using g1.symm
  refine ⟨text, rfl, fun c' input' hfirst' hopts' hfiles' hread hshort => ?_⟩
  obtain ⟨ho, hm, hh, hqn, hln, hu, hdes⟩ := draws_opts hc hopts htab heol
  have k := g2 c' input' hfirst' hopts' (by rw [f1, f2]; exact hfiles') hread hshort
  rw [f5] at k
  rw [← k]
  have ha' : optionLoop c'.options createNewOpt = some ({ a with opt := { a.opt with r := true } }, false) := by
    rw [hopts']
    exact optionLoop_more (x := .remove) c.options createNewOpt hopts rfl
  refine C82_program_removed { m0 with input := input' } (f3 ▸ hdb) c' fuel hfirst' ha' (by show UsableFiles m0.canRead m0.canWrite c'.files; rw [f1, f2]; exact hfiles')
    (by rw [hopts']; simp [hc.list]) (by rw [hopts']; simp [hc.query]) (by rw [hopts']; simp) (by rw [hopts']; simp [hc.mend]) (by rw [hopts']; simp [hc.create])
    (by obtain ⟨s, hs⟩ := hc.design; exact ⟨s, by rw [hopts']; simp [hs]⟩)
    (loaded_again (Nat.le_refl _) h0 input' rfl rfl rfl hdes) { m with input := input' } (by rw [hm0])
    (loaded_again (Nat.le_refl _) h input' rfl rfl rfl hdes) (f3 ▸ hd0.recognisable.ready) (f3 ▸ hsame) (by rw [hrev.1, hrev.2]) ?_
  intro s hs hc
  refine h4 ?_
  rw [← hread.all]
  exact List.mem_flatten.2 ⟨s, hs, hc⟩

/-! ## Examples -/

/-- the design of `frameItems` with colours -/
def tintedItems : List Item :=
  [.sample (lit "x\n"), .shapes [(NW, [lit "\x1b[31m+\x1b[0m"]), (N, [lit "-"]), (NE, [lit "\x1b[31m*\x1b[0m"]), (E, [lit "\x1b[31m!\x1b[0m"]), (SE, [lit "+"]),
    (S, [lit "\x1b[31m=\x1b[0m"]), (SW, [lit "+"]), (W, [lit "\x1b[31m|\x1b[0m"])], .elastic [N, E, S, W], .tags [lit "plain"]]

/-- a machine with the design in its configuration file -/
def tintedMachine : Machine :=
  { sampleMachine with contents := fun b => if b.memory = lit "/h/.config/boxes/boxes-config" then some [.box (lit "frame") [lit "fr"] tintedItems (lit "frame")] else none }

def tintedDesign : DesignDef :=
  match parseConfigFiles (parseEnv tintedMachine frArgs) tintedMachine.contents 20 (fileName "/h/.config/boxes/boxes-config") with
  | some (.ok (d :: _, _)) => d
  | _ => { name := [], core := sampleDesign }

theorem tintedDesign_loaded : Loaded tintedMachine frArgs 20 (fileName "/h/.config/boxes/boxes-config") tintedDesign [] [] where
  found := frDesign_loaded.found
  designs := by
    have h2 : (match parseConfigFiles (parseEnv tintedMachine frArgs) tintedMachine.contents 20 (fileName "/h/.config/boxes/boxes-config") with
        | some (.ok ([_], [])) => true
        | _ => false) = true := by decide +kernel
    unfold tintedDesign
    split at h2
    · rename_i d h
      rw [h]
    · simp at h2

theorem tintedDesign_recoloured : Recoloured sampleDb frDesign.core tintedDesign.core := by
  have red : EscSeq (lit "\x1b[31m") := csi_sgr (params := [0x33, 0x31]) (by decide)
  have off : EscSeq (lit "\x1b[0m") := csi_sgr (params := [0x30]) (by decide)
  have hall : ∀ n ∈ [NW, NNW, N, NNE, NE, ENE, E, ESE, SE, SSE, S, SSW, SW, WSW, W, WNW],
      ((tintedDesign.core.shape n).height = (frDesign.core.shape n).height ∧ (tintedDesign.core.shape n).width = (frDesign.core.shape n).width ∧
      (tintedDesign.core.shape n).elastic = (frDesign.core.shape n).elastic ∧ (tintedDesign.core.shape n).lines.length = (frDesign.core.shape n).lines.length) ∧
      ∀ p ∈ (frDesign.core.shape n).lines.zip (tintedDesign.core.shape n).lines, (∀ c ∈ p.1.memory, c ≠ 0x1b) ∧ (p.2 = p.1 ∨
      (fromUnicode sampleDb p.1.memory = some p.1 ∧ fromUnicode sampleDb p.2.memory = some p.2 ∧ p.2.memory = lit "\x1b[31m" ++ (p.1.memory ++ lit "\x1b[0m"))) := by
    decide +kernel
  have hz := fun n => hall n (by cases n <;> decide)
  refine ⟨fun n => ⟨(hz n).1.1, (hz n).1.2.1, (hz n).1.2.2.1, (hz n).1.2.2.2, ?_⟩, by decide +kernel, by decide +kernel, by decide +kernel, by decide +kernel⟩
  · intro i b b' e e'
    have hmem : (b, b') ∈ (frDesign.core.shape n).lines.zip (tintedDesign.core.shape n).lines := by
      apply List.mem_of_getElem? (i := i)
      rw [List.getElem?_zip_eq_some]
      exact ⟨e, e'⟩
    obtain ⟨h1, h2 | ⟨h2, h3, h4⟩⟩ := (hz n).2 _ hmem
    · simp only at h1 h2
      rw [h2]
      exact ⟨⟨_, .plain h1, .plain h1⟩, .inl rfl⟩
    · simp only at h1 h2 h3 h4
      refine ⟨⟨_, .plain h1, ?_⟩, .inr ⟨h2, h3⟩⟩
      rw [h4]
      have := (Text.plain h1).append (.esc _ off .nil)
      rw [List.append_nil, List.append_nil] at this
      exact .esc _ red this

/-- `boxes -d fr` with and without colours in the configuration, on a terminal without colours: the same is printed -/
example {r : Res Outcome} (h : wholeProgram tintedMachine { options := [.design (lit "fr")] } 20 = some r) :
    wholeProgram sampleMachine { options := [.design (lit "fr")] } 20 = some r := by
  obtain ⟨text, text', rfl, h2, h3, h4⟩ := C82_program tintedMachine sampleDb_sane { options := [.design (lit "fr")] } 20 (by decide) (a := frArgs) rfl
    ⟨by simp, by simp, by simp⟩ (by simp) (by simp) (by simp) (by simp) (by simp) (by decide) tintedDesign_loaded sampleMachine rfl frDesign_loaded
    (recoloured_ready tintedDesign_recoloured frDesign_restorable.recognisable.ready) (recoloured_symm tintedDesign_recoloured) (by decide +kernel) (by decide +kernel)
    (by
      intro s hs
      have hs' : s ∈ [(lit "  ab", lit "\n"), (lit "  c", lit "\n")].map (fun p => p.1 ++ p.2) := hs
      obtain ⟨p, hp, rfl⟩ := List.mem_map.1 hs'
      refine plain_readable sampleDb_breaks (fr_lines p hp).1 ?_
      revert p; unfold LineEnd; decide) h
  rw [(h4 (by decide)).1] at h2
  exact h2

/-- on a terminal with colours it is printed with its colours -/
example : wholeProgram { tintedMachine with terminalColors := true } { options := [.design (lit "fr")] } 20 = some (.ok (.output none
    (lit "  \x1b[31m+\x1b[0m--\x1b[31m*\x1b[0m\n  \x1b[31m|\x1b[0mab\x1b[31m!\x1b[0m\n  \x1b[31m|\x1b[0mc \x1b[31m!\x1b[0m\n  +\x1b[31m=\x1b[0m\x1b[31m=\x1b[0m+\n"))) := by
  decide +kernel

/-- `boxes -d fr | boxes -d fr -r` with colours in the configuration and without colours on the terminal: the text is printed again -/
example {r : Res Outcome} (h : wholeProgram tintedMachine { options := [.design (lit "fr")] } 20 = some r) :
    ∃ text, r = .ok (.output none text) ∧ ∀ input' : Option Str → List Str, ReadInLines text (input' none) → (∀ p ∈ input' none, p.length < 16370) →
      wholeProgram { tintedMachine with input := input' } { options := [.design (lit "fr"), .remove] } 20 = some (.ok (.output none (lit "  ab\n  c\n"))) := by
  obtain ⟨text, h1, h2⟩ := C82_pipeline tintedMachine sampleDb_sane sampleDb_breaks { options := [.design (lit "fr")] } fr_draws 20 (a := frArgs) rfl
    ⟨by simp, by simp, by simp⟩ (by decide) (by decide) (by decide) (by decide) tintedDesign_loaded sampleMachine rfl frDesign_loaded frDesign_restorable tintedDesign_recoloured
    (by decide +kernel) (by decide +kernel) 'b' (by decide +kernel) (by decide) [(lit "  ab", lit "\n"), (lit "  c", lit "\n")] fr_lines (by simp) (by
      intro x p hp
      have := List.mem_of_getElem? hp
      left
      clear hp
      revert p; decide) rfl h
  exact ⟨text, h1, fun input' a b => h2 { options := [.design (lit "fr"), .remove] } input' (by simp) rfl ⟨by simp, by simp, by simp⟩ a b⟩

/-- the hypotheses of `C82_identity` hold of the design -/
example {r : Res (List (Bxs × Str))} (h : drawOnce sampleDb {} tintedDesign.core [] 0 [lit "  ab\n", lit "  c\n"] 20 = some r) :
    ∃ out printed, r = .ok out ∧ renderBox false out = .ok printed.flatten ∧ ((∀ s ∈ printed, s.length < 16370) → ∃ raw i j,
        readAllInput sampleDb { r := true } 0 printed = .ok raw ∧ analyzeInput sampleDb { r := true } tintedDesign.core [] raw = .ok i ∧
        handleRemoveBox sampleDb { r := true } (adjustSizeAndPadding { r := true } tintedDesign.core i) [] i = .ok (j, [(lit "  ab", lit "\n"), (lit "  c", lit "\n")])) := by
  obtain ⟨out, printed, h1, h2, -, -, h3⟩ := C82_identity sampleDb sampleDb_sane sampleDb_breaks {} { r := true } plain_drawing plain_removing frDesign.core frDesign.core tintedDesign.core
    tintedDesign.core frDesign_restorable frDesign_restorable.recognisable.ready rfl tintedDesign_recoloured tintedDesign_recoloured rfl (by decide +kernel) (by decide) 0 0
    [(lit "  ab", lit "\n"), (lit "  c", lit "\n")] fr_lines (by simp) (by
      intro x p hp
      have := List.mem_of_getElem? hp
      left
      clear hp
      revert p; decide) (.inl rfl) 20 h
  refine ⟨out, printed, h1, h2, fun hs => ?_⟩
  obtain ⟨raw, i, j, k1, k2, k3, -⟩ := h3 hs
  exact ⟨raw, i, j, k1, k2, k3⟩

end Boxes
