import Verif.Props.Mend
import Verif.Props.ColouredPipe

/-!
# Mending an intact box around coloured text gives back the same box (C74)
-/

set_option linter.unusedSimpArgs false

namespace Boxes
open Boxes.Spec ShapeName

/-- lines in colour are read as they are -/
theorem coloured_raw {db : CharDb} (hdb : Sane db) (hbr : BreaksSane db) {opt : Opt} (hr : opt.r = false) (ht : 1 ≤ opt.tabstop) (junk : Nat)
    (lines : List (Str × Str)) (vis : Str → Str) (hl : ∀ p ∈ lines, ColouredLine db p.1 (vis p.1) ∧ LineEnd p.2) {raw : Input}
    (h : readAllInput db opt junk (lines.map (fun p => p.1 ++ p.2)) = .ok raw) :
    raw.lines.map Line.text = lines.map (fun p => fromUnicode db p.1) ∧
      (raw.finalNewline = true ↔ EndsInBreak (lines.map (fun p => p.1 ++ p.2))) := by
  have hrd : ∀ s ∈ lines.map (fun p => p.1 ++ p.2), Readable db opt.tabstop s := by
    intro s hs
    obtain ⟨p, hp, rfl⟩ := List.mem_map.1 hs
    exact coloured_readable hbr (hl p hp).1 (hl p hp).2
  obtain ⟨ls, us, a1, a2, a3, a4, a5, a6⟩ := readLines_text hdb opt hr ht junk _ hrd
  have h' := h
  unfold readAllInput at h'
  rw [a1, Res.ok_bind] at h'
  simp only [Res.ok.injEq] at h'
  refine ⟨?_, ?_⟩
  · subst h'
    show ls.map Line.text = _
    rw [a2]
    apply List.ext_getElem?
    intro x
    rw [List.getElem?_map, List.getElem?_map]
    cases hx : lines[x]? with
    | none =>
      have : us[x]? = none := by
        rw [List.getElem?_eq_none_iff] at hx ⊢
        rw [a3, List.length_map]; exact hx
      rw [this, Option.map_none]
    | some t =>
      obtain ⟨u, q, z, y, g1, g3, g4, g5, g6, g7⟩ := a6 x _ (by rw [List.getElem?_map, hx]; rfl)
      obtain ⟨hl1, hl2⟩ := hl t (List.mem_of_getElem? hx)
      obtain rfl := coloured_read hbr hl1 hl2 g3 g4 g5 g6
      have htab : ∀ c ∈ t.1, c ≠ 0x09 := fun c hc => (hl1.chars c hc).1
      have e1 : u.1 = t.1 := Spec.Expand.unique g7 (expand_plain _ _ _ htab)
      rw [g1, Option.map_some, Option.map_some, e1]
  · exact (C47_lines db opt junk _ h).2

/-- C74, in colour: the program draws a box around a text whose lines may have escape sequences and is run again with the same options to mend the box that it printed.
The second run reads, prints nothing while removing the box, and draws exactly the same box, with the escape sequences where they were.  What is assumed of the text and of the
box is as in `C74_mended`. -/
theorem C74_coloured (s s' : Setup) (hdb : Sane s.db) (hbr : BreaksSane s.db) (hsame : s'.db = s.db) (hfuel : s.fuel ≤ s'.fuel) (opt opt' : Opt)
    (ho : PlainDrawing opt) (hm : opt.mend ≤ 0) (hh : opt.reqheight = 0)
    (ho' : opt' = { opt with mend := 2, r := true, killblank := 0 }) (d : Design) (ds ds' : List Design) (hd : Restorable s.db d)
    (mode : Char) (hmode : mode = if opt.indentmode = '\x00' then d.indentmode else opt.indentmode) (hmode' : mode = 't' ∨ mode = 'b')
    (hrules : s.rules 0 = []) (hrules' : s'.rules 0 = []) (hrev : s'.revRules 0 = []) (hu : s'.byUser = true)
    (lines : List (Str × Str)) (vis : Str → Str) (hl : ∀ p ∈ lines, ColouredLine s.db p.1 (vis p.1) ∧ p.1 ≠ [] ∧ LineEnd p.2) (hne : lines ≠ [])
    (hpieces : s.pieces = lines.map (fun p => p.1 ++ p.2)) (n n' : Nat) {res : Res (List Event)}
    (h : runProgram s opt (d :: ds) (n + 1) = some res) :
    ∃ out, res = .ok [.read, .drawn out] ∧ ((∀ p ∈ out, p.1.memory.length < 16370) →
      out.length = (d.shape NE).height + wanted opt.padding.top d.padding.top + lines.length + wanted opt.padding.bottom d.padding.bottom + (d.shape SE).height →
      s'.pieces = out.map (fun p => p.1.memory ++ p.2) →
      runProgram s' opt' (d :: ds') (n' + 2) = some (.ok [.read, .removed [], .drawn out])) := by
  obtain ⟨r, h1, h2⟩ := run_drawn s opt hm ho.draws d ds n h
  rw [hrules, hpieces] at h1
  obtain ⟨f1, f2, -, f4⟩ := prepareDesign_fields opt d
  have hl' : ∀ p ∈ lines, ColouredLine s.db p.1 (vis p.1) ∧ LineEnd p.2 := fun p hp => ⟨(hl p hp).1, (hl p hp).2.2⟩
  have hprep : prepareDesign opt' d = prepareDesign opt d := by rw [ho']; rfl
  -- the first run
  have hd1 := restorable_prepared opt hd
  obtain ⟨out, m, above, below, w, h3, hbox⟩ := rowsOf s.db hdb hbr opt ho (prepareDesign opt d) hd1 s.junk lines vis hl' hne s.fuel h1
  have h4 := coloured_lines_back s.db hdb hbr opt { opt with mend := -1, r := true, killblank := 0 } ho
    ⟨rfl, ho.tabs, ho.reqwidth, ho.tabstop, by simp⟩ (prepareDesign opt d) (prepareDesign opt d) hd1
    hd1.recognisable.ready.good rfl rfl (by
      intro hb
      rw [f4] at hb
      simp only
      by_cases h0 : opt.indentmode = '\x00'
      · exact .inr h0
      · rw [if_neg h0] at hb; exact .inl hb)
    s'.junk lines vis hl' hne (fun p hp => (hl p (List.mem_of_getElem? hp)).2.1) (fun p hp => (hl p (List.mem_of_getLast? hp)).2.1) hbox
  have hlen : 0 < out.length := by
    rw [hbox.rows.count]
    have : 0 < ((prepareDesign opt d).shape NE).height := (hd1.recognisable.ready.good.corner NE (by simp)).2.2
    omega
  refine ⟨out, h2 out h3 (List.length_pos_iff.1 hlen), fun hshort hfull hp => ?_⟩
  subst h3
  -- what the first run draws
  have hdraw : ∃ raw0 i0, readAllInput s.db opt s.junk (lines.map (fun p => p.1 ++ p.2)) = .ok raw0 ∧
      analyzeInput s.db opt (prepareDesign opt d) [] raw0 = .ok i0 ∧ i0.lines ≠ [] ∧
      handleGenerateBox s.db opt (adjustSizeAndPadding opt (prepareDesign opt d) i0) i0 s.fuel = some (.ok out) := by
    unfold drawOnce at h1
    cases hraw : readAllInput s.db opt s.junk (lines.map (fun p => p.1 ++ p.2)) with
    | fail k => rw [hraw] at h1; simp at h1
    | ub => rw [hraw] at h1; simp at h1
    | ok raw0 =>
      rw [hraw, Res.ok_bind] at h1
      cases hi : analyzeInput s.db opt (prepareDesign opt d) [] raw0 with
      | fail k => rw [hi] at h1; simp at h1
      | ub => rw [hi] at h1; simp at h1
      | ok i0 =>
        rw [hi] at h1
        simp only at h1
        by_cases h0 : i0.lines = []
        · rw [if_pos h0] at h1
          have := Res.ok.inj (Option.some.inj h1)
          rw [← this] at hlen; simp at hlen
        · rw [if_neg h0] at h1
          exact ⟨raw0, i0, rfl, hi, h0, h1⟩
  obtain ⟨raw0, i0, q1, q2, q3, q4⟩ := hdraw
  obtain ⟨raw, i, j, back, j1, j2, j3, jl, jf, jn, jt⟩ := h4 hshort (.inr ⟨rfl, by simp, hh, hh, rfl, rfl, by rw [f1, f2]; exact hfull⟩)
  -- the lines that are left are the lines that were read
  obtain ⟨t1, t2⟩ := coloured_raw hdb hbr ho.draws ho.tabstop s.junk lines vis hl' q1
  have hlines : j.lines = raw0.lines := by
    refine lines_eq ?_ (handleRemove_tabpos j3 ?_) (readAll_tabpos ho.tabs.2 q1)
    · rw [t1]
      apply List.ext_getElem?
      intro x
      rw [List.getElem?_map, List.getElem?_map]
      cases hx : lines[x]? with
      | none =>
        have : j.lines[x]? = none := by
          rw [List.getElem?_eq_none_iff] at hx ⊢
          rw [jl.1]; omega
        rw [this]; rfl
      | some q =>
        obtain ⟨p, e, g1, g2, g3, -⟩ := jt x q hx
        obtain ⟨l, g4, g5⟩ := jl.2 x p g1
        have hc : comesBack (prepareDesign opt d).indentmode m q.1 = q.1 := by
          unfold comesBack
          rw [f4, ← hmode, if_pos hmode'.symm]
        rw [g4]
        simp only [Option.map_some]
        rw [g5, g2, g3 (hl q (List.mem_of_getElem? hx)).2.1, hc]
        simp [spaces]
    · rw [analyze_removing rfl j2]
      exact readAll_tabpos (opt := { opt with mend := -1, r := true, killblank := 0 }) ho.tabs.2 j1
  have hfinal : j.finalNewline = raw0.finalNewline := by
    rw [Bool.eq_iff_iff, jf, t2]
  -- the second run
  have hil : i.lines ≠ [] := by
    intro h0
    have e1 := readAll_count j1
    rw [← analyze_removing rfl j2, h0] at e1
    simp at e1
    omega
  have hread : readAllInput s'.db { opt' with mend := 1 } s'.junk s'.pieces = .ok raw := by
    rw [hsame, hp, ← j1, ho']
    unfold readAllInput
    have : ∀ l, readLines s.db { opt with mend := 1, r := true, killblank := 0 } s'.junk l =
        readLines s.db { opt with mend := -1, r := true, killblank := 0 } s'.junk l := by
      intro l
      induction l with
      | nil => rfl
      | cons s r ih => rw [readLines, readLines, ih]; rfl
    rw [this]
  have hfit : adjustSizeAndPadding { opt' with mend := 1 } (prepareDesign opt d) i =
      adjustSizeAndPadding { opt with mend := -1, r := true, killblank := 0 } (prepareDesign opt d) i := by rw [ho']; rfl
  refine run_mended s' opt' (by rw [ho']) (by rw [ho']) hu hrev hrules' d ds' n' rfl rfl rfl rfl hread
    (i := i) (j := j) (i2 := i0) ?_ hil rfl ?_ rfl ?_ q3 ?_
  · rw [hprep, hsame, ← j2, ho']; rfl
  · rw [hprep, hsame, hfit]
    have := handleRemove_mending (opt := { opt with mend := -1, r := true, killblank := 0 }) (by simp) (m := 1) (by decide) j3
    rw [ho']; exact this
  · rw [hprep, hsame, ← q2, ← analyze_lines hlines hfinal, ho']
    have hr0 := ho.draws
    unfold analyzeInput
    simp only [hr0]
    rfl
  · rw [hprep, hsame, ho']
    have e := adjust_again opt ho.reqwidth hh 0 0 1 false true (prepareDesign opt d) i i0
    refine (congrArg (fun z => handleGenerateBox s.db _ z i0 s'.fuel) e).trans ?_
    exact (generate_opts s.db opt 0 0 false _ i0 s'.fuel).trans (handleGenerateBox_more _ _ _ _ hfuel q4)

/-- C74, in colour, for the complete program (`boxes -d X | boxes -d X -m`): the program is run with a design chosen by name on lines in colour, and escape sequences are output;
it is run again, with the same options and -m, and reads what the first run printed.  If the text fills the box, then the second run prints exactly what it has read. -/
theorem C74_coloured_pipeline (m : Machine) (hdb : Sane m.db) (hbr : BreaksSane m.db) (c : CommandLine) (hc : DrawsWith c) (fuel : Nat) {a : Args}
    (hopts : optionLoop c.options createNewOpt = some (a, false)) (hfiles : UsableFiles m.canRead m.canWrite c.files)
    (htab : a.opt.tabexp ≠ 'u' ∧ a.opt.tabexp ≠ 'k') (heol : a.opt.eol = [0x0a] ∨ a.opt.eol = [0x0d, 0x0a])
    {file : Bxs} {d : DesignDef} {ds : List DesignDef} {ps : List Bxs} (h : Loaded m a fuel file d ds ps) (hd : Restorable m.db d.core)
    (hrules : d.reprules = []) (hrev : d.revrules = [])
    (mode : Char) (hmode : mode = if a.opt.indentmode = '\x00' then d.core.indentmode else a.opt.indentmode) (hmode' : mode = 't' ∨ mode = 'b')
    (lines : List (Str × Str)) (vis : Str → Str) (hl : ∀ p ∈ lines, ColouredLine m.db p.1 (vis p.1) ∧ p.1 ≠ [] ∧ LineEnd p.2) (hne : lines ≠ [])
    (hpieces : m.input (named c.files 0) = lines.map (fun p => p.1 ++ p.2))
    (hcol : colours c.options m.terminalColors = true) {r : Res Outcome} (hrun : wholeProgram m c fuel = some r) :
    ∃ text, r = .ok (.output (named c.files 1) text) ∧ ∀ (c' : CommandLine) (input' : Option Str → List Str), c'.first ≠ some (lit "-?") →
      c'.options = c.options ++ [.mend] → UsableFiles m.canRead m.canWrite c'.files →
      ReadInLines text (input' (named c'.files 0)) → (∀ p ∈ input' (named c'.files 0), p.length < 16370) →
      (input' (named c'.files 0)).length = (d.core.shape NE).height + wanted a.opt.padding.top d.core.padding.top + lines.length +
        wanted a.opt.padding.bottom d.core.padding.bottom + (d.core.shape SE).height →
      ∀ fuel', fuel < fuel' → wholeProgram { m with input := input' } c' fuel' = some (.ok (.output (named c'.files 1) text)) := by
  have hl' : ∀ p ∈ lines, ColouredLine m.db p.1 (vis p.1) ∧ LineEnd p.2 := fun p hp => ⟨(hl p hp).1, (hl p hp).2.2⟩
  obtain ⟨ho, hm, hh, hqn, hln, hu, hdes⟩ := draws_opts hc hopts htab heol
  have e := whole_run m c fuel hc.first hopts hfiles hc.create hqn hln h
  rw [e] at hrun
  cases fuel with
  | zero => simp [runProgram, mainLoop] at hrun
  | succ n =>
  cases hev : runProgram (setupOf m a (m.input (named c.files 0)) (d :: ds) (n + 1)) a.opt (d.core :: ds.map (·.core)) (n + 1) with
  | none => rw [hev] at hrun; simp at hrun
  | some res =>
  obtain ⟨r', k1, k2⟩ := run_drawn (setupOf m a (m.input (named c.files 0)) (d :: ds) (n + 1)) a.opt (by rw [hm]; decide) ho.draws d.core (ds.map (·.core)) n hev
  have k1' : drawOnce m.db a.opt (prepareDesign a.opt d.core) [] m.junk (lines.map (fun p => p.1 ++ p.2)) (n + 1) = some r' := by
    rw [← k1, ← hpieces]
    show _ = drawOnce m.db a.opt (prepareDesign a.opt d.core) (rulesOf m (fun d => d.reprules) (d :: ds) 0) m.junk _ (n + 1)
    simp only [rulesOf, List.getElem?_cons_zero, hrules, List.map_nil]
    rfl
  have hd1 := restorable_prepared a.opt hd
  obtain ⟨out, n1, above, below, w, rfl, hbox⟩ := rowsOf m.db hdb hbr a.opt ho _ hd1 m.junk lines vis hl' hne (n + 1) k1'
  obtain ⟨out', hbox', hlen', hvis⟩ := rowsOf_visible hdb hd1 hl' hbox
  have hlen : out ≠ [] := by
    intro h0
    have := hbox.rows.count
    rw [h0] at this
    have h1 : 0 < ((prepareDesign a.opt d.core).shape NE).height := (hd1.recognisable.ready.good.corner NE (by simp)).2.2
    simp at this; omega
  rw [k2 out rfl hlen] at hev
  rw [hev] at hrun
  have hrender := renderBox_rows m.db out out' hlen' (by
    intro x p hp
    obtain ⟨p', e1, e2, e3⟩ := hvis x p hp
    exact ⟨p', e1, hbox.rows.read p (List.mem_of_getElem? hp), e2, e3⟩) (colours c.options m.terminalColors)
  simp only [Option.map_some, Res.ok_bind, renderEvents, hrender, List.append_nil, Option.some.injEq] at hrun
  refine ⟨_, hrun.symm, fun c' input' hfirst' hopts' hfiles' hread hshort hfull fuel' hfuel => ?_⟩
  -- what the second run reads
  have hin : ∀ {lines' : List (Str × Str)} {vis' : Str → Str} {o : List (Bxs × Str)} {n1 above below w : Nat}
      (_ : RowsOf m.db a.opt (prepareDesign a.opt d.core) lines' vis' n1 above below w o),
      ReadInLines (o.map (fun p => p.1.memory ++ p.2)).flatten (o.map (fun p => p.1.memory ++ p.2)) := by
    intro lines' vis' o n1 above below w hb
    have hpr := drawnTexts_rows hdb hd1 hb.rows hb.pieces
    have := readInLines_rows (rows := o.map (fun p => (p.1.memory, p.2))) (by
      intro q hq
      obtain ⟨p, hp, rfl⟩ := List.mem_map.1 hq
      obtain ⟨v, hv⟩ := hpr p hp
      refine ⟨fun hc => (hv.chars _ hc).2.1 rfl, ?_, ?_⟩
      · obtain ⟨z, hz, -⟩ := hv.seen
        have := text_mem hv.text z hz
        intro h0
        simp only at h0
        rw [h0] at this; simp at this
      · obtain ⟨x, hx⟩ := List.getElem?_of_mem hp
        obtain ⟨g1, g2⟩ := hb.ends x p hx
        by_cases hbr : EndsInBreak (lines'.map (fun p => p.1 ++ p.2)) ∨ x + 1 ≠ o.length
        · simp only; rw [g1 hbr]; exact .inr ho.eol
        · exact .inl (g2 (fun h => hbr (.inl h)) (Classical.byContradiction fun h => hbr (.inr h)))) (by
      intro x q hx hq
      rw [List.getElem?_map] at hq
      cases hp : o[x]? with
      | none => rw [hp] at hq; simp at hq
      | some p =>
        rw [hp] at hq
        obtain rfl := Option.some.inj hq
        simp only
        rw [(hb.ends x p hp).1 (.inr (by simp at hx; omega))]
        rcases ho.eol with e | e <;> simp [e])
    simpa [List.map_map, Function.comp_def] using this
  rw [hcol] at hrender hread
  have hcol' : colours c'.options m.terminalColors = true := by
    rw [← hcol, hopts']
    simp [colours, latest]
  have hin := readInLines_unique _ _ _ hread (hin hbox)
  simp only [if_true] at hin
  have ha' : optionLoop c'.options createNewOpt = some ({ a with opt := { a.opt with mend := 2, r := true, killblank := 0 } }, false) := by
    rw [hopts']
    exact optionLoop_more (x := .mend) c.options createNewOpt hopts rfl
  have e' := whole_run { m with input := input' } c' fuel' hfirst' ha' hfiles' (by
    rw [hopts']
    intro s hs
    simp at hs
    exact hc.create s hs) hqn hln (loaded_again (Nat.le_of_lt hfuel) h input' rfl rfl rfl hdes)
  have hle : n + 1 ≤ fuel' := Nat.le_of_lt hfuel
  obtain ⟨out', q1, q2⟩ := C74_coloured (setupOf m a (m.input (named c.files 0)) (d :: ds) (n + 1))
    (setupOf { m with input := input' } { a with opt := { a.opt with mend := 2, r := true, killblank := 0 } } (input' (named c'.files 0)) (d :: ds) fuel') hdb hbr rfl
    hle a.opt { a.opt with mend := 2, r := true, killblank := 0 } ho (by rw [hm]; decide) hh rfl
    d.core (ds.map (·.core)) (ds.map (·.core)) hd mode hmode hmode'
    (by simp [setupOf, rulesOf, hrules]) (by simp [setupOf, rulesOf, hrules]) (by simp [setupOf, rulesOf, hrev]) hu lines vis hl hne hpieces n (fuel' - 2) hev
  have hoo : out' = out := by simpa using q1.symm
  subst hoo
  have q3 := q2 (by
    intro p hp
    have := hshort (p.1.memory ++ p.2) (by rw [hin]; exact List.mem_map.2 ⟨p, hp, rfl⟩)
    simp at this; omega) (by rw [← hfull, hin]; simp) hin
  rw [show fuel' - 2 + 2 = fuel' by omega] at q3
  rw [e']
  rw [show runProgram (setupOf { m with input := input' } { a with opt := { a.opt with mend := 2, r := true, killblank := 0 } } (input' (named c'.files 0)) (d :: ds) fuel')
    { a.opt with mend := 2, r := true, killblank := 0 } (d.core :: ds.map (·.core)) fuel' = _ from q3]
  simp only [Option.map_some, Res.ok_bind, renderEvents, hcol', hrender, hcol, if_true, List.map_nil, List.flatten_nil, List.nil_append, List.append_nil]

/-! ## Examples -/

/-- lines, one of them in colour, that fill the box of the sample design -/
def paintedLines : List (Str × Str) := [(lit "  \x1b[31ma \x1b[32mb\x1b[0m", [0x0a]), (lit " cd", [0x0a]), (lit " cd", [0x0a])]

theorem painted_lines : ∃ vis : Str → Str, ∀ p ∈ paintedLines, ColouredLine sampleDb p.1 (vis p.1) ∧ p.1 ≠ [] ∧ LineEnd p.2 := by
  obtain ⟨⟨v, hv⟩, -⟩ := colour_lines (lit "  \x1b[31ma \x1b[32mb\x1b[0m", [0x0a]) (by simp [colourLines])
  obtain ⟨⟨w, hw⟩, -⟩ := colour_lines (lit " cd", [0x0a]) (by simp [colourLines])
  refine ⟨fun t => if t = lit " cd" then w else v, fun p hp => ?_⟩
  simp only [paintedLines, List.mem_cons, List.not_mem_nil, or_false] at hp
  rcases hp with rfl | rfl | rfl
  · simp only; rw [if_neg (by decide)]; exact ⟨hv, by decide, .inr (.inl rfl)⟩
  · simp only; rw [if_pos trivial]; exact ⟨hw, by decide, .inr (.inl rfl)⟩
  · simp only; rw [if_pos trivial]; exact ⟨hw, by decide, .inr (.inl rfl)⟩

/-- the first run of the example: every row is shorter than the buffer, and the box is full -/
theorem painted_run : (match runProgram { db := sampleDb, pieces := paintedLines.map (fun p => p.1 ++ p.2), byUser := true, fuel := 100 } {} [sampleDesign] 1 with
    | some (.ok [.read, .drawn out]) => decide (out.length = 6 ∧ ∀ p ∈ out, p.1.memory.length < 16370)
    | _ => false) = true := by
  decide +kernel

/-- the hypotheses of `C74_coloured` hold of the two runs -/
example : ∃ out, runProgram { db := sampleDb, pieces := paintedLines.map (fun p => p.1 ++ p.2), byUser := true, fuel := 100 } {} [sampleDesign] 1 =
      some (.ok [.read, .drawn out]) ∧
    runProgram { db := sampleDb, pieces := out.map (fun p => p.1.memory ++ p.2), byUser := true, fuel := 100 } { mend := 2, r := true, killblank := 0 } [sampleDesign] 2 =
      some (.ok [.read, .removed [], .drawn out]) := by
  have h := painted_run
  obtain ⟨vis, hvis⟩ := painted_lines
  split at h
  · rename_i out hrun
    simp only [decide_eq_true_eq] at h
    obtain ⟨out', h1, h2⟩ := C74_coloured { db := sampleDb, pieces := paintedLines.map (fun p => p.1 ++ p.2), byUser := true, fuel := 100 }
      { db := sampleDb, pieces := out.map (fun p => p.1.memory ++ p.2), byUser := true, fuel := 100 } sampleDb_sane
      sampleDb_breaks rfl (Nat.le_refl _) {} { mend := 2, r := true, killblank := 0 } plain_drawing (by decide) rfl rfl sampleDesign [] []
      sampleDesign_restorable 'b' rfl (.inr rfl) rfl rfl rfl rfl paintedLines vis hvis (by decide) rfl 0 0 hrun
    have : out' = out := by simpa using h1.symm
    subst this
    exact ⟨out', hrun, h2 h.2 (by rw [h.1]; decide +kernel) rfl⟩
  · simp at h

/-- the colours are where they were -/
example : drawAndMend sampleDb {} sampleDesign (paintedLines.map (fun p => p.1 ++ p.2)) 100 =
    some ([" ..-=<>=-.", " O|  \x1b[31ma \x1b[32mb\x1b[0m )", " || cd   (", " || cd   )", " ||      (", " `'######'"].map lit,
      [" ..-=<>=-.", " O|  \x1b[31ma \x1b[32mb\x1b[0m )", " || cd   (", " || cd   )", " ||      (", " `'######'"].map lit) := by decide +kernel

/-- `boxes -d fr | boxes -d fr -m`, in colour -/
example (text : Str) (h : wholeProgram (redMachine true) { options := [.design (lit "fr")] } 20 = some (.ok (.output none text)))
    (box : List Str) (hbox : ReadInLines text box) (hshort : ∀ p ∈ box, p.length < 16370) (hfull : box.length = 4) (fuel : Nat) (hf : 20 < fuel) :
    wholeProgram { redMachine true with input := fun _ => box } { options := [.design (lit "fr"), .mend] } fuel = some (.ok (.output none text)) := by
  obtain ⟨text', h1, h2⟩ := C74_coloured_pipeline (redMachine true) sampleDb_sane sampleDb_breaks { options := [.design (lit "fr")] } fr_draws 20 (a := frArgs) rfl
    ⟨by simp, by simp, by simp⟩ (by decide) (by decide) (red_loaded true) frDesign_restorable (by decide +kernel) (by decide +kernel) 'b' (by decide +kernel)
    (by decide) redLines redVis (fun p hp => ⟨(red_lines p hp).1, (red_lines p hp).2, .inr (.inl (by
      have : ∀ p ∈ redLines, p.2 = [0x0a] := by decide +kernel
      exact this p hp))⟩) (by simp [redLines]) (by decide +kernel) rfl h
  obtain rfl : text = text' := by simp at h1; exact h1.2
  exact h2 { options := [.design (lit "fr"), .mend] } (fun _ => box) (by simp) rfl ⟨by simp, by simp, by simp⟩ hbox hshort (by rw [hfull]; decide +kernel) fuel hf

/-- the first run prints four lines, one of them in colour -/
example : wholeProgram (redMachine true) { options := [.design (lit "fr")] } 20 = some (.ok (.output none ([lit "  +--*\n", lit "  |\x1b[31mab\x1b[0m!\n", lit "  |c !\n",
    lit "  +==+\n"].flatten))) := by decide +kernel

end Boxes
