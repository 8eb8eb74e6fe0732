import Verif.Lemmas.Visible
import Verif.Props.Pipe

/-!
# C78 for the complete program

The program is run to draw a box around lines in colour and run again to remove the box.  If the escape sequences are printed, the lines come back with
all of them; if they are not printed, the lines come back without them.
-/
namespace Boxes
open Spec ShapeName
set_option linter.unusedSimpArgs false

/-- the second run, which reads the rows of a box -/
theorem second_run (s' : Setup) (hdb : Sane s'.db) (hbr : BreaksSane s'.db) (opt opt' : Opt) (ho : PlainDrawing opt)
    (ho' : PlainRemoving opt') (d : Design) (ds' : List Design) (hd : Restorable s'.db d)
    (hpad : wanted opt'.padding.left d.padding.left = wanted opt.padding.left d.padding.left)
    (mode : Char) (hmode : mode = if opt.indentmode = '\x00' then d.indentmode else opt.indentmode)
    (hmode' : mode = 't' ∨ (mode = 'b' ∧ (opt'.indentmode = 'b' ∨ opt'.indentmode = '\x00'))) (hkill : opt'.killblank ≠ 0)
    (hrev : s'.revRules 0 = []) (hu : s'.byUser = true)
    (lines : List (Str × Str)) (vis : Str → Str) (hl : ∀ p ∈ lines, ColouredLine s'.db p.1 (vis p.1) ∧ p.1 ≠ []) (hne : lines ≠ [])
    (hterm : ∀ (x : Nat) p, lines[x]? = some p → p.2 = opt'.eol ∨ (x + 1 = lines.length ∧ p.2 = [])) (heol : opt'.eol = [0x0a] ∨ opt'.eol = [0x0d, 0x0a])
    (n' : Nat) {n above below w : Nat} {out : List (Bxs × Str)} (hbox : RowsOf s'.db opt (prepareDesign opt d) lines vis n above below w out)
    (hshort : ∀ p ∈ out, p.1.memory.length < 16370) (hp : s'.pieces = out.map (fun p => p.1.memory ++ p.2)) :
    runProgram s' opt' (d :: ds') (n' + 1) = some (.ok [.read, .removed lines]) := by
  obtain ⟨f1, f2, -, f4⟩ := prepareDesign_fields opt d
  obtain ⟨g1, g2, -, -⟩ := prepareDesign_fields opt' d
  have hk1 : killblankDefault opt'.killblank d ≠ 0 := by
    unfold killblankDefault
    have hside := side_seen hdb hd.recognisable
    split
    · rw [if_neg]
      · decide
      · intro h
        have := congrArg Sides.top hside
        simp only [determineEmptySides] at this
        rw [h.1] at this; simp at this
    · exact hkill
  have hmend' := ho'.mend
  obtain ⟨raw, i, j, j1, j2, j3, -⟩ := identity_rows s'.db hdb hbr opt { opt' with mend := opt'.mend - 1, killblank := killblankDefault opt'.killblank d } ho
    ⟨ho'.removes, ho'.tabs, ho'.reqwidth, ho'.tabstop, by simp only; omega⟩ (prepareDesign opt d) (prepareDesign opt' d) (restorable_prepared opt hd)
    (restorable_prepared opt' hd).recognisable.ready.good (g1.trans f1.symm) (by rw [g2, f2]; exact hpad) (by rw [f4, ← hmode]; exact hmode') hk1
    s'.junk lines vis hl hne hterm heol hbox hshort
  have hlen : 0 < out.length := by
    rw [hbox.rows.count]
    have : 0 < ((prepareDesign opt d).shape NE).height := ((restorable_prepared opt hd).recognisable.ready.good.corner NE (by simp)).2.2
    omega
  rw [← hp] at j1
  refine run_removed s' opt' ho'.mend ho'.removes hu hrev d ds' n' rfl j1 j2 ?_ j3
  intro h0
  have e1 := readAll_count j1
  rw [← analyze_removing ho'.removes j2, h0, hp] at e1
  simp at e1
  omega

theorem lineEnds {lines : List (Str × Str)} {eol : Str} (hterm : ∀ (x : Nat) p, lines[x]? = some p → p.2 = eol ∨ (x + 1 = lines.length ∧ p.2 = []))
    (heol : eol = [0x0a] ∨ eol = [0x0d, 0x0a]) : ∀ p ∈ lines, LineEnd p.2 := by
  intro p hp
  obtain ⟨x, hx⟩ := List.getElem?_of_mem hp
  rcases hterm x p hx with h | h
  · rw [h]; exact .inr heol
  · exact .inl h.2

/-- C78, for the program: it is run to draw a box around lines in colour and run again, with the same design, to remove the box from what the first run
printed.  If the second run reads the rows as they were drawn, it prints exactly the lines; if it reads them without their escape sequences, it prints the lines
without theirs. -/
theorem C78_program (s s' : Setup) (hdb : Sane s.db) (hbr : BreaksSane s.db) (hsame : s'.db = s.db) (opt opt' : Opt) (ho : PlainDrawing opt)
    (hm : opt.mend ≤ 0) (ho' : PlainRemoving opt') (d : Design) (ds ds' : List Design) (hd : Restorable s.db d)
    (hpad : wanted opt'.padding.left d.padding.left = wanted opt.padding.left d.padding.left)
    (mode : Char) (hmode : mode = if opt.indentmode = '\x00' then d.indentmode else opt.indentmode)
    (hmode' : mode = 't' ∨ (mode = 'b' ∧ (opt'.indentmode = 'b' ∨ opt'.indentmode = '\x00'))) (hkill : opt'.killblank ≠ 0)
    (hrules : s.rules 0 = []) (hrev : s'.revRules 0 = []) (hu : s'.byUser = true)
    (lines : List (Str × Str)) (vis : Str → Str) (hl : ∀ p ∈ lines, ColouredLine s.db p.1 (vis p.1) ∧ p.1 ≠ []) (hne : lines ≠ [])
    (hterm : ∀ (x : Nat) p, lines[x]? = some p → p.2 = opt'.eol ∨ (x + 1 = lines.length ∧ p.2 = [])) (heol : opt'.eol = [0x0a] ∨ opt'.eol = [0x0d, 0x0a])
    (hpieces : s.pieces = lines.map (fun p => p.1 ++ p.2)) (n n' : Nat) {res : Res (List Event)}
    (h : runProgram s opt (d :: ds) (n + 1) = some res) :
    ∃ out out' : List (Bxs × Str), res = .ok [.read, .drawn out] ∧ out ≠ [] ∧ out'.length = out.length ∧
      (∀ (x : Nat) p, out[x]? = some p → ∃ p', out'[x]? = some p' ∧ fromUnicode s.db p.1.memory = some p.1 ∧ Text p.1.memory p'.1.memory ∧ p'.2 = p.2 ∧
        LineEnd p.2 ∧ (x + 1 < out.length → p.2 ≠ []) ∧ 0x0a ∉ p.1.memory ∧ p'.1.memory ≠ []) ∧
      ((∀ p ∈ out, p.1.memory.length < 16370) → s'.pieces = out.map (fun p => p.1.memory ++ p.2) →
        runProgram s' opt' (d :: ds') (n' + 1) = some (.ok [.read, .removed lines])) ∧
      ((∀ p ∈ out', p.1.memory.length < 16370) → s'.pieces = out'.map (fun p => p.1.memory ++ p.2) →
        runProgram s' opt' (d :: ds') (n' + 1) = some (.ok [.read, .removed (lines.map (fun p => (vis p.1, p.2)))])) := by
  obtain ⟨r, h1, h2⟩ := run_drawn s opt hm ho.draws d ds n h
  rw [hrules, hpieces] at h1
  have hd1 := restorable_prepared opt hd
  have hl' : ∀ p ∈ lines, ColouredLine s.db p.1 (vis p.1) ∧ LineEnd p.2 := fun p hp => ⟨(hl p hp).1, lineEnds hterm heol p hp⟩
  obtain ⟨out, n1, above, below, w, rfl, hbox⟩ := rowsOf s.db hdb hbr opt ho (prepareDesign opt d) hd1 s.junk lines vis hl' hne s.fuel h1
  obtain ⟨out', hbox', hlen', hvis⟩ := rowsOf_visible hdb hd1 hl' hbox
  have hlen : 0 < out.length := by
    rw [hbox.rows.count]
    have : 0 < ((prepareDesign opt d).shape NE).height := (hd1.recognisable.ready.good.corner NE (by simp)).2.2
    omega
  refine ⟨out, out', h2 out rfl (List.length_pos_iff.1 hlen), List.length_pos_iff.1 hlen, hlen', ?_, ?_, ?_⟩
  · intro x p hp
    obtain ⟨p', e1, e2, e3⟩ := hvis x p hp
    obtain ⟨g1, g2⟩ := hbox.ends x p hp
    obtain ⟨v, hv⟩ := drawnTexts_rows hdb hd1 hbox.rows hbox.pieces p (List.mem_of_getElem? hp)
    refine ⟨p', e1, hbox.rows.read p (List.mem_of_getElem? hp), e2, e3, ?_, ?_, fun hc => (hv.chars _ hc).2.1 rfl, ?_⟩
    · by_cases hb : EndsInBreak (lines.map (fun p => p.1 ++ p.2)) ∨ x + 1 ≠ out.length
      · rw [g1 hb]; exact .inr ho.eol
      · exact .inl (g2 (fun h => hb (.inl h)) (Classical.byContradiction fun h => hb (.inr h)))
    · intro hx
      rw [g1 (.inr (by omega))]
      rcases ho.eol with e | e <;> simp [e]
    · rw [e2.unique hv.text]
      obtain ⟨c, hc, -⟩ := hv.seen
      intro h0
      rw [h0] at hc; simp at hc
  · intro hs hp
    exact second_run s' (hsame ▸ hdb) (hsame ▸ hbr) opt opt' ho ho' d ds' (hsame ▸ hd) hpad mode hmode hmode' hkill hrev hu lines vis (hsame ▸ hl) hne hterm heol n'
      (hsame ▸ hbox) hs hp
  · intro hs hp
    refine second_run s' (hsame ▸ hdb) (hsame ▸ hbr) opt opt' ho ho' d ds' (hsame ▸ hd) hpad mode hmode hmode' hkill hrev hu (lines.map (fun p => (vis p.1, p.2))) id
      ?_ (by simpa using hne) ?_ heol n' (hsame ▸ hbox') hs hp
    · intro p' hp'
      obtain ⟨p, hp, rfl⟩ := List.mem_map.1 hp'
      rw [hsame]
      refine ⟨coloured_visible (hl p hp).1, ?_⟩
      obtain ⟨u, c, hu, -⟩ := coloured_last hbr (hl p hp).1 (hl p hp).2
      simp only
      rw [hu]; simp
    · intro x p' hp'
      rw [List.getElem?_map] at hp'
      cases hp : lines[x]? with
      | none => rw [hp] at hp'; simp at hp'
      | some p =>
        rw [hp] at hp'
        obtain rfl := Option.some.inj hp'
        simpa using hterm x p hp

/-- what is printed of rows, with and without their escape sequences -/
theorem renderBox_rows (db : CharDb) : ∀ (out out' : List (Bxs × Str)), out'.length = out.length →
    (∀ (x : Nat) p, out[x]? = some p → ∃ p', out'[x]? = some p' ∧ fromUnicode db p.1.memory = some p.1 ∧ Text p.1.memory p'.1.memory ∧ p'.2 = p.2) →
    ∀ color, renderBox color out = .ok ((if color then out else out').map (fun p => p.1.memory ++ p.2)).flatten := by
  intro out
  induction out with
  | nil =>
    intro out' hlen _ color
    obtain rfl := List.length_eq_zero_iff.1 (by simpa using hlen)
    cases color <;> rfl
  | cons p more ih =>
    intro out' hlen h color
    cases out' with
    | nil => simp at hlen
    | cons p' more' =>
      obtain ⟨q, e1, e2, e3, e4⟩ := h 0 p rfl
      simp only [List.getElem?_cons_zero, Option.some.injEq] at e1
      subst e1
      have ho := C03_output db e3 e2
      have := ih more' (by simpa using hlen) (fun x q hq => h (x + 1) q (by simpa using hq)) color
      obtain ⟨b, e⟩ := p
      rw [renderBox, this]
      cases color with
      | true =>
        rw [show b.toOutput true = some b.memory from ho.1]
        simp [Res.get, Res.ok_bind]
      | false =>
        rw [show b.toOutput false = some p'.1.memory from ho.2]
        simp only at e4
        simp [Res.get, Res.ok_bind, e4]

/-- C78, for the complete program (`boxes -d X | boxes -d X -r`): the program is run with a design chosen by name on lines in colour; it is run again, with the same options
and -r, and reads what the first run printed, from wherever it was printed to.  The second run prints exactly what the first one read if escape sequences are output, and
the same lines without their escape sequences if they are not. -/
theorem C78_pipeline (m : Machine) (hdb : Sane m.db) (hbr : BreaksSane m.db) (c : CommandLine) (hc : DrawsWith c) (fuel : Nat) {a : Args}
    (hopts : optionLoop c.options createNewOpt = some (a, false)) (hfiles : UsableFiles m.canRead m.canWrite c.files)
    (htab : a.opt.tabexp ≠ 'u' ∧ a.opt.tabexp ≠ 'k') (heol : a.opt.eol = [0x0a] ∨ a.opt.eol = [0x0d, 0x0a]) (hkill : a.opt.killblank ≠ 0)
    {file : Bxs} {d : DesignDef} {ds : List DesignDef} {ps : List Bxs} (h : Loaded m a fuel file d ds ps) (hd : Restorable m.db d.core)
    (hrules : d.reprules = []) (hrev : d.revrules = [])
    (mode : Char) (hmode : mode = if a.opt.indentmode = '\x00' then d.core.indentmode else a.opt.indentmode) (hmode' : mode = 't' ∨ mode = 'b')
    (lines : List (Str × Str)) (vis : Str → Str) (hl : ∀ p ∈ lines, ColouredLine m.db p.1 (vis p.1) ∧ p.1 ≠ []) (hne : lines ≠ [])
    (hterm : ∀ (x : Nat) p, lines[x]? = some p → p.2 = a.opt.eol ∨ (x + 1 = lines.length ∧ p.2 = []))
    (hpieces : m.input (named c.files 0) = lines.map (fun p => p.1 ++ p.2))
    {r : Res Outcome} (hrun : wholeProgram m c fuel = some r) :
    ∃ text, r = .ok (.output (named c.files 1) text) ∧ ∀ (c' : CommandLine) (input' : Option Str → List Str), c'.first ≠ some (lit "-?") →
      c'.options = c.options ++ [.remove] → UsableFiles m.canRead m.canWrite c'.files →
      ReadInLines text (input' (named c'.files 0)) → (∀ p ∈ input' (named c'.files 0), p.length < 16370) →
      wholeProgram { m with input := input' } c' fuel = some (.ok (.output (named c'.files 1)
        (lines.map (fun p => (if colours c.options m.terminalColors then p.1 else vis p.1) ++ p.2)).flatten)) := by
  have hl' : ∀ p ∈ lines, ColouredLine m.db p.1 (vis p.1) ∧ LineEnd p.2 := fun p hp => ⟨(hl p hp).1, lineEnds hterm heol p hp⟩
  obtain ⟨ho, hm, hh, hqn, hln, hu, hdes⟩ := draws_opts hc hopts htab heol
  have e := whole_run m c fuel hc.first hopts hfiles hc.create hqn hln h
  rw [e] at hrun
  cases fuel with
  | zero => simp [runProgram, mainLoop] at hrun
  | succ n =>
  cases hev : runProgram (setupOf m a (m.input (named c.files 0)) (d :: ds) (n + 1)) a.opt (d.core :: ds.map (·.core)) (n + 1) with
  | none => rw [hev] at hrun; simp at hrun
  | some res =>
  obtain ⟨r', k1, k2⟩ := run_drawn _ a.opt (by rw [hm]; decide) ho.draws d.core (ds.map (·.core)) n hev
  have k1' : drawOnce m.db a.opt (prepareDesign a.opt d.core) [] m.junk (lines.map (fun p => p.1 ++ p.2)) (n + 1) = some r' := by
    rw [← k1, ← hpieces]
    show _ = drawOnce m.db a.opt (prepareDesign a.opt d.core) (rulesOf m (fun d => d.reprules) (d :: ds) 0) m.junk _ (n + 1)
    simp only [rulesOf, List.getElem?_cons_zero, hrules, List.map_nil]
    rfl
  have hd1 := restorable_prepared a.opt hd
  obtain ⟨out, n1, above, below, w, rfl, hbox⟩ := rowsOf m.db hdb hbr a.opt ho _ hd1 m.junk lines vis hl' hne (n + 1) k1'
  obtain ⟨out', hbox', hlen', hvis⟩ := rowsOf_visible hdb hd1 hl' hbox
  have hlen : out ≠ [] := by
    intro h0
    have := hbox.rows.count
    rw [h0] at this
    have h1 : 0 < ((prepareDesign a.opt d.core).shape NE).height := (hd1.recognisable.ready.good.corner NE (by simp)).2.2
    simp at this; omega
  rw [k2 out rfl hlen] at hev
  rw [hev] at hrun
  have hrender := renderBox_rows m.db out out' hlen' (by
    intro x p hp
    obtain ⟨p', e1, e2, e3⟩ := hvis x p hp
    exact ⟨p', e1, hbox.rows.read p (List.mem_of_getElem? hp), e2, e3⟩) (colours c.options m.terminalColors)
  simp only [Option.map_some, Res.ok_bind, renderEvents, hrender, List.append_nil, Option.some.injEq] at hrun
  refine ⟨_, hrun.symm, fun c' input' hfirst' hopts' hfiles' hread hshort => ?_⟩
  -- what the second run reads
  have hin : ∀ {lines' : List (Str × Str)} {vis' : Str → Str} {o : List (Bxs × Str)} {n1 above below w : Nat}
      (_ : RowsOf m.db a.opt (prepareDesign a.opt d.core) lines' vis' n1 above below w o),
      ReadInLines (o.map (fun p => p.1.memory ++ p.2)).flatten (o.map (fun p => p.1.memory ++ p.2)) := by
    intro lines' vis' o n1 above below w hb
    have hpr := drawnTexts_rows hdb hd1 hb.rows hb.pieces
    have := readInLines_rows (rows := o.map (fun p => (p.1.memory, p.2))) (by
      intro q hq
      obtain ⟨p, hp, rfl⟩ := List.mem_map.1 hq
      obtain ⟨v, hv⟩ := hpr p hp
      refine ⟨fun hc => (hv.chars _ hc).2.1 rfl, ?_, ?_⟩
      · obtain ⟨z, hz, -⟩ := hv.seen
        have := text_mem hv.text z hz
        intro h0
        simp only at h0
        rw [h0] at this; simp at this
      · obtain ⟨x, hx⟩ := List.getElem?_of_mem hp
        obtain ⟨g1, g2⟩ := hb.ends x p hx
        by_cases hbr : EndsInBreak (lines'.map (fun p => p.1 ++ p.2)) ∨ x + 1 ≠ o.length
        · simp only; rw [g1 hbr]; exact .inr ho.eol
        · exact .inl (g2 (fun h => hbr (.inl h)) (Classical.byContradiction fun h => hbr (.inr h)))) (by
      intro x q hx hq
      rw [List.getElem?_map] at hq
      cases hp : o[x]? with
      | none => rw [hp] at hq; simp at hq
      | some p =>
        rw [hp] at hq
        obtain rfl := Option.some.inj hq
        simp only
        rw [(hb.ends x p hp).1 (.inr (by simp at hx; omega))]
        rcases ho.eol with e | e <;> simp [e])
    simpa [List.map_map, Function.comp_def] using this
  have ha' : optionLoop c'.options createNewOpt = some ({ a with opt := { a.opt with r := true } }, false) := by
    rw [hopts']
    exact optionLoop_more (x := .remove) c.options createNewOpt hopts rfl
  have e2 := whole_run { m with input := input' } c' (n + 1) hfirst' ha' hfiles' (by
    rw [hopts']
    intro s hs
    simp at hs
    exact hc.create s hs) hqn hln (loaded_again (Nat.le_refl _) h input' rfl rfl rfl hdes)
  -- the second run
  have key : ∀ {lines' : List (Str × Str)} {vis' : Str → Str} {o : List (Bxs × Str)} {n1 above below w : Nat}
      (_ : RowsOf m.db a.opt (prepareDesign a.opt d.core) lines' vis' n1 above below w o)
      (_ : ∀ p ∈ lines', ColouredLine m.db p.1 (vis' p.1) ∧ p.1 ≠ []) (_ : lines' ≠ [])
      (_ : ∀ (x : Nat) p, lines'[x]? = some p → p.2 = a.opt.eol ∨ (x + 1 = lines'.length ∧ p.2 = [])),
      input' (named c'.files 0) = o.map (fun p => p.1.memory ++ p.2) →
      wholeProgram { m with input := input' } c' (n + 1) = some (.ok (.output (named c'.files 1) (lines'.map (fun p => p.1 ++ p.2)).flatten)) := by
    intro lines' vis' o n1 above below w hb hl1 hne1 hterm1 hin1
    have q3 := second_run (setupOf { m with input := input' } { a with opt := { a.opt with r := true } } (input' (named c'.files 0)) (d :: ds) (n + 1)) hdb hbr
      a.opt { a.opt with r := true } ho ⟨rfl, ho.tabs, ho.reqwidth, ho.tabstop, by simp only; rw [hm]; decide⟩
      d.core (ds.map (·.core)) hd rfl mode hmode (by
        rcases hmode' with h | h
        · exact .inl h
        · refine .inr ⟨h, ?_⟩
          rw [hmode] at h
          by_cases h0 : a.opt.indentmode = '\x00'
          · exact .inr h0
          · rw [if_neg h0] at h; exact .inl h) hkill
      (by simp [setupOf, rulesOf, hrev]) hu lines' vis' hl1 hne1 hterm1 heol n hb (by
        intro p hp
        have := hshort (p.1.memory ++ p.2) (by rw [hin1]; exact List.mem_map.2 ⟨p, hp, rfl⟩)
        simp at this; omega) hin1
    rw [e2]
    rw [show runProgram (setupOf { m with input := input' } { a with opt := { a.opt with r := true } } (input' (named c'.files 0)) (d :: ds) (n + 1))
      { a.opt with r := true } (d.core :: ds.map (·.core)) (n + 1) = _ from q3]
    simp only [Option.map_some, Res.ok_bind, renderEvents, List.append_nil]
  cases hcol : colours c.options m.terminalColors with
  | true =>
    rw [hcol] at hread
    have := key hbox hl hne hterm (readInLines_unique _ _ _ hread (hin hbox))
    simpa using this
  | false =>
    rw [hcol] at hread
    have := key hbox' (by
      intro p' hp'
      obtain ⟨p, hp, rfl⟩ := List.mem_map.1 hp'
      refine ⟨coloured_visible (hl p hp).1, ?_⟩
      obtain ⟨u, z, hz, -⟩ := coloured_last hbr (hl p hp).1 (hl p hp).2
      simp only
      rw [hz]; simp) (by simpa using hne) (by
      intro x p' hp'
      rw [List.getElem?_map] at hp'
      cases hp : lines[x]? with
      | none => rw [hp] at hp'; simp at hp'
      | some p =>
        rw [hp] at hp'
        obtain rfl := Option.some.inj hp'
        simpa using hterm x p hp) (readInLines_unique _ _ _ hread (hin hbox'))
    simpa [List.map_map, Function.comp_def] using this

/-! ## Examples -/

/-- the sample machine with lines in colour as its input, and a terminal that can or cannot show colours -/
def redMachine (term : Bool) : Machine :=
  { sampleMachine with input := fun _ => [lit "  \x1b[31mab\x1b[0m\n", lit "  c\n"], terminalColors := term }

def redLines : List (Str × Str) := [(lit "  \x1b[31mab\x1b[0m", lit "\n"), (lit "  c", lit "\n")]

def redVis (s : Str) : Str := if s = lit "  \x1b[31mab\x1b[0m" then lit "  ab" else s

theorem red_not_reset : ¬ ResetSeq (lit "\x1b[31m") := by
  intro h
  generalize hs : lit "\x1b[31m" = s at h
  cases h with
  | mk o params f h1 h2 h3 h4 =>
    simp only [List.mem_cons, List.not_mem_nil, or_false] at h2
    rcases h2 with rfl | rfl | rfl | rfl | rfl | rfl | rfl <;> simp [lit] at hs <;> omega

theorem red_lines : ∀ p ∈ redLines, ColouredLine sampleDb p.1 (redVis p.1) ∧ p.1 ≠ [] := by
  have red : EscSeq (lit "\x1b[31m") := csi_sgr (params := [0x33, 0x31]) (by decide)
  have hreset : ResetSeq (lit "\x1b[0m") := .mk 0x5b [0x30] 0x6d (.inl rfl) (by decide) (by decide) (by decide)
  intro p hp
  simp only [redLines, List.mem_cons, List.not_mem_nil, or_false] at hp
  rcases hp with rfl | rfl
  · have hv : redVis (lit "  \x1b[31mab\x1b[0m") = lit "  ab" := by decide
    rw [hv]
    have h1 : Text (lit "  \x1b[31ma") (lit "  a") := .vis 0x20 (by decide) (.vis 0x20 (by decide) (.esc _ red (.vis 0x61 (by decide) .nil)))
    refine ⟨⟨?_, by unfold Forbidden; decide +kernel, by decide +kernel, .inr ⟨2, lit "\x1b[31m", 0x61, lit "b\x1b[0m", by decide, by decide,
      by decide +kernel, .inr ⟨red, red_not_reset⟩⟩, .inr ⟨lit "  \x1b[31ma", lit "  a", 0x62, lit "\x1b[0m", by decide, h1, by decide, by decide +kernel, .inr hreset⟩,
      .inr ⟨0x61, by decide, by unfold ShowsChar; decide +kernel⟩, by decide⟩, by decide⟩
    exact h1.append (.vis 0x62 (by decide) (.esc _ hreset.esc .nil))
  · have hv : redVis (lit "  c") = lit "  c" := by decide
    rw [hv]
    exact ⟨⟨.plain (by decide), by unfold Forbidden; decide +kernel, by decide +kernel, .inr ⟨2, [], 0x63, [], by decide, by decide,
      by decide +kernel, .inl rfl⟩, .inr ⟨lit "  ", lit "  ", 0x63, [], by decide, .plain (by decide), by decide, by decide +kernel, .inl rfl⟩,
      .inr ⟨0x63, by decide, by unfold ShowsChar; decide +kernel⟩, by decide⟩, by decide⟩

theorem red_loaded (term : Bool) : Loaded (redMachine term) frArgs 20 (fileName "/h/.config/boxes/boxes-config") frDesign [] [] :=
  let h := frDesign_loaded
  { found := h.found, designs := h.designs }

/-- what is printed, and what is printed when it is read again to remove the box -/
theorem red_pipe (term : Bool) {text : Str} (h : wholeProgram (redMachine term) { options := [.design (lit "fr")] } 20 = some (.ok (.output none text)))
    (box : List Str) (hbox : ReadInLines text box) (hshort : ∀ p ∈ box, p.length < 16370) :
    wholeProgram { redMachine term with input := fun _ => box } { options := [.design (lit "fr"), .remove] } 20 =
      some (.ok (.output none (if term then lit "  \x1b[31mab\x1b[0m\n  c\n" else lit "  ab\n  c\n"))) := by
  obtain ⟨text', h1, h2⟩ := C78_pipeline (redMachine term) sampleDb_sane sampleDb_breaks { options := [.design (lit "fr")] } fr_draws 20 (a := frArgs) rfl
    ⟨by simp, by simp, by simp⟩ (by decide) (by decide) (by decide) (red_loaded term) frDesign_restorable (by decide +kernel) (by decide +kernel) 'b' (by decide +kernel)
    (by decide) redLines redVis red_lines (by simp [redLines]) (by
      intro x p hp
      left
      have : ∀ x < 2, ∀ p ∈ redLines[x]?, p.2 = frArgs.opt.eol := by decide +kernel
      exact this x (by have := (List.getElem?_eq_some_iff.1 hp).1; simpa [redLines] using this) p hp) (by cases term <;> decide +kernel) h
  obtain rfl : text = text' := by simp at h1; exact h1.2
  have := h2 { options := [.design (lit "fr"), .remove] } (fun _ => box) (by simp) rfl ⟨by simp, by simp, by simp⟩ hbox hshort
  rw [this]
  cases term <;> decide +kernel

/-- the hypotheses hold: the box is printed in colour, or without escape sequences -/
example : wholeProgram (redMachine true) { options := [.design (lit "fr")] } 20 =
    some (.ok (.output none (lit "  +--*\n  |\x1b[31mab\x1b[0m!\n  |c !\n  +==+\n"))) := by decide +kernel

example : wholeProgram (redMachine false) { options := [.design (lit "fr")] } 20 =
    some (.ok (.output none (lit "  +--*\n  |ab!\n  |c !\n  +==+\n"))) := by decide +kernel

end Boxes
