import Verif.Lemmas.Pipe
import Verif.Props.Mend
import Verif.Props.Whole
import Verif.Props.Chars

/-!
# One run removes or mends the box that another run has drawn (C71, C74)
-/

set_option linter.unusedSimpArgs false

namespace Boxes
open Boxes.Spec ShapeName

/-- the designs that are used by a run with one more option, reading something else -/
theorem loaded_again {m : Machine} {a a' : Args} {fuel fuel' : Nat} (hf : fuel ≤ fuel') {file : Bxs} {d : DesignDef} {ds : List DesignDef} {ps : List Bxs}
    (h : Loaded m a fuel file d ds ps) (input' : Option Str → List Str) (h1 : a'.f = a.f) (h2 : a'.design = a.design) (h3 : a'.opt.eol = a.opt.eol)
    (hc : a.design.isSome = true) : Loaded { m with input := input' } a' fuel' file d ds ps where
  found := by rw [h1]; exact h.found
  designs := by
    have e : parseEnv { m with input := input' } a' =
        { parseEnv m a with r := a'.opt.r, l := a'.l, query := a'.query.isSome, qundoc := a'.qundoc } := by
      unfold parseEnv
      simp only [h1, h2, h3]
    rw [e, parseConfigFiles_env _ _ hc]
    exact parseConfigFiles_more _ _ hf _ h.designs

/-- what is needed to know about a run that draws a box with a design chosen by its name: no listing, no query, no removal, no alignment, no size -/
structure DrawsWith (c : CommandLine) : Prop where
  first : c.first ≠ some (lit "-?")
  list : .list ∉ c.options
  query : ∀ s, .query s ∉ c.options
  remove : .remove ∉ c.options
  mend : .mend ∉ c.options
  create : ∀ s, .create s ∉ c.options
  align : ∀ s, .align s ∉ c.options
  size : ∀ s, .size s ∉ c.options
  design : ∃ s, .design s ∈ c.options

theorem draws_opts {c : CommandLine} (hc : DrawsWith c) {a : Args} (hopts : optionLoop c.options createNewOpt = some (a, false))
    (htab : a.opt.tabexp ≠ 'u' ∧ a.opt.tabexp ≠ 'k') (heol : a.opt.eol = [0x0a] ∨ a.opt.eol = [0x0d, 0x0a]) :
    PlainDrawing a.opt ∧ a.opt.mend = 0 ∧ a.opt.reqheight = 0 ∧ a.query = none ∧ a.l = false ∧ a.byUser = true ∧ a.design.isSome = true := by
  obtain ⟨s1, s2, s3, s4, -⟩ := C58_switches c.options a hopts
  obtain ⟨w1, w2, w3, w4, w5, w6⟩ := C58_words c.options a hopts
  obtain ⟨hh, -, hj⟩ := (unset_options c.options a hopts).2 hc.align
  have hrw : a.opt.reqwidth = 0 := by
    rcases w4 with ⟨x, ⟨pre', post', e, ⟨s, -, -, rfl, -⟩, -⟩, -⟩ | ⟨-, e⟩
    · exact absurd (by rw [e]; simp) (hc.size s)
    · exact e
  refine ⟨⟨?_, htab, hj, by rw [hh]; decide, hrw, (C37_range c.options a hopts).1, heol⟩, by rw [s3, if_neg hc.mend], ?_, ?_, ?_, ?_, ?_⟩
  · cases hb : a.opt.r with
    | false => rfl
    | true => exact absurd (s2.1 hb) (by simp [hc.remove, hc.mend])
  · rcases w5 with ⟨x, ⟨pre', post', e, ⟨s, -, -, rfl, -⟩, -⟩, -⟩ | ⟨-, e⟩
    · exact absurd (by rw [e]; simp) (hc.size s)
    · exact e
  · rcases w6 with ⟨x, ⟨pre', post', e, -, hno⟩, arg', q, rfl, hq', e'⟩ | ⟨hn, e⟩
    · exact absurd (by rw [e]; simp) (hc.query arg')
    · exact e
  · cases hb : a.l with
    | false => rfl
    | true => exact absurd (s1.1 hb) hc.list
  · obtain ⟨s, hs⟩ := hc.design
    exact s4.2 ⟨s, .inl hs⟩
  · rw [(C58_last c.options a hopts).2.1]
    obtain ⟨s, hs⟩ := hc.design
    have : ∀ (l : List Option') (z : Option Str), (.design s ∈ l ∨ z.isSome = true) → (latest (fun x => match x with | .design s => some (some s) | _ => none) l z).isSome = true := by
      intro l
      induction l with
      | nil => intro z hz; exact hz.resolve_left (by simp)
      | cons x l ih =>
        intro z hz
        rw [latest_cons]
        apply ih
        by_cases hx : ∃ t, x = .design t
        · obtain ⟨t, rfl⟩ := hx
          exact .inr rfl
        · rcases hz with hz | hz
          · rcases List.mem_cons.1 hz with h | h
            · exact absurd ⟨s, h.symm⟩ hx
            · exact .inl h
          · refine .inr ?_
            cases x
            case design t => exact absurd ⟨t, rfl⟩ hx
            all_goals exact hz
    exact this _ _ (.inl hs)

/-- what the main loop is given -/
def setupOf (m : Machine) (a : Args) (pieces : List Str) (ds : List DesignDef) (fuel : Nat) : Setup where
  db := m.db
  junk := m.junk
  pieces := pieces
  byUser := a.byUser
  rules := rulesOf m (fun d => d.reprules) ds
  revRules := rulesOf m (fun d => d.revrules) ds
  fuel := fuel

/-- the run of the main loop in a run of the program that neither lists nor searches designs -/
theorem whole_run (m : Machine) (c : CommandLine) (fuel : Nat) (hfirst : c.first ≠ some (lit "-?")) {a : Args}
    (hopts : optionLoop c.options createNewOpt = some (a, false)) (hfiles : UsableFiles m.canRead m.canWrite c.files)
    (hcr : ∀ s, .create s ∉ c.options) (hq : a.query = none) (hl : a.l = false)
    {file : Bxs} {d : DesignDef} {ds : List DesignDef} {ps : List Bxs} (h : Loaded m a fuel file d ds ps) :
    wholeProgram m c fuel =
      match (runProgram (setupOf m a (m.input (named c.files 0)) (d :: ds) fuel) a.opt (d.core :: ds.map (·.core)) fuel).map
          (fun r => (do let ev ← r; renderEvents (colours c.options m.terminalColors) ev : Res Str)) with
      | none => none
      | some (.fail _) => some (.fail 1)
      | some .ub => some .ub
      | some (.ok text) => some (.ok (.output (named c.files 1) text)) := by
  obtain ⟨f, before, after, ds', ps', e1, e2, e3, e4⟩ := whole_loaded m c fuel hfirst hopts hfiles hcr h
  rw [e4]
  unfold mainTask
  simp only [hq, hl, List.map_cons, colour_setting hopts]
  rw [if_neg (by simp), if_neg (by simp)]
  rfl

/-- C69: Mending a box (`-m`): if the program succeeds, then the input was read and analysed; the design is the first one if one was chosen and otherwise
the one that was detected; the box was removed without printing anything; what was left was analysed again with the options of a run that draws, and with the
minimum size that the first design had before (src/boxes.c:548-549); and the box drawn around it was printed; nothing if there was nothing left. -/
theorem C69_mending (m : Machine) (c : CommandLine) (fuel : Nat) (hfirst : c.first ≠ some (lit "-?")) {a : Args}
    (hopts : optionLoop c.options createNewOpt = some (a, false)) (hfiles : UsableFiles m.canRead m.canWrite c.files)
    (hlist : .list ∉ c.options) (hq : ∀ s, .query s ∉ c.options) (hmend : .mend ∈ c.options) (hcr : ∀ s, .create s ∉ c.options)
    {file : Bxs} {d : DesignDef} {ds : List DesignDef} {ps : List Bxs} (h : Loaded m a fuel file d ds ps)
    (hne : m.input (named c.files 0) ≠ [])
    {to : Option Str} {text : Str} (hrun : wholeProgram m c fuel = some (.ok (.output to text))) :
    ∃ raw i k cores d' d2 e j i',
      readAllInput m.db { a.opt with mend := 1 } m.junk (m.input (named c.files 0)) = .ok raw ∧
      analyzeInput m.db { a.opt with mend := 1 } (prepareDesign a.opt d.core) (d.reprules.map m.substitution) raw = .ok i ∧
      detectDesignIfNeeded m.db (adjustSizeAndPadding { a.opt with mend := 1 } (prepareDesign a.opt d.core) i :: ds.map (·.core)) i.lines
        (if a.byUser then some 0 else none) = .ok (k, cores) ∧
      ((∃ s, .design s ∈ c.options) → k = 0) ∧
      cores[k]? = some d' ∧ (d :: ds)[k]? = some e ∧
      handleRemoveBox m.db { a.opt with mend := 1, killblank := killblankDefault a.opt.killblank (prepareDesign a.opt d.core) } d'
        (e.revrules.map m.substitution) i = .ok (j, []) ∧
      d2 = { d' with minwidth := (prepareDesign a.opt d.core).minwidth, minheight := (prepareDesign a.opt d.core).minheight } ∧
      analyzeInput m.db { a.opt with mend := 0, r := false, killblank := killblankDefault a.opt.killblank (prepareDesign a.opt d.core) } d2
        (e.reprules.map m.substitution) j = .ok i' ∧ to = named c.files 1 ∧
      ((i'.lines = [] ∧ text = []) ∨ i'.lines ≠ [] ∧ ∃ out, renderBox (colours c.options m.terminalColors) out = .ok text ∧
        handleGenerateBox m.db { a.opt with mend := 0, r := false, killblank := killblankDefault a.opt.killblank (prepareDesign a.opt d.core) }
          (adjustSizeAndPadding { a.opt with mend := 0, r := false, killblank := killblankDefault a.opt.killblank (prepareDesign a.opt d.core) } d2 i') i' fuel
          = some (.ok out)) := by
  obtain ⟨s1, s2, s3, s4, -⟩ := C58_switches c.options a hopts
  have hqn : a.query = none := by
    rcases (C58_words c.options a hopts).2.2.2.2.2 with ⟨x, ⟨pre', post', e, -, hno⟩, arg', q, rfl, hq', e'⟩ | ⟨hn, e⟩
    · exact absurd (by rw [e]; simp) (hq arg')
    · exact e
  have hmn : a.opt.mend = 2 := by rw [s3, if_pos hmend]
  have hrn : a.opt.r = true := s2.2 (.inr hmend)
  have hln : a.l = false := by
    cases hb : a.l with
    | false => rfl
    | true => exact absurd (s1.1 hb) hlist
  rw [whole_run m c fuel hfirst hopts hfiles hcr hqn hln h] at hrun
  cases hev : runProgram (setupOf m a (m.input (named c.files 0)) (d :: ds) fuel) a.opt (d.core :: ds.map (·.core)) fuel with
  | none => rw [hev] at hrun; simp at hrun
  | some res =>
  rw [hev] at hrun
  cases res with
  | fail k => simp at hrun
  | ub => simp at hrun
  | ok ev =>
  simp only [Option.map_some, Res.ok_bind] at hrun
  have hev2 := runProgram_more _ (Nat.le_refl _) _ _ (show fuel ≤ fuel + 2 by omega) hev
  obtain ⟨raw, i, g1, g2, g3⟩ := C45_mend (setupOf m a (m.input (named c.files 0)) (d :: ds) fuel) a.opt hmn hrn _ d.core rfl fuel ev hev2
  have hr0 : rulesOf m (fun d => d.reprules) (d :: ds) 0 = d.reprules.map m.substitution := rfl
  have g2' : analyzeInput m.db { a.opt with mend := 1 } (prepareDesign a.opt d.core) (d.reprules.map m.substitution) raw = .ok i := g2
  have hlines : i.lines ≠ [] := by
    rw [analyze_removing (by exact hrn) g2']
    intro e
    have := readAll_count g1
    rw [e] at this
    exact hne (List.length_eq_zero_iff.1 this.symm)
  rcases g3 with ⟨g, -⟩ | ⟨-, cores, k, d', j, i', q1, q2, q3, q4, q5⟩
  · exact absurd g hlines
  have q1' : detectDesignIfNeeded m.db (adjustSizeAndPadding { a.opt with mend := 1 } (prepareDesign a.opt d.core) i :: ds.map (·.core)) i.lines
        (if a.byUser then some 0 else none) = .ok (k, cores) := q1
  have hlen := detectIfNeeded_length q1'
  have hk : k < (d :: ds).length := by
    have : k < cores.length := by
      rcases Nat.lt_or_ge k cores.length with h | h
      · exact h
      · rw [List.getElem?_eq_none h] at q2; simp at q2
    simpa [hlen] using this
  have hrules : ∀ f : DesignDef → List Rule, rulesOf m f (d :: ds) k = (f (d :: ds)[k]).map m.substitution := by
    intro f
    unfold rulesOf
    rw [List.getElem?_eq_getElem hk]
  refine ⟨raw, i, k, cores, d', _, (d :: ds)[k], j, i', g1, g2', q1', ?_, q2, List.getElem?_eq_getElem hk, ?_, rfl, ?_, ?_, ?_⟩
  · rintro ⟨s, hs⟩
    have hu := s4.2 ⟨s, .inl hs⟩
    rw [if_pos hu] at q1'
    simp only [detectDesignIfNeeded, Res.ok.injEq, Prod.mk.injEq] at q1'
    exact q1'.1.symm
  · rw [← hrules]; exact q3
  · rw [← hrules]; exact q4
  · split at hrun
    · simp at hrun
    · simp at hrun
    · simp at hrun
    · simp only [Option.some.injEq, Res.ok.injEq, Outcome.output.injEq] at hrun
      exact hrun.1.symm
  · rcases q5 with ⟨q6, rfl⟩ | ⟨q6, out, rfl, q7⟩
    · left
      refine ⟨q6, ?_⟩
      simp [renderEvents] at hrun
      exact hrun.2
    · right
      refine ⟨q6, out, ?_, q7⟩
      cases hrb : renderBox (colours c.options m.terminalColors) out with
      | fail k => simp [renderEvents, hrb] at hrun
      | ub => simp [renderEvents, hrb] at hrun
      | ok t =>
        simp [renderEvents, hrb] at hrun
        rw [hrun.2]

/-- the run that draws the box -/
theorem piped_first (m : Machine) (hdb : Sane m.db) (hbr : BreaksSane m.db) (c : CommandLine) (hc : DrawsWith c) (fuel : Nat) {a : Args}
    (hopts : optionLoop c.options createNewOpt = some (a, false)) (hfiles : UsableFiles m.canRead m.canWrite c.files)
    (htab : a.opt.tabexp ≠ 'u' ∧ a.opt.tabexp ≠ 'k') (heol : a.opt.eol = [0x0a] ∨ a.opt.eol = [0x0d, 0x0a])
    {file : Bxs} {d : DesignDef} {ds : List DesignDef} {ps : List Bxs} (h : Loaded m a fuel file d ds ps) (hd : Restorable m.db d.core)
    (hrules : d.reprules = [])
    (lines : List (Str × Str)) (hl : ∀ p ∈ lines, PlainLine m.db p.1 ∧ LineEnd p.2) (hne : lines ≠ [])
    (hpieces : m.input (named c.files 0) = lines.map (fun p => p.1 ++ p.2))
    {r : Res Outcome} (hrun : wholeProgram m c fuel = some r) :
    ∃ n out text, fuel = n + 1 ∧
      runProgram (setupOf m a (m.input (named c.files 0)) (d :: ds) fuel) a.opt (d.core :: ds.map (·.core)) (n + 1) = some (.ok [.read, .drawn out]) ∧
      r = .ok (.output (named c.files 1) text) ∧ ReadInLines text (out.map (fun p => p.1.memory ++ p.2)) ∧
      ∀ color, renderBox color out = .ok text := by
  obtain ⟨ho, hm, hh, hqn, hln, hu, hdes⟩ := draws_opts hc hopts htab heol
  have e := whole_run m c fuel hc.first hopts hfiles hc.create hqn hln h
  rw [e] at hrun
  cases fuel with
  | zero => simp [runProgram, mainLoop] at hrun
  | succ n =>
  cases hev : runProgram (setupOf m a (m.input (named c.files 0)) (d :: ds) (n + 1)) a.opt (d.core :: ds.map (·.core)) (n + 1) with
  | none => rw [hev] at hrun; simp at hrun
  | some res =>
  obtain ⟨r', k1, k2⟩ := run_drawn _ a.opt (by rw [hm]; decide) ho.draws d.core (ds.map (·.core)) n hev
  have k1' : drawOnce m.db a.opt (prepareDesign a.opt d.core) [] m.junk (lines.map (fun p => p.1 ++ p.2)) (n + 1) = some r' := by
    rw [← k1, ← hpieces]
    show _ = drawOnce m.db a.opt (prepareDesign a.opt d.core) (rulesOf m (fun d => d.reprules) (d :: ds) 0) m.junk _ (n + 1)
    simp only [rulesOf, List.getElem?_cons_zero, hrules, List.map_nil]
    rfl
  have hd1 := restorable_prepared a.opt hd
  obtain ⟨out, n1, above, below, w, rfl, -, -, i3, -⟩ := drawn_rows m.db hdb hbr a.opt ho _ hd1 m.junk lines hl hne (n + 1) k1'
  obtain ⟨p1, p2⟩ := drawn_printable m.db hdb hbr a.opt ho _ hd1 m.junk lines hl hne (n + 1) k1' (colours c.options m.terminalColors)
  have hlen : out ≠ [] := by
    intro h0
    have := i3.count
    rw [h0] at this
    have h1 : 0 < ((prepareDesign a.opt d.core).shape NE).height := (hd1.recognisable.ready.good.corner NE (by simp)).2.2
    simp at this; omega
  rw [k2 out rfl hlen] at hev
  rw [hev] at hrun
  simp only [Option.map_some, Res.ok_bind, renderEvents, p1, List.append_nil, Option.some.injEq] at hrun
  exact ⟨n, out, _, rfl, hev, hrun.symm, p2,
    fun color => (drawn_printable m.db hdb hbr a.opt ho _ hd1 m.junk lines hl hne (n + 1) k1' color).1⟩

/-- C71, for the complete program (`boxes -d X | boxes -d X -r`): the program is run with a design chosen by name; it is run again, with the same options and -r, and reads what
the first run printed, from wherever it was printed to.  The second run prints exactly what the first one read. -/
theorem C71_pipeline (m : Machine) (hdb : Sane m.db) (hbr : BreaksSane m.db) (c : CommandLine) (hc : DrawsWith c) (fuel : Nat) {a : Args}
    (hopts : optionLoop c.options createNewOpt = some (a, false)) (hfiles : UsableFiles m.canRead m.canWrite c.files)
    (htab : a.opt.tabexp ≠ 'u' ∧ a.opt.tabexp ≠ 'k') (heol : a.opt.eol = [0x0a] ∨ a.opt.eol = [0x0d, 0x0a]) (hkill : a.opt.killblank ≠ 0)
    {file : Bxs} {d : DesignDef} {ds : List DesignDef} {ps : List Bxs} (h : Loaded m a fuel file d ds ps) (hd : Restorable m.db d.core)
    (hrules : d.reprules = []) (hrev : d.revrules = [])
    (mode : Char) (hmode : mode = if a.opt.indentmode = '\x00' then d.core.indentmode else a.opt.indentmode) (hmode' : mode = 't' ∨ mode = 'b')
    (lines : List (Str × Str)) (hl : ∀ p ∈ lines, PlainLine m.db p.1 ∧ p.1 ≠ []) (hne : lines ≠ [])
    (hterm : ∀ (x : Nat) p, lines[x]? = some p → p.2 = a.opt.eol ∨ (x + 1 = lines.length ∧ p.2 = []))
    (hpieces : m.input (named c.files 0) = lines.map (fun p => p.1 ++ p.2))
    {r : Res Outcome} (hrun : wholeProgram m c fuel = some r) :
    ∃ text, r = .ok (.output (named c.files 1) text) ∧ ∀ (c' : CommandLine) (input' : Option Str → List Str), c'.first ≠ some (lit "-?") →
      c'.options = c.options ++ [.remove] → UsableFiles m.canRead m.canWrite c'.files →
      ReadInLines text (input' (named c'.files 0)) → (∀ p ∈ input' (named c'.files 0), p.length < 16370) →
      wholeProgram { m with input := input' } c' fuel = some (.ok (.output (named c'.files 1) (m.input (named c.files 0)).flatten)) := by
  have hpl : ∀ p ∈ lines, PlainLine m.db p.1 ∧ LineEnd p.2 := by
    intro p hp
    refine ⟨(hl p hp).1, ?_⟩
    obtain ⟨x, hx⟩ := List.getElem?_of_mem hp
    rcases hterm x p hx with h | h
    · rw [h]; exact .inr heol
    · exact .inl h.2
  obtain ⟨ho, hm, hh, hqn, hln, hu, hdes⟩ := draws_opts hc hopts htab heol
  obtain ⟨n, out, text, rfl, h1, rfl, h2, -⟩ := piped_first m hdb hbr c hc fuel hopts hfiles htab heol h hd hrules lines hpl hne hpieces hrun
  refine ⟨text, rfl, fun c' input' hfirst' hopts' hfiles' hread hshort => ?_⟩
  obtain hin := readInLines_unique _ _ _ hread h2
  have ha' : optionLoop c'.options createNewOpt = some ({ a with opt := { a.opt with r := true } }, false) := by
    rw [hopts']
    exact optionLoop_more (x := .remove) c.options createNewOpt hopts rfl
  have e := whole_run { m with input := input' } c' (n + 1) hfirst' ha' hfiles' (by
    rw [hopts']
    intro s hs
    simp at hs
    exact hc.create s hs) hqn hln (loaded_again (Nat.le_refl _) h input' rfl rfl rfl hdes)
  obtain ⟨out', q1, q2⟩ := C71_program (setupOf m a (m.input (named c.files 0)) (d :: ds) (n + 1))
    (setupOf { m with input := input' } { a with opt := { a.opt with r := true } } (input' (named c'.files 0)) (d :: ds) (n + 1)) hdb hbr rfl
    a.opt { a.opt with r := true } ho (by rw [hm]; decide) ⟨rfl, ho.tabs, ho.reqwidth, ho.tabstop, by simp only; rw [hm]; decide⟩
    d.core (ds.map (·.core)) (ds.map (·.core)) hd rfl mode hmode (by
      rcases hmode' with h | h
      · exact .inl h
      · refine .inr ⟨h, ?_⟩
        rw [hmode] at h
        by_cases h0 : a.opt.indentmode = '\x00'
        · exact .inr h0
        · rw [if_neg h0] at h; exact .inl h) hkill
    (by simp [setupOf, rulesOf, hrules]) (by simp [setupOf, rulesOf, hrev]) hu lines hl hne hterm heol hpieces n n h1
  have hoo : out' = out := by simpa using q1.symm
  subst hoo
  have q3 := q2 (by
    intro p hp
    have := hshort (p.1.memory ++ p.2) (by rw [hin]; exact List.mem_map.2 ⟨p, hp, rfl⟩)
    simp at this; omega) hin
  rw [e]
  rw [show runProgram (setupOf { m with input := input' } { a with opt := { a.opt with r := true } } (input' (named c'.files 0)) (d :: ds) (n + 1))
    { a.opt with r := true } (d.core :: ds.map (·.core)) (n + 1) = _ from q3]
  simp only [Option.map_some, Res.ok_bind, renderEvents, List.append_nil, hpieces]

/-- C74, for the complete program (`boxes -d X | boxes -d X -m`): the program is run with a design chosen by name; it is run again, with the same options and -m, and reads what
the first run printed.  If the text fills the box, then the second run prints exactly what it has read. -/
theorem C74_pipeline (m : Machine) (hdb : Sane m.db) (hbr : BreaksSane m.db) (c : CommandLine) (hc : DrawsWith c) (fuel : Nat) {a : Args}
    (hopts : optionLoop c.options createNewOpt = some (a, false)) (hfiles : UsableFiles m.canRead m.canWrite c.files)
    (htab : a.opt.tabexp ≠ 'u' ∧ a.opt.tabexp ≠ 'k') (heol : a.opt.eol = [0x0a] ∨ a.opt.eol = [0x0d, 0x0a])
    {file : Bxs} {d : DesignDef} {ds : List DesignDef} {ps : List Bxs} (h : Loaded m a fuel file d ds ps) (hd : Restorable m.db d.core)
    (hrules : d.reprules = []) (hrev : d.revrules = [])
    (mode : Char) (hmode : mode = if a.opt.indentmode = '\x00' then d.core.indentmode else a.opt.indentmode) (hmode' : mode = 't' ∨ mode = 'b')
    (lines : List (Str × Str)) (hl : ∀ p ∈ lines, PlainLine m.db p.1 ∧ p.1 ≠ [] ∧ LineEnd p.2) (hne : lines ≠ [])
    (hpieces : m.input (named c.files 0) = lines.map (fun p => p.1 ++ p.2))
    {r : Res Outcome} (hrun : wholeProgram m c fuel = some r) :
    ∃ text, r = .ok (.output (named c.files 1) text) ∧ ∀ (c' : CommandLine) (input' : Option Str → List Str), c'.first ≠ some (lit "-?") →
      c'.options = c.options ++ [.mend] → UsableFiles m.canRead m.canWrite c'.files →
      ReadInLines text (input' (named c'.files 0)) → (∀ p ∈ input' (named c'.files 0), p.length < 16370) →
      (input' (named c'.files 0)).length = (d.core.shape NE).height + wanted a.opt.padding.top d.core.padding.top + lines.length +
        wanted a.opt.padding.bottom d.core.padding.bottom + (d.core.shape SE).height →
      ∀ fuel', fuel < fuel' → wholeProgram { m with input := input' } c' fuel' = some (.ok (.output (named c'.files 1) text)) := by
  have hpl : ∀ p ∈ lines, PlainLine m.db p.1 ∧ LineEnd p.2 := fun p hp => ⟨(hl p hp).1, (hl p hp).2.2⟩
  obtain ⟨ho, hm, hh, hqn, hln, hu, hdes⟩ := draws_opts hc hopts htab heol
  obtain ⟨n, out, text, rfl, h1, rfl, h2, h3⟩ := piped_first m hdb hbr c hc fuel hopts hfiles htab heol h hd hrules lines hpl hne hpieces hrun
  refine ⟨text, rfl, fun c' input' hfirst' hopts' hfiles' hread hshort hfull fuel' hfuel => ?_⟩
  obtain hin := readInLines_unique _ _ _ hread h2
  have ha' : optionLoop c'.options createNewOpt = some ({ a with opt := { a.opt with mend := 2, r := true, killblank := 0 } }, false) := by
    rw [hopts']
    exact optionLoop_more (x := .mend) c.options createNewOpt hopts rfl
  have e := whole_run { m with input := input' } c' fuel' hfirst' ha' hfiles' (by
    rw [hopts']
    intro s hs
    simp at hs
    exact hc.create s hs) hqn hln (loaded_again (Nat.le_of_lt hfuel) h input' rfl rfl rfl hdes)
  obtain ⟨out', q1, q2⟩ := C74_mended (setupOf m a (m.input (named c.files 0)) (d :: ds) (n + 1))
    (setupOf { m with input := input' } { a with opt := { a.opt with mend := 2, r := true, killblank := 0 } } (input' (named c'.files 0)) (d :: ds) fuel') hdb hbr rfl
    (Nat.le_of_lt hfuel) a.opt _ ho (by rw [hm]; decide) hh rfl
    d.core (ds.map (·.core)) (ds.map (·.core)) hd mode hmode hmode'
    (by simp [setupOf, rulesOf, hrules]) (by simp [setupOf, rulesOf, hrules]) (by simp [setupOf, rulesOf, hrev]) hu lines hl hne hpieces n (fuel' - 2) h1
  have hoo : out' = out := by simpa using q1.symm
  subst hoo
  have q3 := q2 (by
    intro p hp
    have := hshort (p.1.memory ++ p.2) (by rw [hin]; exact List.mem_map.2 ⟨p, hp, rfl⟩)
    simp at this; omega) (by rw [← hfull, hin]; simp) hin
  rw [show fuel' - 2 + 2 = fuel' by omega] at q3
  rw [e]
  rw [show runProgram (setupOf { m with input := input' } { a with opt := { a.opt with mend := 2, r := true, killblank := 0 } } (input' (named c'.files 0)) (d :: ds) fuel')
    { a.opt with mend := 2, r := true, killblank := 0 } (d.core :: ds.map (·.core)) fuel' = _ from q3]
  simp only [Option.map_some, Res.ok_bind, renderEvents, h3, List.map_nil, List.flatten_nil, List.nil_append, List.append_nil]

/-! ## designs from configuration files -/

theorem plain_columns {db : CharDb} {v : Str} (h : ∀ c ∈ v, Spec.width db c = 1) : columns db v = v.length := by
  unfold columns
  induction v with
  | nil => rfl
  | cons c v ih =>
    rw [List.map_cons, List.sum_cons, ih (fun x hx => h x (by simp [hx])), h c (by simp), List.length_cons]
    omega

/-- C71: Every design that is read from a configuration file with plain shape lines and makes a frame is one whose boxes can be removed and mended. -/
theorem C71_configured (env : ParseEnv) (hdb : Sane env.db) (decls : List Decl) (hplain : PlainTexts env.db decls) (ps ps' : List Bxs)
    (ds : List DesignDef) (h : parseConfig env decls ps = .ok (ds, ps')) : ∀ d ∈ ds, Framed env.db d.core → Restorable env.db d.core := by
  intro d hd hf
  have hsp : Spec.width env.db 0x20 = 1 := by simp [Spec.width]
  have hgood := C28_good env hdb decls (fun s hs => ⟨s, Spec.Text.plain (fun c hc => (hplain s hs c hc).1)⟩) ps ps' ds h d hd
  have hgeo := C28_accepted env decls ps ps' ds h d hd
  obtain ⟨h1, -, -⟩ := parseConfig_all (Q := fun b => ReadyLine env.db b ∧ b.cols = b.memory.length ∧
      ∀ c ∈ b.memory, c ≠ 0x1b ∧ c ≠ 0x09 ∧ c ≠ 0x0a ∧ c ≠ 0x0d)
    (fun w => ⟨.inl ⟨w, rfl⟩, by
        have hg := goodLine_blank (db := env.db) hdb w
        rw [hg.cols, plain_columns (by intro c hc; rw [List.eq_of_mem_replicate hc]; exact hsp)]
        rfl, by
        intro c hc
        rw [List.eq_of_mem_replicate (show c ∈ List.replicate w 0x20 from hc)]
        decide⟩)
    (fun t ht b hb hv => by
      have hm := fromUnicode_memory hb
      subst hm
      have hc := fun c hc => hplain _ ht c hc
      have htx : Text b.memory b.memory := Spec.Text.plain (fun c h => (hc c h).1)
      refine ⟨.inr ⟨b.memory, htx, hb, fun c h _ => (hc c h).2.2⟩, ?_, ?_⟩
      · rw [(goodLine_of htx hb).1.cols, plain_columns (fun c h => (hc c h).2.2)]
      · intro c h
        refine ⟨(hc c h).1, (hc c h).2.1, ?_⟩
        have := ((validInShape_iff env.db htx hb).1 hv).2 c h
        exact ⟨this.2.2, this.2.1⟩) h d hd
  have hl : ∀ n, ∀ b ∈ (d.core.shape n).lines, b.memory.length = (d.core.shape n).width := by
    intro n b hb
    rw [← ((h1 n).line b hb).2.1, (hgeo.solid n).cols b hb]
  have habs : ∀ n, (d.core.shape n).width = if Present (d.core.shape n) then (d.core.shape n).width else 0 := by
    intro n
    split
    · rfl
    · rename_i hp
      exact ((hgeo.solid n).zero hp).2.1
  refine ⟨⟨⟨hgood, fun n _ b hb => ((h1 n).line b hb).1⟩, fun n _ b hb c hc => (((h1 n).line b hb).2.2 c hc).1, ?_, ?_, ?_, ?_, ?_⟩, ?_, hf.flush,
    fun n _ b hb c hc => (((h1 n).line b hb).2.2 c hc).2⟩
  · intro n hn
    refine hf.seen n ?_
    simp only [List.mem_cons, List.not_mem_nil, or_false] at hn ⊢
    rcases hn with h | h | h | h <;> simp [h]
  · intro n hn _
    refine hf.seen n ?_
    simp only [List.mem_cons, List.not_mem_nil, or_false] at hn ⊢
    rcases hn with h | h | h <;> simp [h]
  · intro n hn _
    refine hf.seen n ?_
    simp only [List.mem_cons, List.not_mem_nil, or_false] at hn ⊢
    rcases hn with h | h | h <;> simp [h]
  · intro n hn n' hn' hp hp' b hb b' hb'
    refine ⟨?_, hf.left n hn n' hn' b hb b' hb'⟩
    have k : ∀ n ∈ [WNW, W, WSW], n ∈ [WSW, W, WNW, SW] := by decide
    rw [hl n b hb, hl n' b' hb', hgood.west n (k n hn) hp, hgood.west n' (k n' hn') hp']
  · intro n hn n' hn' hp hp' b hb b' hb'
    refine ⟨?_, hf.right n hn n' hn' b hb b' hb'⟩
    have k : ∀ n ∈ [ENE, E, ESE], n ∈ [ENE, E, ESE, SE] := by decide
    rw [hl n b hb, hl n' b' hb', hgood.east n (k n hn) hp, hgood.east n' (k n' hn') hp']
  · have hm := hgeo.minwidth
    simp only [total, List.map_cons, List.map_nil, List.sum_cons, List.sum_nil, ← habs] at hm
    have hw := hgood.west SW (by simp) (hgood.corner SW (by simp))
    have he := hgood.east SE (by simp) (hgood.corner SE (by simp))
    unfold Roomy
    rw [hm]
    omega

/-- C71: So `C71_pipeline` and `C74_pipeline` hold of all designs that make a frame, if the shape lines in the configuration files are plain. -/
theorem C71_loaded (m : Machine) (hdb : Sane m.db) (fuel : Nat) {a : Args} {file : Bxs} {d : DesignDef} {ds : List DesignDef} {ps : List Bxs}
    (h : Loaded m a fuel file d ds ps) (hplain : ∀ f decls, m.contents f = some decls → PlainTexts m.db decls) :
    ∀ e ∈ d :: ds, Framed m.db e.core → Restorable m.db e.core := by
  intro e he
  obtain ⟨f, decls, known, ds', ps', -, h1, h2, h3⟩ := all_parsed _ _ _ _ _ _ h.designs e he
  exact C71_configured { parseEnv m a with childConfigs := known } hdb decls (hplain f decls h1) _ _ _ h2 e h3

/-! ## examples -/

/-- the settings after `-d fr` -/
def frArgs : Args := { createNewOpt with design := some (lit "fr"), byUser := true }

/-- the design that is used with `-d fr` -/
def frDesign : DesignDef :=
  match parseConfigFiles (parseEnv sampleMachine frArgs) sampleMachine.contents 20 (fileName "/h/.config/boxes/boxes-config") with
  | some (.ok (d :: _, _)) => d
  | _ => { name := [], core := sampleDesign }

theorem frDesign_loaded : Loaded sampleMachine frArgs 20 (fileName "/h/.config/boxes/boxes-config") frDesign [] [] where
  found := by
    have h1 : (discoverConfigFile sampleDb { sampleDisk with optF := none } false) = some (some (fileName "/h/.config/boxes/boxes-config")) := by
      decide +kernel
    exact h1
  designs := by
    have h2 : (match parseConfigFiles (parseEnv sampleMachine frArgs) sampleMachine.contents 20 (fileName "/h/.config/boxes/boxes-config") with
        | some (.ok ([_], [])) => true
        | _ => false) = true := by decide +kernel
    unfold frDesign
    split at h2
    · rename_i d h
      rw [h]
    · simp at h2

theorem frDesign_framed : Framed sampleDb frDesign.core where
  seen := by
    have h : ∀ n ∈ [NW, NE, SE, SW, WNW, W, WSW, ENE, E, ESE], ∀ b ∈ (frDesign.core.shape n).lines, ∃ c ∈ b.memory,
        ¬ Blank sampleDb c ∧ c ≠ 0x0d ∧ Spec.width sampleDb c ≠ 0 := by decide +kernel
    exact h
  left := by decide +kernel
  right := by decide +kernel
  flush := ⟨NW, by simp, fromAscii (lit "+"), by decide +kernel, 0x2b, [], by decide +kernel, by decide +kernel⟩

theorem sampleMachine_plain : ∀ f decls, sampleMachine.contents f = some decls → PlainTexts sampleDb decls := by
  intro f decls h
  have h' : (if f.memory = lit "/h/.config/boxes/boxes-config" then
      some [Decl.box (lit "dots") [lit "dt"] minimalItems (lit "dots"), .box (lit "frame") [lit "fr"] frameItems (lit "frame")] else none) = some decls := h
  split at h'
  · rw [Option.some.injEq] at h'
    subst h'
    unfold PlainTexts
    decide +kernel
  · simp at h'

theorem frDesign_restorable : Restorable sampleDb frDesign.core :=
  C71_loaded sampleMachine sampleDb_sane 20 frDesign_loaded sampleMachine_plain frDesign (by simp) frDesign_framed

theorem fr_draws : DrawsWith { options := [.design (lit "fr")] } where
  first := by simp
  list := by simp
  query := by simp
  remove := by simp
  mend := by simp
  create := by simp
  align := by simp
  size := by simp
  design := ⟨lit "fr", by simp⟩

theorem fr_run : wholeProgram sampleMachine { options := [.design (lit "fr")] } 20 =
    some (.ok (.output none (lit "  +--*\n  |ab!\n  |c !\n  +==+\n"))) := by decide +kernel

theorem fr_lines : ∀ p ∈ [(lit "  ab", lit "\n"), (lit "  c", lit "\n")], PlainLine sampleDb p.1 ∧ p.1 ≠ [] := by
  intro p hp
  simp only [List.mem_cons, List.not_mem_nil, or_false] at hp
  rcases hp with rfl | rfl
  · refine ⟨⟨?_, .inr ?_, ?_, by decide⟩, by decide⟩
    · unfold Forbidden Blank; decide +kernel
    · exact ⟨0x61, by decide, by unfold Blank; decide +kernel, by decide, by decide +kernel⟩
    · decide +kernel
  · refine ⟨⟨?_, .inr ?_, ?_, by decide⟩, by decide⟩
    · unfold Forbidden Blank; decide +kernel
    · exact ⟨0x63, by decide, by unfold Blank; decide +kernel, by decide, by decide +kernel⟩
    · decide +kernel

/-- the box that is printed, line by line -/
def frBox : List Str := [lit "  +--*\n", lit "  |ab!\n", lit "  |c !\n", lit "  +==+\n"]

theorem frBox_read : ReadInLines (lit "  +--*\n  |ab!\n  |c !\n  +==+\n") frBox where
  all := by decide +kernel
  nonempty := by decide +kernel
  inside := by decide +kernel
  ends := by
    intro x p hx hp
    have : ∀ x < 4, ∀ p ∈ frBox[x]?, p.getLast? = some 0x0a := by decide +kernel
    exact this x (by have : frBox.length = 4 := rfl; omega) p hp

/-- `boxes -d fr | boxes -d fr -r` -/
example : wholeProgram { sampleMachine with input := fun _ => frBox } { options := [.design (lit "fr"), .remove] } 20 =
    some (.ok (.output none (lit "  ab\n  c\n"))) := by
  obtain ⟨text, h1, h2⟩ := C71_pipeline sampleMachine sampleDb_sane sampleDb_breaks { options := [.design (lit "fr")] } fr_draws 20 (a := frArgs) rfl
    ⟨by simp, by simp, by simp⟩ (by decide) (by decide) (by decide) frDesign_loaded frDesign_restorable (by decide +kernel) (by decide +kernel) 'b' (by decide +kernel)
    (by decide) [(lit "  ab", lit "\n"), (lit "  c", lit "\n")] fr_lines (by simp) (by
      intro x p hp
      left
      have : ∀ x < 2, ∀ p ∈ [(lit "  ab", lit "\n"), (lit "  c", lit "\n")][x]?, p.2 = frArgs.opt.eol := by decide +kernel
      exact this x (by have := (List.getElem?_eq_some_iff.1 hp).1; simpa using this) p hp) (by decide +kernel) fr_run
  obtain rfl : lit "  +--*\n  |ab!\n  |c !\n  +==+\n" = text := by simp at h1; exact h1.2
  exact h2 { options := [.design (lit "fr"), .remove] } (fun _ => frBox) (by simp) rfl ⟨by simp, by simp, by simp⟩ frBox_read (by
    show ∀ p ∈ frBox, _
    decide +kernel)

/-- `boxes -d fr | boxes -d fr -m` -/
example (fuel : Nat) (h : 20 < fuel) : wholeProgram { sampleMachine with input := fun _ => frBox } { options := [.design (lit "fr"), .mend] } fuel =
    some (.ok (.output none (lit "  +--*\n  |ab!\n  |c !\n  +==+\n"))) := by
  obtain ⟨text, h1, h2⟩ := C74_pipeline sampleMachine sampleDb_sane sampleDb_breaks { options := [.design (lit "fr")] } fr_draws 20 (a := frArgs) rfl
    ⟨by simp, by simp, by simp⟩ (by decide) (by decide) frDesign_loaded frDesign_restorable (by decide +kernel) (by decide +kernel) 'b' (by decide +kernel)
    (by decide) [(lit "  ab", lit "\n"), (lit "  c", lit "\n")] (by
      intro p hp
      refine ⟨(fr_lines p hp).1, (fr_lines p hp).2, ?_⟩
      have : ∀ p ∈ [(lit "  ab", lit "\n"), (lit "  c", lit "\n")], p.2 = [0x0a] := by decide +kernel
      exact .inr (.inl (this p hp))) (by simp) (by decide +kernel) fr_run
  obtain rfl : lit "  +--*\n  |ab!\n  |c !\n  +==+\n" = text := by simp at h1; exact h1.2
  exact h2 { options := [.design (lit "fr"), .mend] } (fun _ => frBox) (by simp) rfl ⟨by simp, by simp, by simp⟩ frBox_read (by
    show ∀ p ∈ frBox, _
    decide +kernel) (by show frBox.length = _; decide +kernel) fuel h

/-- the hypotheses of `C69_mending` hold of a box that has been damaged -/
def damaged : Machine := { sampleMachine with input := fun _ => [lit "  +--*\n", lit "  |ab !\n", lit "  |c!\n", lit "  +==+\n"] }

example : wholeProgram damaged { options := [.design (lit "fr"), .mend] } 20 = some (.ok (.output none (lit "  +--*\n  |ab!\n  |c !\n  +==+\n"))) := by
  decide +kernel

example : optionLoop [.design (lit "fr"), .mend] createNewOpt =
      some ({ frArgs with opt := { frArgs.opt with mend := 2, r := true, killblank := 0 } }, false) ∧
    Loaded damaged { frArgs with opt := { frArgs.opt with mend := 2, r := true, killblank := 0 } } 20
      (fileName "/h/.config/boxes/boxes-config") frDesign [] [] ∧ damaged.input (named [] 0) ≠ [] :=
  ⟨rfl, loaded_again (Nat.le_refl _) frDesign_loaded _ rfl rfl rfl rfl, by simp [damaged]⟩

end Boxes
