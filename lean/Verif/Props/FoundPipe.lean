import Verif.Spec.FoundPipe
import Verif.Props.Traces
import Verif.Props.Pipe
import Verif.Props.Ends

/-!
# Removing a box without naming its design, with the complete program (C77)
-/
namespace Boxes
open Boxes.Spec ShapeName
set_option linter.unusedSimpArgs false

/-- C77: an input can be compared with every design that is read from a configuration file. -/
theorem C77_configured (env : ParseEnv) (hdb : Sane env.db) (decls : List Decl) (htexts : ReadableTexts env.db decls) (ps ps' : List Bxs)
    (ds : List DesignDef) (h : parseConfig env decls ps = .ok (ds, ps')) : ∀ d ∈ ds, Comparable env.db d.core := by
  intro d hd
  have hgood := C28_good env hdb decls (fun s hs => ⟨_, (htexts s hs).choose_spec.1⟩) ps ps' ds h d hd
  have hgeo := C28_accepted env decls ps ps' ds h d hd
  obtain ⟨h1, -, -⟩ := parseConfig_all (Q := fun b => (∃ w, b = fromAscii (nspaces w)) ∨ ∃ s v, Text s v ∧ fromUnicode env.db s = some b ∧ NarrowBlanks env.db v)
    (fun w => .inl ⟨w, rfl⟩) (fun t ht b hb _ => by
      obtain ⟨v, h1, h2⟩ := htexts t ht
      exact .inr ⟨t, v, h1, hb, h2⟩) h d hd
  have hp : ∀ n, (d.core.shape n).lines ≠ [] → Present (d.core.shape n) := by
    intro n hn
    refine ⟨hn, (hgeo.solid n).wide hn, ?_⟩
    rw [← (hgeo.solid n).lines]
    exact List.length_pos_iff.2 hn
  refine ⟨(accepted_sides h d hd).1, hgeo.named, fun n => (hgeo.solid n).lines, fun m hm n hn a b => hgeo.sizes.top m hm n hn (hp m a) (hp n b), ?_,
    hgood.shapes, fun n b hb => (h1 n).line b hb, ?_⟩
  · have e : ∀ n ∈ [SW, SSW, S, SSE, SE], n ∈ [SE, SSE, S, SSW, SW] := by decide
    exact fun m hm n hn a b => hgeo.sizes.bottom m (e m hm) n (e n hn) (hp m a) (hp n b)
  · intro n he b hb
    have hn : (d.core.shape n).lines ≠ [] := by intro h0; rw [h0] at hb; simp at hb
    have := hp n hn
    unfold Shape.isEmpty at he
    simp [hn, Nat.pos_iff_ne_zero.1 this.2.1, Nat.pos_iff_ne_zero.1 this.2.2] at he

theorem C77_loaded (m : Machine) (hdb : Sane m.db) (fuel : Nat) {a : Args} {file : Bxs} {d : DesignDef} {ds : List DesignDef} {ps : List Bxs}
    (h : Loaded m a fuel file d ds ps) (htexts : ∀ f decls, m.contents f = some decls → ReadableTexts m.db decls) :
    ∀ e ∈ d :: ds, Comparable m.db e.core := by
  intro e he
  obtain ⟨f, decls, known, ds', ps', -, h1, h2, h3⟩ := all_parsed _ _ _ _ _ _ h.designs e he
  exact C77_configured { parseEnv m a with childConfigs := known } hdb decls (htexts f decls h1) _ _ _ h2 e h3

/-- a text and the line break behind it are determined by what they make together -/
theorem part_unique {s s' e e' : Str} (h : s ++ e = s' ++ e') (he : LineEnd e) (he' : LineEnd e') (hs : 0x0a ∉ s ∧ 0x0d ∉ s) (hs' : 0x0a ∉ s' ∧ 0x0d ∉ s') :
    s = s' ∧ e = e' := by
  rcases List.append_eq_append_iff.1 h with ⟨t, h1, h2⟩ | ⟨t, h1, h2⟩
  · subst h1
    cases t with
    | nil => simpa using h2
    | cons c t =>
      exfalso
      simp only [List.mem_append, List.mem_cons, not_or] at hs'
      rcases he with rfl | rfl | rfl <;> simp at h2 <;> omega
  · subst h1
    cases t with
    | nil => simpa using h2.symm
    | cons c t =>
      exfalso
      simp only [List.mem_append, List.mem_cons, not_or] at hs
      rcases he' with rfl | rfl | rfl <;> simp at h2 <;> omega

theorem parts_unique : ∀ (ps qs : List (Str × Str)), ps.map (fun p => p.1 ++ p.2) = qs.map (fun p => p.1 ++ p.2) →
    (∀ p ∈ ps, LineEnd p.2 ∧ 0x0a ∉ p.1 ∧ 0x0d ∉ p.1) → (∀ p ∈ qs, LineEnd p.2 ∧ 0x0a ∉ p.1 ∧ 0x0d ∉ p.1) → ps = qs := by
  intro ps
  induction ps with
  | nil => intro qs h _ _; cases qs <;> simp_all
  | cons p ps ih =>
    intro qs h h1 h2
    cases qs with
    | nil => simp at h
    | cons q qs =>
      simp only [List.map_cons, List.cons.injEq] at h
      obtain ⟨a1, a2⟩ := h1 p (by simp)
      obtain ⟨b1, b2⟩ := h2 q (by simp)
      obtain ⟨e1, e2⟩ := part_unique h.1 a1 b1 a2 b2
      rw [ih qs h.2 (fun x hx => h1 x (by simp [hx])) (fun x hx => h2 x (by simp [hx])), Prod.ext e1 e2]

/-- the lines of a printed box -/
theorem drawn_parts {db : CharDb} (hdb : Sane db) (hbr : BreaksSane db) {opt : Opt} (ho : PlainDrawing opt)
    {d : Design} (hd : Restorable db d) (junk : Nat) (lines : List (Str × Str))
    (hl : ∀ p ∈ lines, PlainLine db p.1 ∧ LineEnd p.2) (hne : lines ≠ []) (fuel : Nat) {out : List (Bxs × Str)}
    (h : drawOnce db opt d [] junk (lines.map (fun p => p.1 ++ p.2)) fuel = some (.ok out)) :
    ∀ p ∈ out, fromUnicode db p.1.memory = some p.1 ∧ LineEnd p.2 ∧ 0x0a ∉ p.1.memory ∧ 0x0d ∉ p.1.memory := by
  obtain ⟨out', n, above, below, w, h1, -, -, h3, h4⟩ := drawn_rows db hdb hbr opt ho d hd junk lines hl hne fuel h
  obtain rfl := Res.ok.inj h1
  have hvs : ∀ v ∈ innerTexts above below (if d.indentmode = 't' then 0 else n) (lines.map Prod.fst), ∀ c ∈ v, CleanChar db c := by
    intro v hv c hc
    simp only [innerTexts, List.mem_append, List.mem_replicate, List.mem_map] at hv
    rcases hv with (⟨-, rfl⟩ | ⟨t, ⟨p, hp, rfl⟩, rfl⟩) | ⟨-, rfl⟩
    · simp at hc
    · exact cleanChar_plain (hl p hp).1 c (List.mem_of_mem_drop hc)
    · simp at hc
  obtain ⟨hchars, -⟩ := drawn_clean hdb hd h3 hvs
  intro p hp
  refine ⟨h3.read p hp, ?_, fun hc => (hchars p hp _ hc).2.2.2.2.1 rfl, fun hc => (hchars p hp _ hc).2.2.2.2.2 rfl⟩
  obtain ⟨x, hx⟩ := List.getElem?_of_mem hp
  obtain ⟨g1, g2⟩ := h4 x p hx
  by_cases hb : EndsInBreak (lines.map (fun p => p.1 ++ p.2)) ∨ x + 1 ≠ out.length
  · rw [g1 hb]; exact .inr ho.eol
  · have hb1 := fun h => hb (.inl h)
    have hb2 : x + 1 = out.length := Classical.byContradiction fun h => hb (.inr h)
    exact .inl (g2 hb1 hb2)

theorem mostTraces_lines {db : CharDb} {ds : List Design} {k : Nat} {lines lines' : List Line} (h : lines.map Line.text = lines'.map Line.text)
    (hm : MostTraces db ds k lines) : MostTraces db ds k lines' :=
  fun i e d p q hi he hc hd hp hq => hm i e d p q hi he hc hd (traces_lines h.symm hp) (traces_lines h.symm hq)

theorem removes_opts {c : CommandLine} (hc : RemovesAny c) {a : Args} (hopts : optionLoop c.options createNewOpt = some (a, false))
    (htab : a.opt.tabexp ≠ 'u' ∧ a.opt.tabexp ≠ 'k') :
    PlainRemoving a.opt ∧ a.query = none ∧ a.l = false ∧ a.byUser = false := by
  obtain ⟨s1, s2, s3, s4, -⟩ := C58_switches c.options a hopts
  obtain ⟨w1, w2, w3, w4, w5, w6⟩ := C58_words c.options a hopts
  have hrw : a.opt.reqwidth = 0 := by
    rcases w4 with ⟨x, ⟨pre', post', e, ⟨s, -, -, rfl, -⟩, -⟩, -⟩ | ⟨-, e⟩
    · exact absurd (by rw [e]; simp) (hc.size s)
    · exact e
  refine ⟨⟨s2.2 (.inl hc.remove), htab, hrw, (C37_range c.options a hopts).1, by rw [s3, if_neg hc.mend]; decide⟩, ?_, ?_, ?_⟩
  · rcases w6 with ⟨x, ⟨pre', post', e, -, hno⟩, arg', q, rfl, hq', e'⟩ | ⟨hn, e⟩
    · exact absurd (by rw [e]; simp) (hc.query arg')
    · exact e
  · cases hb : a.l with
    | false => rfl
    | true => exact absurd (s1.1 hb) hc.list
  · cases hb : a.byUser with
    | false => rfl
    | true =>
      obtain ⟨s, h | h⟩ := s4.1 hb
      · exact absurd h (hc.design s)
      · exact absurd h (hc.create s)

/-- what the first run printed, as it is drawn -/
theorem first_drawn (m : Machine) (hdb : Sane m.db) (hbr : BreaksSane m.db) {a : Args} {d : DesignDef} {ds : List DesignDef} (ho : PlainDrawing a.opt)
    (hm : a.opt.mend = 0) (hd : Restorable m.db d.core) (hrules : d.reprules = []) (lines : List (Str × Str))
    (hpl : ∀ p ∈ lines, PlainLine m.db p.1 ∧ LineEnd p.2) (hne : lines ≠ []) {pieces : List Str} (hpieces : pieces = lines.map (fun p => p.1 ++ p.2)) (n : Nat)
    {out : List (Bxs × Str)}
    (h1 : runProgram (setupOf m a pieces (d :: ds) (n + 1)) a.opt (d.core :: ds.map (·.core)) (n + 1) = some (.ok [.read, .drawn out])) :
    drawOnce m.db a.opt (prepareDesign a.opt d.core) [] m.junk (lines.map (fun p => p.1 ++ p.2)) (n + 1) = some (.ok out) := by
  have key := run_drawn (setupOf m a pieces (d :: ds) (n + 1)) a.opt (by rw [hm]; decide) ho.draws d.core (ds.map (·.core)) n h1
  obtain ⟨r', k1, k2⟩ := key
  have k1' : drawOnce m.db a.opt (prepareDesign a.opt d.core) [] m.junk (lines.map (fun p => p.1 ++ p.2)) (n + 1) = some r' := by
    rw [← k1, ← hpieces]
    show _ = drawOnce m.db a.opt (prepareDesign a.opt d.core) (rulesOf m (fun d => d.reprules) (d :: ds) 0) m.junk _ (n + 1)
    simp only [rulesOf, List.getElem?_cons_zero, hrules, List.map_nil]
    rfl
  obtain ⟨out', n1, above, below, w, rfl, -, -, i3, -⟩ := drawn_rows m.db hdb hbr a.opt ho _ (restorable_prepared a.opt hd) m.junk lines hpl hne (n + 1) k1'
  have hlen : out' ≠ [] := by
    intro h0
    have := i3.count
    rw [h0] at this
    have h1 : 0 < ((prepareDesign a.opt d.core).shape NE).height := ((restorable_prepared a.opt hd).recognisable.ready.good.corner NE (by simp)).2.2
    simp at this; omega
  have e := k2 out' rfl hlen
  have e' : out = out' := by simpa using e
  rw [e']
  exact k1'

/-- C77, for the complete program (`boxes -d X | boxes -r`): the program is run with a design chosen by name, and run again with `-r`, without naming a
design; it reads what the first run printed.  If the designs that are loaded by the second run contain that of the first one, and of all of them without colours
the printed box shows the most traces of it, then the second run prints exactly what the first one read. -/
theorem C77_pipeline (m : Machine) (hdb : Sane m.db) (hbr : BreaksSane m.db) (htexts : ∀ f decls, m.contents f = some decls → ReadableTexts m.db decls)
    (c : CommandLine) (hc : DrawsWith c) (fuel : Nat) {a : Args}
    (hopts : optionLoop c.options createNewOpt = some (a, false)) (hfiles : UsableFiles m.canRead m.canWrite c.files)
    (htab : a.opt.tabexp ≠ 'u' ∧ a.opt.tabexp ≠ 'k') (heol : a.opt.eol = [0x0a] ∨ a.opt.eol = [0x0d, 0x0a])
    {file : Bxs} {d : DesignDef} {ds : List DesignDef} {ps : List Bxs} (h : Loaded m a fuel file d ds ps) (hd : Restorable m.db d.core)
    (hrules : d.reprules = [])
    (mode : Char) (hmode : mode = if a.opt.indentmode = '\x00' then d.core.indentmode else a.opt.indentmode)
    (lines : List (Str × Str)) (hl : ∀ p ∈ lines, PlainLine m.db p.1 ∧ p.1 ≠ []) (hne : lines ≠ [])
    (hpieces : m.input (named c.files 0) = lines.map (fun p => p.1 ++ p.2))
    {r : Res Outcome} (hrun : wholeProgram m c fuel = some r)
    (c' : CommandLine) (hc' : RemovesAny c') (input' : Option Str → List Str) {a' : Args} (hopts' : optionLoop c'.options createNewOpt = some (a', false))
    (hfiles' : UsableFiles m.canRead m.canWrite c'.files) (htab' : a'.opt.tabexp ≠ 'u' ∧ a'.opt.tabexp ≠ 'k')
    (heol' : a'.opt.eol = [0x0a] ∨ a'.opt.eol = [0x0d, 0x0a])
    (hterm : ∀ (x : Nat) p, lines[x]? = some p → p.2 = a'.opt.eol ∨ (x + 1 = lines.length ∧ p.2 = []))
    (hmode' : mode = 't' ∨ (mode = 'b' ∧ (a'.opt.indentmode = 'b' ∨ a'.opt.indentmode = '\x00')))
    (fuel' : Nat) {file' : Bxs} {d0 : DesignDef} {ds' : List DesignDef} {ps' : List Bxs}
    (h' : Loaded { m with input := input' } a' (fuel' + 1) file' d0 ds' ps') (k : Nat) {e : DesignDef} (hk : (d0 :: ds')[k]? = some e)
    (hsame : e.core = d.core) (hrev : e.revrules = [])
    (hpad : (if k = 0 then wanted a'.opt.padding.left d.core.padding.left else d.core.padding.left) = wanted a.opt.padding.left d.core.padding.left)
    (hkill : a'.opt.killblank ≠ 0)
    (hkill' : a'.opt.killblank = -1 → ¬ (BlankSide m.db d0.core [NW, NNW, N, NNE, NE] ∧ BlankSide m.db d0.core [SE, SSE, S, SSW, SW])) :
    ∃ text, r = .ok (.output (named c.files 1) text) ∧
      (ReadInLines text (input' (named c'.files 0)) → (∀ p ∈ input' (named c'.files 0), p.length < 16370) →
      ∀ rows, AsLines m.db (input' (named c'.files 0)) rows → MostTraces m.db ((d0 :: ds').map (·.core)) k rows →
      wholeProgram { m with input := input' } c' (fuel' + 1) = some (.ok (.output (named c'.files 1) (m.input (named c.files 0)).flatten))) := by
  have hpl : ∀ p ∈ lines, PlainLine m.db p.1 ∧ LineEnd p.2 := by
    intro p hp
    refine ⟨(hl p hp).1, ?_⟩
    obtain ⟨x, hx⟩ := List.getElem?_of_mem hp
    rcases hterm x p hx with h | h
    · rw [h]; exact .inr heol'
    · exact .inl h.2
  obtain ⟨ho, hm, hh, hqn, hln, hu, hdes⟩ := draws_opts hc hopts htab heol
  obtain ⟨ho', hqn', hln', hu'⟩ := removes_opts hc' hopts' htab'
  obtain ⟨n, out, text, rfl, h1, rfl, h2, -⟩ := piped_first m hdb hbr c hc fuel hopts hfiles htab heol h hd hrules lines hpl hne hpieces hrun
  refine ⟨text, rfl, fun hread hshort rows ⟨parts, g1, g2, g3⟩ hmost => ?_⟩
  obtain hin := readInLines_unique _ _ _ hread h2
  have ew := whole_run { m with input := input' } c' (fuel' + 1) hc'.first hopts' hfiles' hc'.create hqn' hln' h'
  have hcore : (d0.core :: ds'.map (·.core))[k]? = some d.core := by
    have := congrArg (Option.map (·.core)) hk
    rw [← List.getElem?_map] at this
    simpa [hsame] using this
  have hcmp := C77_loaded { m with input := input' } hdb (fuel' + 1) h' htexts
  obtain ⟨out', q1, q2⟩ := C77_program (setupOf m a (m.input (named c.files 0)) (d :: ds) (n + 1))
    (setupOf { m with input := input' } a' (input' (named c'.files 0)) (d0 :: ds') (fuel' + 1)) hdb hbr rfl
    a.opt a'.opt ho (by rw [hm]; decide) ho' d.core (ds.map (·.core)) hd d0.core (ds'.map (·.core)) k hcore
    (by
      intro x hx
      rw [← List.map_cons (f := fun y : DesignDef => y.core)] at hx
      obtain ⟨y, hy, rfl⟩ := List.mem_map.1 hx
      exact hcmp y hy) hpad mode hmode hmode' hkill hkill'
    (by simp [setupOf, rulesOf, hrules]) (by simp [setupOf, rulesOf, hk, hrev]) hu' lines hl hne hterm heol' hpieces n fuel' h1
  have hoo : out' = out := by simpa using q1.symm
  subst hoo
  have hdraw := first_drawn m hdb hbr (d := d) (ds := ds) ho hm hd hrules lines hpl hne hpieces n h1
  have hparts := drawn_parts hdb hbr ho (restorable_prepared a.opt hd) m.junk lines hpl hne (n + 1) hdraw
  have hrows : rows.map Line.text = (out'.map (fun p => ({ text := some p.1 } : Line))).map Line.text := by
    have := parts_unique parts (out'.map (fun p => (p.1.memory, p.2))) (by rw [← g1, hin, List.map_map]; rfl) g2 (by
      intro q hq
      obtain ⟨p, hp, rfl⟩ := List.mem_map.1 hq
      exact (hparts p hp).2)
    rw [g3, this, List.map_map, List.map_map]
    exact List.map_congr_left fun p hp => (hparts p hp).1
  have q3 := q2 (by
    intro p hp
    have := hshort (p.1.memory ++ p.2) (by rw [hin]; exact List.mem_map.2 ⟨p, hp, rfl⟩)
    simp at this; omega) hin (mostTraces_lines hrows hmost)
  rw [ew, q3]
  simp only [Option.map_some, Res.ok_bind, renderEvents, List.append_nil, hpieces]

/-! ## example: `boxes -d fr | boxes -r` -/

/-- the settings after `-r` -/
def anyArgs : Args := { createNewOpt with opt := { createNewOpt.opt with r := true } }

/-- the designs that are loaded if none is named -/
def anyDesigns : DesignDef × DesignDef :=
  match parseConfigFiles (parseEnv sampleMachine anyArgs) sampleMachine.contents 20 (fileName "/h/.config/boxes/boxes-config") with
  | some (.ok ([d, e], _)) => (d, e)
  | _ => (frDesign, frDesign)

theorem anyDesigns_loaded : Loaded { sampleMachine with input := fun _ => frBox } anyArgs 20 (fileName "/h/.config/boxes/boxes-config")
    anyDesigns.1 [anyDesigns.2] [] where
  found := frDesign_loaded.found
  designs := by
    have h2 : (match parseConfigFiles (parseEnv sampleMachine anyArgs) sampleMachine.contents 20 (fileName "/h/.config/boxes/boxes-config") with
        | some (.ok ([_, _], [])) => true
        | _ => false) = true := by decide +kernel
    show parseConfigFiles (parseEnv sampleMachine anyArgs) sampleMachine.contents 20 (fileName "/h/.config/boxes/boxes-config") = _
    unfold anyDesigns
    split at h2
    · rename_i d e h
      rw [h]
    · simp at h2

theorem anyDesigns_same : anyDesigns.2.core = frDesign.core := by
  have h1 : ∀ n, anyDesigns.2.core.shape n = frDesign.core.shape n := by intro n; cases n <;> decide +kernel
  have h2 : anyDesigns.2.core.indentmode = frDesign.core.indentmode ∧ anyDesigns.2.core.minwidth = frDesign.core.minwidth ∧
      anyDesigns.2.core.minheight = frDesign.core.minheight ∧ anyDesigns.2.core.padding = frDesign.core.padding := by decide +kernel
  generalize anyDesigns.2.core = d at h1 h2
  generalize frDesign.core = e at h1 h2
  cases d
  cases e
  simp only [Design.mk.injEq]
  exact ⟨h2.1, funext h1, h2.2⟩

theorem sampleMachine_readable : ∀ f decls, sampleMachine.contents f = some decls → ReadableTexts sampleDb decls := by
  intro f decls h s hs
  have := sampleMachine_plain f decls h s hs
  exact ⟨s, Spec.Text.plain fun c hc => (this c hc).1, fun c hc _ => (this c hc).2.2⟩

/-- the lines of the printed box -/
def frRows : List Line := frBox.map fun p => { text := fromUnicode sampleDb p.dropLast }

theorem frRows_plain : PlainRead sampleDb frRows := by
  have h : ∀ l ∈ frRows, ∀ b ∈ l.text, fromUnicode sampleDb b.memory = some b ∧ (∀ c ∈ b.memory, c ≠ 0x1b) ∧ NarrowBlanks sampleDb b.memory := by
    unfold NarrowBlanks Blank
    decide +kernel
  have h' : ∀ l ∈ frRows, l.text.isSome = true := by decide +kernel
  intro l hl
  obtain ⟨b, hb⟩ := Option.isSome_iff_exists.1 (h' l hl)
  exact ⟨b, hb, h l hl b hb⟩

/-- The box shows fewer traces of the other design. -/
theorem frRows_most : MostTraces sampleDb ([anyDesigns.1, anyDesigns.2].map (·.core)) 1 frRows := by
  have hcmp := C77_loaded _ sampleDb_sane 20 anyDesigns_loaded sampleMachine_readable
  have hm : designColoured anyDesigns.2.core = false := by decide +kernel
  have hcount : (match matchDesign sampleDb anyDesigns.1.core frRows .literal, matchDesign sampleDb anyDesigns.2.core frRows .literal with
      | .ok (p, _), .ok (q, _) => decide (p < q)
      | _, _ => false) = true := by decide +kernel
  intro i e d p q hi he hme hd hp hq
  match i with
  | 0 =>
    simp only [List.map_cons, List.getElem?_cons_zero, Option.some.injEq, List.getElem?_cons_succ] at he hd
    subst he hd
    obtain ⟨d1, e1⟩ := (C77_traces_counted sampleDb_sane (hcmp _ (by simp)) hme frRows_plain p).1 hp
    obtain ⟨d2, e2⟩ := (C77_traces_counted sampleDb_sane (hcmp _ (by simp)) hm frRows_plain q).1 hq
    rw [e1, e2] at hcount
    simp only [decide_eq_true_eq] at hcount
    omega
  | 1 => omega
  | i + 2 => simp at he

example : wholeProgram { sampleMachine with input := fun _ => frBox } { options := [.remove] } 20 =
    some (.ok (.output none (lit "  ab\n  c\n"))) := by
  obtain ⟨text, h1, h2⟩ := C77_pipeline sampleMachine sampleDb_sane sampleDb_breaks sampleMachine_readable { options := [.design (lit "fr")] } fr_draws 20
    (a := frArgs) rfl ⟨by simp, by simp, by simp⟩ (by decide) (by decide) frDesign_loaded frDesign_restorable (by decide +kernel) 'b' (by decide +kernel)
    [(lit "  ab", lit "\n"), (lit "  c", lit "\n")] fr_lines (by simp) (by decide +kernel) fr_run
    { options := [.remove] } ⟨by simp, by simp, by simp, by simp, by simp, by simp, by simp, by simp⟩ (fun _ => frBox) (a' := anyArgs) rfl
    ⟨by simp, by simp, by simp⟩ (by decide) (by decide) (by
      intro x p hp
      left
      have : ∀ x < 2, ∀ p ∈ [(lit "  ab", lit "\n"), (lit "  c", lit "\n")][x]?, p.2 = anyArgs.opt.eol := by decide +kernel
      exact this x (by have := (List.getElem?_eq_some_iff.1 hp).1; simpa using this) p hp) (.inr ⟨rfl, .inr rfl⟩) 19 anyDesigns_loaded 1 rfl
    anyDesigns_same (by decide +kernel) (by decide +kernel) (by decide) (by
      rintro - ⟨h, -⟩
      have e : (anyDesigns.1.core.shape N).lines = [fromAscii (lit "*")] := by decide +kernel
      have := h N (by simp) (by decide +kernel) (fromAscii (lit "*")) (by rw [e]; simp) (lit "*") (Spec.Text.plain (by decide +kernel)) 0x2a (by decide)
      revert this
      unfold Blank
      decide +kernel)
  obtain rfl : lit "  +--*\n  |ab!\n  |c !\n  +==+\n" = text := by simp at h1; exact h1.2
  refine h2 frBox_read (by
    show ∀ p ∈ frBox, _
    decide +kernel) frRows ⟨frBox.map (fun p => (p.dropLast, [0x0a])), ?_, ?_, ?_⟩ frRows_most
  · show frBox = _
    decide +kernel
  · unfold LineEnd
    decide +kernel
  · decide +kernel

end Boxes
