import Verif.Spec.MendAny
import Verif.Lemmas.MendAny

/-!
# Property C93: mending a box without naming its design
-/
namespace Boxes
open Boxes.Spec ShapeName
set_option linter.unusedSimpArgs false

/-- C93: the program draws a box around a text and is run again with the same options to mend the box that it printed, without being told the design.  If of all designs of
the second run the printed box shows the most traces of the one it was drawn with, and if it makes no difference whether the box has the least size of its own design or that
of the first design of the configuration (`C93_grows_disagrees`, `C93_underflow_disagrees`), then the second run draws exactly the same box.  The other conditions are those of
`C74_mended`; -p, -i and -s are not used because they would apply to the first design. -/
theorem C93_mended (s s' : Setup) (hdb : Sane s.db) (hbr : BreaksSane s.db) (hsame : s'.db = s.db) (hfuel : s.fuel ≤ s'.fuel) (opt opt' : Opt)
    (ho : PlainDrawing opt) (hm : opt.mend ≤ 0) (hh : opt.reqheight = 0) (hp0 : opt.padding = ⟨-1, -1, -1, -1⟩) (hi0 : opt.indentmode = '\x00')
    (ho' : opt' = { opt with mend := 2, r := true, killblank := 0 }) (d : Design) (ds : List Design) (hd : Restorable s.db d)
    (hmode : d.indentmode = 't' ∨ d.indentmode = 'b')
    (d0 : Design) (ds' : List Design) (k : Nat) (hk : (d0 :: ds')[k]? = some d) (hcmp : ∀ e ∈ d0 :: ds', Comparable s.db e)
    (hrules : s.rules 0 = []) (hrules' : s'.rules k = []) (hrev : s'.revRules k = []) (hu : s'.byUser = false)
    (lines : List (Str × Str)) (hl : ∀ p ∈ lines, PlainLine s.db p.1 ∧ p.1 ≠ [] ∧ LineEnd p.2) (hne : lines ≠ [])
    (hwide : ∃ p ∈ lines, SameSize d.minwidth d0.minwidth (d.padding.left + d.padding.right) ((d.shape NW).width + (d.shape NE).width)
      (columns s.db (p.1.drop (leadingBlanks s.db p.1))))
    (hhigh : SameSize d.minheight d0.minheight (d.padding.top + d.padding.bottom) ((d.shape NW).height + (d.shape SW).height) lines.length)
    (hpieces : s.pieces = lines.map (fun p => p.1 ++ p.2)) (n n' : Nat) {res : Res (List Event)}
    (h : runProgram s opt (d :: ds) (n + 1) = some res) :
    ∃ out, res = .ok [.read, .drawn out] ∧ ((∀ p ∈ out, p.1.memory.length < 16370) →
      out.length = (d.shape NE).height + d.padding.top + lines.length + d.padding.bottom + (d.shape SE).height →
      s'.pieces = out.map (fun p => p.1.memory ++ p.2) → MostTraces s.db (d0 :: ds') k (out.map (fun p => { text := some p.1 })) →
      runProgram s' opt' (d0 :: ds') (n' + 2) = some (.ok [.read, .removed [], .drawn out])) := by
  obtain ⟨r, h1, h2⟩ := run_drawn s opt hm ho.draws d ds n h
  have hprep : ∀ e, prepareDesign opt e = e := by
    intro e
    unfold prepareDesign applyExpectedSize
    simp only [hh, ho.reqwidth, hi0]
    have a1 : ¬ (0 : Int) > e.minheight := by omega
    have a2 : ¬ (0 : Int) > e.minwidth := by omega
    simp [a1, a2]
  have hprep' : ∀ e, prepareDesign opt' e = e := by
    intro e
    rw [← hprep e, ho']
    show prepareDesign opt (prepareDesign opt e) = prepareDesign opt e
    rw [hprep, hprep]
  rw [hrules, hpieces, hprep] at h1
  have hl' : ∀ p ∈ lines, PlainLine s.db p.1 ∧ LineEnd p.2 := fun p hp => ⟨(hl p hp).1, (hl p hp).2.2⟩
  obtain ⟨o, hoo⟩ : ∃ o, o = { opt with mend := 1, r := true, killblank := 0 } := ⟨_, rfl⟩
  obtain ⟨out, m, h3, -, h4⟩ := lines_back s.db hdb hbr opt { opt with mend := -1, r := true, killblank := 0 } ho
    ⟨rfl, ho.tabs, ho.reqwidth, ho.tabstop, by simp⟩ d d hd hd.recognisable.ready.good rfl rfl (fun _ => .inr hi0)
    s.junk s'.junk lines hl' hne (fun p hp => (hl p (List.mem_of_getElem? hp)).2.1) (fun p hp => (hl p (List.mem_of_getLast? hp)).2.1) s.fuel h1
  obtain ⟨out', n1, above, below, w, i1, -, -, i3, -⟩ := drawn_rows s.db hdb hbr opt ho d hd s.junk lines hl' hne s.fuel h1
  have hout : out' = out := by rw [h3] at i1; simpa using i1.symm
  have hlen : 0 < out.length := by
    rw [← hout, i3.count]
    have : 0 < (d.shape NE).height := (hd.recognisable.ready.good.corner NE (by simp)).2.2
    omega
  refine ⟨out, h2 out h3 (List.length_pos_iff.1 hlen), fun hshort hfull hp hmost => ?_⟩
  subst h3
  -- what the first run draws
  have hdraw : ∃ raw0 i0, readAllInput s.db opt s.junk (lines.map (fun p => p.1 ++ p.2)) = .ok raw0 ∧
      analyzeInput s.db opt d [] raw0 = .ok i0 ∧ i0.lines ≠ [] ∧
      handleGenerateBox s.db opt (adjustSizeAndPadding opt d i0) i0 s.fuel = some (.ok out) := by
    unfold drawOnce at h1
    cases hraw : readAllInput s.db opt s.junk (lines.map (fun p => p.1 ++ p.2)) with
    | fail k => rw [hraw] at h1; simp at h1
    | ub => rw [hraw] at h1; simp at h1
    | ok raw0 =>
      rw [hraw, Res.ok_bind] at h1
      cases hi : analyzeInput s.db opt d [] raw0 with
      | fail k => rw [hi] at h1; simp at h1
      | ub => rw [hi] at h1; simp at h1
      | ok i0 =>
        rw [hi] at h1
        simp only at h1
        by_cases h0 : i0.lines = []
        · rw [if_pos h0] at h1
          have := Res.ok.inj (Option.some.inj h1)
          rw [← this] at hlen; simp at hlen
        · rw [if_neg h0] at h1
          exact ⟨raw0, i0, rfl, hi, h0, h1⟩
  obtain ⟨raw0, i0, q1, q2, q3, q4⟩ := hdraw
  obtain ⟨raw, i, j, back, j1, j2, j3, jl, jf, jn, jt⟩ := h4 hshort (.inr ⟨rfl, by simp, hh, hh, rfl, rfl, by
    have : ∀ x, wanted (-1) x = x := fun _ => rfl
    rw [hp0, this, this]; exact hfull⟩)
  -- the lines that are left are the lines that were read
  obtain ⟨t1, t2⟩ := plain_raw hdb hbr ho.draws ho.tabstop s.junk lines hl' q1
  have hlines : j.lines = raw0.lines := by
    refine lines_eq ?_ (handleRemove_tabpos j3 ?_) (readAll_tabpos ho.tabs.2 q1)
    · rw [t1]
      apply List.ext_getElem?
      intro x
      rw [List.getElem?_map, List.getElem?_map]
      cases hx : lines[x]? with
      | none =>
        have : j.lines[x]? = none := by
          rw [List.getElem?_eq_none_iff] at hx ⊢
          rw [jl.1]; omega
        rw [this]; rfl
      | some q =>
        obtain ⟨p, e, g1, g2, g3, -⟩ := jt x q hx
        obtain ⟨l, g4, g5⟩ := jl.2 x p g1
        have hc : comesBack d.indentmode m q.1 = q.1 := by
          unfold comesBack
          rw [if_pos hmode.symm]
        rw [g4]
        simp only [Option.map_some]
        rw [g5, g2, g3 (hl q (List.mem_of_getElem? hx)).2.1, hc]
        simp [spaces]
    · rw [analyze_removing rfl j2]
      exact readAll_tabpos (opt := { opt with mend := -1, r := true, killblank := 0 }) ho.tabs.2 j1
  have hfinal : j.finalNewline = raw0.finalNewline := by
    rw [Bool.eq_iff_iff, jf, t2]
  have hil : i.lines ≠ [] := by
    intro h0
    have e1 := readAll_count j1
    rw [← analyze_removing rfl j2, h0] at e1
    simp at e1
    omega
  -- the first round
  have hread : readAllInput s.db o s'.junk (out.map (fun p => p.1.memory ++ p.2)) = .ok raw := by
    rw [← j1, hoo]
    unfold readAllInput
    have : ∀ l, readLines s.db { opt with mend := 1, r := true, killblank := 0 } s'.junk l =
        readLines s.db { opt with mend := -1, r := true, killblank := 0 } s'.junk l := by
      intro l
      induction l with
      | nil => rfl
      | cons s r ih => rw [readLines, readLines, ih]; rfl
    rw [this]
  have han : analyzeInput s.db o d0 [] raw = .ok i := by
    rw [← j2, hoo]
    exact analyze_design rfl rfl _ _ _
  have hpr : PlainRemoving { opt with mend := -1, r := true, killblank := 0 } := ⟨rfl, ho.tabs, ho.reqwidth, ho.tabstop, by simp⟩
  obtain ⟨raw', i', l1, l2, l3, l4, l5, l6⟩ := drawn_lines hdb hbr ho hpr hd d s.junk s'.junk lines hl' hne s.fuel h1 hshort
  rw [j1] at l1
  obtain rfl := Res.ok.inj l1
  rw [j2] at l2
  obtain rfl := Res.ok.inj l2
  obtain ⟨a0, ha0⟩ : ∃ a0, a0 = adjustSizeAndPadding o d0 i := ⟨_, rfl⟩
  have hbare : ∀ o' : Opt, o'.padding = ⟨-1, -1, -1, -1⟩ → o'.reqwidth = 0 → o'.reqheight = 0 → ∀ e, bare (adjustSizeAndPadding o' e i) = bare e := by
    intro o' b1 b2 b3 e
    have := adjust_bare o' b2 e i
    rw [← b1, ← b3] at this
    exact this
  have hba : bare a0 = bare d0 := by rw [ha0]; exact hbare o (by rw [hoo]; exact hp0) (by rw [hoo]; exact ho.reqwidth) (by rw [hoo]; exact hh) d0
  have hsh0 : d0.shape = a0.shape := by rw [ha0]; exact ((C21_padding _ _ _).2.2.1).symm
  have hget : ∀ (x : Nat) e, (a0 :: ds')[x]? = some e → ∃ e0, (d0 :: ds')[x]? = some e0 ∧ e0.shape = e.shape := by
    intro x e hx
    cases x with
    | zero => simp only [List.getElem?_cons_zero, Option.some.injEq] at hx; subst hx; exact ⟨d0, rfl, hsh0⟩
    | succ x => exact ⟨e, by simpa using hx, rfl⟩
  obtain ⟨dk, hdk, hdks, hdkb⟩ : ∃ dk, (a0 :: ds')[k]? = some dk ∧ d.shape = dk.shape ∧ bare dk = bare d := by
    cases k with
    | zero => simp only [List.getElem?_cons_zero, Option.some.injEq] at hk; subst hk; exact ⟨a0, rfl, hsh0, hba⟩
    | succ k => exact ⟨d, by simpa using hk, rfl, rfl⟩
  obtain ⟨des, d', e1, e2, e3⟩ := design_found (ds := a0 :: ds') (lines := i.lines) hdb (by
      intro e he
      obtain ⟨x, hx⟩ := List.getElem?_of_mem he
      obtain ⟨e0, a1, a2⟩ := hget x e hx
      exact comparable_shape a2 (hcmp e0 (List.mem_of_getElem? a1))) l5 hdk
    (by rw [← coloured_shape hdks]; exact recognisable_mono hd.recognisable (hcmp d (List.mem_of_getElem? hk)))
    (fun q hq => l6 q (traces_shape hdks.symm hq)) (by
      intro x e dd p q hx he hmono hdd hp hq
      obtain ⟨e0, a1, a2⟩ := hget x e he
      obtain ⟨d1, b1, b2⟩ := hget k dd hdd
      have hbox : i.lines.map Line.text = (out.map (fun p => ({ text := some p.1 } : Line))).map Line.text := by rw [l3, List.map_map]; rfl
      exact hmost x e0 d1 p q hx a1 (by rw [coloured_shape a2]; exact hmono) b1 (traces_lines hbox (traces_shape a2.symm hp))
        (traces_lines hbox (traces_shape b2.symm hq)))
  rw [hdkb] at e3
  -- the second round
  obtain ⟨dB, hdB⟩ : ∃ dB, dB = { d' with minwidth := d0.minwidth, minheight := d0.minheight } := ⟨_, rfl⟩
  have hun : uncached dB = uncached { d with minwidth := d0.minwidth, minheight := d0.minheight } := by
    have hx := congrArg (fun e : Design => ({ e with minwidth := d0.minwidth, minheight := d0.minheight } : Design)) e3
    rw [hdB]
    exact hx
  have hmodeB : dB.indentmode = d.indentmode := by
    have := congrArg Design.indentmode hun
    exact this
  obtain ⟨w1, w2⟩ := analyze_wide (lines := lines.map Prod.fst) (fun t ht => by
      obtain ⟨p, hp, rfl⟩ := List.mem_map.1 ht
      exact (hl p hp).1) (by rw [t1, List.map_map]; rfl) q2 (by simpa using hne)
  simp only [List.length_map] at w1
  refine run_mended_detected s' opt' (by rw [ho']) (by rw [ho']) (by rw [ho']) hu d0 ds' n' k hrev hrules' (o1 := o) (o3 := { opt with mend := 0, r := false, killblank := 0 })
    (by rw [hoo, ho']) (by rw [ho']) (hprep' d0).symm (raw := raw) (i := i) (j := j) (i2 := i0) (des := des) (d' := d') (dB := dB) (out := out)
    (by rw [hsame, hp]; exact hread) (by rw [hsame]; exact han) hil (by rw [hsame, ← ha0]; exact e1) e2 ?_ hdB ?_ q3 ?_
  · rw [hsame, hoo]
    have := handleRemove_mending (opt := { opt with mend := -1, r := true, killblank := 0 }) (by simp) (m := 1) (by decide) j3
    rw [remove_alike (e3.trans (hbare { opt with mend := -1, r := true, killblank := 0 } hp0 ho.reqwidth hh d).symm)]
    exact this
  · rw [hsame, ← q2, ← analyze_lines hlines hfinal]
    have hr0 := ho.draws
    unfold analyzeInput applySubstitutions
    simp only [hr0, hmodeB]
  · rw [hsame]
    have hopt : ∀ e, adjustSizeAndPadding { opt with mend := 0, r := false, killblank := 0 } e i0 = adjustSizeAndPadding opt e i0 := fun _ => rfl
    rw [hopt]
    refine (generate_opts s.db opt 0 0 false _ i0 s'.fuel).trans (handleGenerateBox_more _ _ _ _ hfuel ?_)
    rw [← q4, ← generate_uncached s.db opt (adjustSizeAndPadding opt dB i0), ← generate_uncached s.db opt (adjustSizeAndPadding opt d i0)]
    have hadj : uncached (adjustSizeAndPadding opt dB i0) =
        { uncached (adjustSizeAndPadding opt d i0) with
          minwidth := (fitPadding 0 (i0.maxline + ((d.shape NW).width + (d.shape NE).width)) d0.minwidth d.padding.left d.padding.right).2.2,
          minheight := (fitPadding 0 (i0.lines.length + ((d.shape NW).height + (d.shape SW).height)) d0.minheight d.padding.top d.padding.bottom).2.2 } := by
      have hx := congrArg (fun e => adjustSizeAndPadding opt e i0) hun
      have hc : ∀ e, adjustSizeAndPadding opt (uncached e) i0 = uncached (adjustSizeAndPadding opt e i0) := fun _ => rfl
      rw [← hc, hun]
      have he : ∀ p : Nat, effectivePadding (-1) p = p := fun _ => rfl
      simp only [adjustSizeAndPadding, uncached, uncachedShape, ho.reqwidth, hh, hp0, he, (fitPadding_kept _ _ _ _).1, (fitPadding_kept _ _ _ _).2]
    rw [hadj]
    have he : ∀ p : Nat, effectivePadding (-1) p = p := fun _ => rfl
    refine generate_sizes s.db opt _ _ _ i0 s.fuel ?_ ?_
    · simp only [adjustSizeAndPadding, uncached, uncachedShape, ho.reqwidth, hp0, he]
      obtain ⟨p, hp, hw⟩ := hwide
      have := w2 p.1 (List.mem_map.2 ⟨p, hp, rfl⟩)
      refine targetLen_fit _ _ _ _ _ _ _ _ rfl hd.recognisable.ready.good.minwidth ?_
      rcases hw with hw | hw
      · exact .inl hw
      · exact .inr ⟨by omega, by omega, hw.2.2⟩
    · simp only [adjustSizeAndPadding, uncached, uncachedShape, hh, hp0, he]
      have hgh := hd.recognisable.ready.good.minheight
      have := targetLen_fit i0.lines.length (d.padding.top + d.padding.bottom) (d.shape SW).height (d.shape NW).height d.padding.top d.padding.bottom d.minheight d0.minheight rfl
        (by omega) (by
          rw [w1]
          rcases hhigh with hw | hw
          · exact .inl hw
          · exact .inr ⟨by omega, by omega, by omega⟩)
      rw [Nat.add_comm (d.shape SW).height] at this
      exact this

/-- C93, for the complete program (`boxes -d X | boxes -m`): the program is run with a design chosen by name, and run again with -m instead, and reads what the first run
printed.  Under the conditions of `C93_mended`, the second run prints exactly what it has read. -/
theorem C93_pipeline (m : Machine) (hdb : Sane m.db) (hbr : BreaksSane m.db) (htexts : ∀ f decls, m.contents f = some decls → ReadableTexts m.db decls)
    (c : CommandLine) (hc : DrawsWith c) (fuel : Nat) (others : List Option') (name : Str) (hcopts : c.options = others ++ [.design name])
    (hnot : ∀ s, .padding s ∉ others ∧ .indent s ∉ others ∧ .design s ∉ others) {a : Args}
    (hopts : optionLoop others createNewOpt = some (a, false)) (hfiles : UsableFiles m.canRead m.canWrite c.files)
    (htab : a.opt.tabexp ≠ 'u' ∧ a.opt.tabexp ≠ 'k') (heol : a.opt.eol = [0x0a] ∨ a.opt.eol = [0x0d, 0x0a])
    {file : Bxs} {d : DesignDef} {ds : List DesignDef} {ps : List Bxs} (h : Loaded m { a with design := some name, byUser := true } fuel file d ds ps)
    (hd : Restorable m.db d.core) (hrules : d.reprules = []) (hmode : d.core.indentmode = 't' ∨ d.core.indentmode = 'b')
    (lines : List (Str × Str)) (hl : ∀ p ∈ lines, PlainLine m.db p.1 ∧ p.1 ≠ [] ∧ LineEnd p.2) (hne : lines ≠ [])
    (hpieces : m.input (named c.files 0) = lines.map (fun p => p.1 ++ p.2))
    {r : Res Outcome} (hrun : wholeProgram m c fuel = some r)
    (c' : CommandLine) (hfirst' : c'.first ≠ some (lit "-?")) (hopts' : c'.options = others ++ [.mend]) (hfiles' : UsableFiles m.canRead m.canWrite c'.files)
    (input' : Option Str → List Str) (fuel' : Nat) (hfuel : fuel < fuel') {file' : Bxs} {d0 : DesignDef} {ds' : List DesignDef} {ps' : List Bxs}
    (h' : Loaded { m with input := input' } { a with opt := { a.opt with mend := 2, r := true, killblank := 0 } } fuel' file' d0 ds' ps')
    (k : Nat) {e : DesignDef} (hk : (d0 :: ds')[k]? = some e) (hsame : e.core = d.core) (hrules' : e.reprules = []) (hrev : e.revrules = [])
    (hwide : ∃ p ∈ lines, SameSize d.core.minwidth d0.core.minwidth (d.core.padding.left + d.core.padding.right)
      ((d.core.shape NW).width + (d.core.shape NE).width) (columns m.db (p.1.drop (leadingBlanks m.db p.1))))
    (hhigh : SameSize d.core.minheight d0.core.minheight (d.core.padding.top + d.core.padding.bottom)
      ((d.core.shape NW).height + (d.core.shape SW).height) lines.length) :
    ∃ text, r = .ok (.output (named c.files 1) text) ∧
      (ReadInLines text (input' (named c'.files 0)) → (∀ p ∈ input' (named c'.files 0), p.length < 16370) →
      (input' (named c'.files 0)).length = (d.core.shape NE).height + d.core.padding.top + lines.length + d.core.padding.bottom + (d.core.shape SE).height →
      ∀ rows, AsLines m.db (input' (named c'.files 0)) rows → MostTraces m.db ((d0 :: ds').map (·.core)) k rows →
      wholeProgram { m with input := input' } c' fuel' = some (.ok (.output (named c'.files 1) text))) := by
  have hpl : ∀ p ∈ lines, PlainLine m.db p.1 ∧ LineEnd p.2 := fun p hp => ⟨(hl p hp).1, (hl p hp).2.2⟩
  have hfst : optionLoop c.options createNewOpt = some ({ a with design := some name, byUser := true }, false) := by
    rw [hcopts]; exact optionLoop_more (x := .design name) others createNewOpt hopts rfl
  have hsnd : optionLoop c'.options createNewOpt = some ({ a with opt := { a.opt with mend := 2, r := true, killblank := 0 } }, false) := by
    rw [hopts']; exact optionLoop_more (x := .mend) others createNewOpt hopts rfl
  obtain ⟨ho, hm, hh, hqn, hln, -, -⟩ := draws_opts hc hfst htab heol
  have hcr : ∀ s, .create s ∉ others := fun s hs => hc.create s (by rw [hcopts]; simp [hs])
  have hpad := (unset_options others a hopts).1 (fun s => (hnot s).1)
  have hind : a.opt.indentmode = '\x00' := by
    rcases (C58_words others a hopts).2.1 with ⟨x, ⟨pre, post, e, ⟨s, rfl⟩, -⟩, -⟩ | ⟨-, e⟩
    · exact absurd (by rw [e]; simp) (hnot s).2.1
    · exact e
  have hu : a.byUser = false := by
    cases hb : a.byUser with
    | false => rfl
    | true =>
      obtain ⟨s, h | h⟩ := (C58_switches others a hopts).2.2.2.1.1 hb
      · exact absurd h (hnot s).2.2
      · exact absurd h (hcr s)
  obtain ⟨n, out, text, rfl, h1, rfl, h2, h3⟩ := piped_first m hdb hbr c hc fuel hfst hfiles htab heol h hd hrules lines hpl hne hpieces hrun
  refine ⟨text, rfl, fun hread hshort hfull rows ⟨parts, g1, g2, g3⟩ hmost => ?_⟩
  obtain hin := readInLines_unique _ _ _ hread h2
  have ew := whole_run { m with input := input' } c' fuel' hfirst' hsnd hfiles' (by
    rw [hopts']
    intro s hs
    simp at hs
    exact hcr s hs) hqn hln h'
  have hcore : (d0.core :: ds'.map (·.core))[k]? = some d.core := by
    have := congrArg (Option.map (·.core)) hk
    rw [← List.getElem?_map] at this
    simpa [hsame] using this
  have hcmp := C77_loaded { m with input := input' } hdb fuel' h' htexts
  obtain ⟨out', q1, q2⟩ := C93_mended (setupOf m { a with design := some name, byUser := true } (m.input (named c.files 0)) (d :: ds) (n + 1))
    (setupOf { m with input := input' } { a with opt := { a.opt with mend := 2, r := true, killblank := 0 } } (input' (named c'.files 0)) (d0 :: ds') fuel') hdb hbr rfl
    (Nat.le_of_lt hfuel) a.opt _ ho (by rw [show a.opt.mend = 0 from hm]; decide) hh hpad hind rfl
    d.core (ds.map (·.core)) hd hmode d0.core (ds'.map (·.core)) k hcore
    (by
      intro x hx
      rw [← List.map_cons (f := fun y : DesignDef => y.core)] at hx
      obtain ⟨y, hy, rfl⟩ := List.mem_map.1 hx
      exact hcmp y hy)
    (by simp [setupOf, rulesOf, hrules]) (by simp [setupOf, rulesOf, hk, hrules']) (by simp [setupOf, rulesOf, hk, hrev]) hu lines hl hne hwide hhigh hpieces n (fuel' - 2) h1
  have hoo : out' = out := by simpa using q1.symm
  subst hoo
  have hdraw := first_drawn m hdb hbr (a := { a with design := some name, byUser := true }) (d := d) (ds := ds) ho hm hd hrules lines hpl hne hpieces n h1
  have hparts := drawn_parts hdb hbr ho (restorable_prepared a.opt hd) m.junk lines hpl hne (n + 1) hdraw
  have hrows : rows.map Line.text = (out'.map (fun p => ({ text := some p.1 } : Line))).map Line.text := by
    have := parts_unique parts (out'.map (fun p => (p.1.memory, p.2))) (by rw [← g1, hin, List.map_map]; rfl) g2 (by
      intro q hq
      obtain ⟨p, hp, rfl⟩ := List.mem_map.1 hq
      exact (hparts p hp).2)
    rw [g3, this, List.map_map, List.map_map]
    exact List.map_congr_left fun p hp => (hparts p hp).1
  have q3 := q2 (by
    intro p hp
    have := hshort (p.1.memory ++ p.2) (by rw [hin]; exact List.mem_map.2 ⟨p, hp, rfl⟩)
    simp at this; omega) (by rw [← hfull, hin]; simp) hin (mostTraces_lines hrows hmost)
  rw [show fuel' - 2 + 2 = fuel' by omega] at q3
  rw [ew]
  rw [show runProgram (setupOf { m with input := input' } { a with opt := { a.opt with mend := 2, r := true, killblank := 0 } } (input' (named c'.files 0)) (d0 :: ds') fuel')
    { a.opt with mend := 2, r := true, killblank := 0 } (d0.core :: ds'.map (·.core)) fuel' = _ from q3]
  simp only [Option.map_some, Res.ok_bind, renderEvents, h3, List.map_nil, List.flatten_nil, List.nil_append, List.append_nil]

/-! ## Example: `boxes -d fr | boxes -m` -/

/-- the settings after `-m` -/
def mendAnyArgs : Args := { createNewOpt with opt := { createNewOpt.opt with mend := 2, r := true, killblank := 0 } }

theorem mendAny_loaded : Loaded { sampleMachine with input := fun _ => frBox } mendAnyArgs 21 (fileName "/h/.config/boxes/boxes-config")
    anyDesigns.1 [anyDesigns.2] [] where
  found := frDesign_loaded.found
  designs := by
    have e : parseEnv sampleMachine mendAnyArgs = parseEnv sampleMachine anyArgs := rfl
    have h3 := anyDesigns_loaded.designs
    have h4 : parseConfigFiles (parseEnv sampleMachine anyArgs) sampleMachine.contents 20 (fileName "/h/.config/boxes/boxes-config") =
      some (.ok ([anyDesigns.1, anyDesigns.2], [])) := h3
    show parseConfigFiles (parseEnv sampleMachine mendAnyArgs) sampleMachine.contents 21 (fileName "/h/.config/boxes/boxes-config") = _
    rw [e]
    exact parseConfigFiles_more _ _ (by omega) _ h4

example : wholeProgram { sampleMachine with input := fun _ => frBox } { options := [.mend] } 21 =
    some (.ok (.output none (lit "  +--*\n  |ab!\n  |c !\n  +==+\n"))) := by
  obtain ⟨text, h1, h2⟩ := C93_pipeline sampleMachine sampleDb_sane sampleDb_breaks sampleMachine_readable { options := [.design (lit "fr")] } fr_draws 20 [] (lit "fr") rfl (by simp)
    (a := createNewOpt) rfl ⟨by simp, by simp, by simp⟩ (by decide) (by decide) frDesign_loaded frDesign_restorable (by decide +kernel) (by decide +kernel)
    [(lit "  ab", lit "\n"), (lit "  c", lit "\n")] (fun p hp => ⟨(fr_lines p hp).1, (fr_lines p hp).2, by
      simp only [List.mem_cons, List.not_mem_nil, or_false] at hp
      rcases hp with rfl | rfl <;> exact .inr (.inl rfl)⟩) (by simp) (by decide +kernel) fr_run
    { options := [.mend] } (by simp) rfl ⟨by simp, by simp, by simp⟩ (fun _ => frBox) 21 (by omega) mendAny_loaded 1 rfl anyDesigns_same (by decide +kernel) (by decide +kernel)
    (by unfold SameSize; decide +kernel) (by unfold SameSize; decide +kernel)
  obtain rfl : lit "  +--*\n  |ab!\n  |c !\n  +==+\n" = text := by simp at h1; exact h1.2
  refine h2 frBox_read (by
    show ∀ p ∈ frBox, _
    decide +kernel) (by decide +kernel) frRows ⟨frBox.map (fun p => (p.dropLast, [0x0a])), ?_, ?_, ?_⟩ frRows_most
  · show frBox = _
    decide +kernel
  · unfold LineEnd
    decide +kernel
  · decide +kernel

/-! ## Limits -/

/-- shapes of a frame with wide sides -/
def wideItems : List Item :=
  [.sample (lit "x\n"), .shapes [(NW, [lit "+<<"]), (N, [lit "-"]), (NE, [lit ">>*"]), (E, [lit "  !"]), (SE, [lit ">>+"]), (S, [lit "="]), (SW, [lit "+<<"]), (W, [lit "|  "])],
    .elastic [N, E, S, W]]

/-- a machine with two designs -/
def twoDesigns (first second : List Item) (pieces : List Str) : Machine :=
  { sampleMachine with
    input := fun _ => pieces,
    contents := fun b => if b.memory = lit "/h/.config/boxes/boxes-config" then
      some [.box (lit "one") [] first (lit "one"), .box (lit "two") [] second (lit "two")] else none }

/-- An intact box grows when it is mended by `boxes -m`: it gets the least size of the first design of the configuration, which has nothing to do with the box.  It does not if
its design is named. -/
theorem C93_grows_disagrees :
    wholeProgram (twoDesigns wideItems frameItems [lit "a\n", lit "c\n"]) { options := [.design (lit "two")] } 20 =
      some (.ok (.output none (lit "+-*\n|a!\n|c!\n+=+\n"))) ∧
    wholeProgram (twoDesigns wideItems frameItems [lit "+-*\n", lit "|a!\n", lit "|c!\n", lit "+=+\n"]) { options := [.mend, .design (lit "two")] } 20 =
      some (.ok (.output none (lit "+-*\n|a!\n|c!\n+=+\n"))) ∧
    wholeProgram (twoDesigns wideItems frameItems [lit "+-*\n", lit "|a!\n", lit "|c!\n", lit "+=+\n"]) { options := [.mend] } 20 =
      some (.ok (.output none (lit "+-----*\n|a    !\n|c    !\n+=====+\n"))) := by
  decide +kernel

/-- If the first design is smaller than the corners of the box, and the design of the box has no padding, then the size of the box is computed by a subtraction that underflows
(src/generate.c:73-80): the program tries to draw a box of enormous size.  The length of the text does not matter. -/
theorem C93_underflow_disagrees :
    wholeProgram (twoDesigns minimalItems wideItems [lit "abcdefgh\n", lit "c\n"]) { options := [.design (lit "two")] } 20 =
      some (.ok (.output none (lit "+<<-------->>*\n|  abcdefgh  !\n|  c         !\n+<<========>>+\n"))) ∧
    wholeProgram (twoDesigns minimalItems wideItems [lit "+<<-------->>*\n", lit "|  abcdefgh  !\n", lit "|  c         !\n", lit "+<<========>>+\n"])
      { options := [.mend, .design (lit "two")] } 20 =
      some (.ok (.output none (lit "+<<-------->>*\n|  abcdefgh  !\n|  c         !\n+<<========>>+\n"))) ∧
    wholeProgram (twoDesigns minimalItems wideItems [lit "+<<-------->>*\n", lit "|  abcdefgh  !\n", lit "|  c         !\n", lit "+<<========>>+\n"])
      { options := [.mend] } 20 = some .ub := by
  decide +kernel

end Boxes
