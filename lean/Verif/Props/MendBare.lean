import Verif.Props.NoBox
import Verif.Props.Edited

/-! C90: Mending a box where there is none draws one. -/

set_option linter.unusedSimpArgs false
set_option linter.unusedVariables false

namespace Boxes
open Spec ShapeName

theorem breaks_at_end {db : CharDb} (lines : List (Str × Str)) (hl : ∀ p ∈ lines, (∀ c ∈ p.1, CleanChar db c) ∧ LineEnd p.2) :
    (∃ p, lines.getLast? = some p ∧ p.2 ≠ []) ↔ EndsInBreak (lines.map (fun p => p.1 ++ p.2)) := by
  rcases List.eq_nil_or_concat lines with rfl | ⟨a, z, rfl⟩
  · simp only [List.getLast?_nil, List.map_nil]
    constructor
    · rintro ⟨p, h, -⟩; simp at h
    · rintro ⟨a, p, c, h, -⟩; simp at h
  · rw [List.concat_eq_append] at hl ⊢
    rw [List.getLast?_concat, List.map_append, List.map_cons, List.map_nil]
    obtain ⟨h1, h2⟩ := hl z (by simp)
    constructor
    · rintro ⟨p, hp, hne⟩
      obtain rfl := Option.some.inj hp
      rcases h2 with h | h | h
      · exact absurd h hne
      · exact ⟨_, z.1, 0x0a, by rw [h], .inl rfl⟩
      · exact ⟨a.map (fun p => p.1 ++ p.2), z.1 ++ [0x0d], 0x0a, by rw [h]; simp, .inl rfl⟩
    · rintro ⟨b, p, c, h, hc⟩
      refine ⟨z, rfl, fun h0 => ?_⟩
      have := (List.append_inj' h rfl).2
      simp only [List.cons.injEq, and_true] at this
      rw [h0, List.append_nil] at this
      have := h1 c (by rw [this]; simp)
      rcases hc with hc | hc
      · exact this.2.2.2.2.1 hc
      · exact this.2.2.2.2.2 hc

/-- C90: Mending a plain text that shows nothing of a box draws the box that is drawn around the text, if the text is not indented as a whole or the
indentation is not to be restored. -/
theorem C90_mended (s s' : Setup) (hdb : Sane s.db) (hbr : BreaksSane s.db) (hj : s'.junk ≠ 0x0d) (hsame : s'.db = s.db) (hfuel : s.fuel ≤ s'.fuel) (opt opt' : Opt)
    (ho : PlainDrawing opt) (hm : opt.mend ≤ 0) (hh : opt.reqheight = 0)
    (ho' : opt' = { opt with mend := 2, r := true, killblank := 0 }) (d : Design) (ds ds' : List Design) (hd : Restorable s.db d)
    (hrules : s.rules 0 = []) (hrules' : s'.rules 0 = []) (hrev : s'.revRules 0 = []) (hu : s'.byUser = true)
    (lines : List (Str × Str)) (hl : ∀ p ∈ lines, PlainLine s.db p.1 ∧ Foreign s.db d p.1 ∧ LineEnd p.2 ∧ (p.1 = [] → p.2 ≠ [])) (hne : lines ≠ [])
    (hflush : opt.indentmode = 't' ∨ opt.indentmode = 'n' ∨ ∃ p ∈ lines, ∃ c r, p.1 = c :: r ∧ ¬ Blank s.db c)
    (hpieces : s.pieces = lines.map (fun p => p.1 ++ p.2)) (hpieces' : s'.pieces = s.pieces) (n n' : Nat) {res : Res (List Event)}
    (h : runProgram s opt (d :: ds) (n + 1) = some res) :
    ∃ out, res = .ok [.read, .drawn out] ∧ runProgram s' opt' (d :: ds') (n' + 2) = some (.ok [.read, .removed [], .drawn out]) := by
  obtain ⟨r, h1, h2⟩ := run_drawn s opt hm ho.draws d ds n h
  rw [hrules, hpieces] at h1
  obtain ⟨f1, f2, -, f4⟩ := prepareDesign_fields opt d
  have hl' : ∀ p ∈ lines, PlainLine s.db p.1 ∧ LineEnd p.2 := fun p hp => ⟨(hl p hp).1, (hl p hp).2.2.1⟩
  have hprep : prepareDesign opt' d = prepareDesign opt d := by rw [ho']; rfl
  have hd1 := restorable_prepared opt hd
  obtain ⟨out, n1, above', below', w, rfl, -, -, i3, -⟩ := drawn_rows s.db hdb hbr opt ho (prepareDesign opt d) hd1 s.junk lines hl' hne s.fuel h1
  have hlen : 0 < out.length := by
    rw [i3.count]
    have : 0 < ((prepareDesign opt d).shape NE).height := (hd1.recognisable.ready.good.corner NE (by simp)).2.2
    omega
  refine ⟨out, h2 out rfl (List.length_pos_iff.1 hlen), ?_⟩
  -- what the first run draws
  have hdraw : ∃ raw0 i0, readAllInput s.db opt s.junk (lines.map (fun p => p.1 ++ p.2)) = .ok raw0 ∧
      analyzeInput s.db opt (prepareDesign opt d) [] raw0 = .ok i0 ∧ i0.lines ≠ [] ∧
      handleGenerateBox s.db opt (adjustSizeAndPadding opt (prepareDesign opt d) i0) i0 s.fuel = some (.ok out) := by
    unfold drawOnce at h1
    cases hraw : readAllInput s.db opt s.junk (lines.map (fun p => p.1 ++ p.2)) with
    | fail k => rw [hraw] at h1; simp at h1
    | ub => rw [hraw] at h1; simp at h1
    | ok raw0 =>
      rw [hraw, Res.ok_bind] at h1
      cases hi : analyzeInput s.db opt (prepareDesign opt d) [] raw0 with
      | fail k => rw [hi] at h1; simp at h1
      | ub => rw [hi] at h1; simp at h1
      | ok i0 =>
        rw [hi] at h1
        simp only at h1
        by_cases h0 : i0.lines = []
        · rw [if_pos h0] at h1
          have := Res.ok.inj (Option.some.inj h1)
          rw [← this] at hlen; simp at hlen
        · rw [if_neg h0] at h1
          exact ⟨raw0, i0, rfl, hi, h0, h1⟩
  obtain ⟨raw0, i0, q1, q2, q3, q4⟩ := hdraw
  -- removing leaves the text
  obtain ⟨o, hoe⟩ : ∃ o : Opt, o = { opt with mend := -1, r := true, killblank := 0 } := ⟨_, rfl⟩
  have hor : o.r = true := by rw [hoe]
  have hot : 1 ≤ o.tabstop := by rw [hoe]; exact ho.tabstop
  have hox : o.tabexp ≠ 'u' ∧ o.tabexp ≠ 'k' := by rw [hoe]; exact ho.tabs
  have hoi : ∀ n, restored o n = restored opt n := by intro n; rw [hoe]; rfl
  have hclean : ∀ p ∈ lines, ∀ c ∈ p.1, CleanChar s.db c := fun p hp => cleanChar_plain (hl p hp).1
  obtain ⟨raw, i, j1, j2, i3, i4, i5⟩ := read_rows (db := s.db) hor hot hj (prepareDesign opt d) lines hne (by
    intro p hp
    obtain ⟨h1, -, h3, h4⟩ := hl p hp
    refine ⟨h3, ?_⟩
    by_cases h0 : p.1 = []
    · exact .inr ⟨h0, h4 h0⟩
    · have hc := hclean p hp
      refine .inl ⟨h0, fun c hc' => (hc c hc').2.2.2.1, ?_, by have := h1.short; omega⟩
      intro c hl
      exact (hc c (List.mem_of_getLast? hl)).2.2.2.2) (by
    intro p hp
    have hc := hclean p hp
    exact ⟨fun c h => (hc c h).1, fun c h => (hc c h).2.1, fun c h => (hc c h).2.2.1⟩)
  have hshape : (adjustSizeAndPadding o (prepareDesign opt d) i).shape = d.shape := (C21_padding o (prepareDesign opt d) i).2.2.1.trans f1
  have hrec := recognisable_shape hd.recognisable hshape
    (C20_adjusted_design s.db o _ hd1.recognisable.ready.good i).2
  obtain ⟨j, back, j3, -, jf, jl, jt⟩ := noBox_output s.db hdb o hox hot (by rw [hoe]; simp) _ hrec i (lines.map Prod.fst) (by rw [i3, List.map_map]; rfl) (by
    intro v hv
    obtain ⟨p, hp, rfl⟩ := List.mem_map.1 hv
    have hc := hclean p hp
    exact ⟨fun c h => ⟨(hc c h).1, (hc c h).2.1⟩, fun c h => (hc c h).2.2.1, by unfold Foreign; rw [hshape]; exact (hl p hp).2.1⟩)
  rw [List.length_map] at jl
  have h0 : restored o i.indent = 0 := by
    rw [hoi]
    rcases hflush with h | h | ⟨p, hp, c, r, hpc, hc⟩
    · simp [restored, h]
    · simp [restored, h]
    · have hs : Seen s.db p.1 := by
        rcases (hl p hp).1.shows with h | h
        · rw [hpc] at h; simp at h
        · exact h
      rw [hpc] at hs
      rw [least_flush i5 (by rw [← hpc]; exact List.mem_map.2 ⟨p, hp, rfl⟩) hc hs]
      simp [restored]
  obtain ⟨t1, t2⟩ := plain_raw hdb hbr ho.draws ho.tabstop s.junk lines hl' q1
  have hlines : j.lines = raw0.lines := by
    refine lines_eq ?_ (handleRemove_tabpos j3 ?_) (readAll_tabpos ho.tabs.2 q1)
    · rw [t1]
      apply List.ext_getElem?
      intro x
      rw [List.getElem?_map, List.getElem?_map]
      cases hx : lines[x]? with
      | none =>
        have : j.lines[x]? = none := by
          rw [List.getElem?_eq_none_iff] at hx ⊢
          omega
        rw [this]; rfl
      | some q =>
        obtain ⟨t, e1, e2, ⟨s1, w1, l, e3, e4, e5⟩, -⟩ := jt x q.1 (by rw [List.getElem?_map, hx]; rfl)
        have ht : t = q.1 := by
          rcases Classical.em (Within s.db (lines.map Prod.fst) x) with h | h
          · rw [e1 h, h0]; rfl
          · exact e2 h
        subst ht
        have hs1 : s1 = q.1 := by
          rcases e3.2 with ⟨-, h, -⟩ | ⟨-, h, h' | ⟨h', -⟩⟩
          · exact h
          · exact h'.2
          · refine absurd ?_ h'
            rw [h]
            rcases List.eq_nil_or_concat q.1 with h9 | ⟨a, z, h9⟩
            · rw [h9]; rfl
            · rw [List.concat_eq_append] at h9
              rw [h9]
              exact dropTrailing_app s.db _ z [] (plain_last hbr (hl q (List.mem_of_getElem? hx)).1 h9) (by simp)
        rw [e4]
        simp only [Option.map_some]
        rw [e5, hs1]
    · rw [analyze_removing hor j2]
      exact readAll_tabpos hox.2 j1
  have hfin : j.finalNewline = raw0.finalNewline := by
    rw [Bool.eq_iff_iff, jf, i4, t2]
    exact breaks_at_end lines (fun p hp => ⟨hclean p hp, (hl p hp).2.2.1⟩)
  have hil : i.lines ≠ [] := by
    intro h0
    have e1 := readAll_count j1
    rw [← analyze_removing hor j2, h0] at e1
    simp at e1
    exact hne (List.eq_nil_of_length_eq_zero e1.symm)
  rw [hoe] at j1 j2 j3
  have hread : readAllInput s'.db { opt' with mend := 1 } s'.junk s'.pieces = .ok raw := by
    rw [hsame, hpieces', hpieces, ← j1, ho']
    unfold readAllInput
    have : ∀ l, readLines s.db { opt with mend := 1, r := true, killblank := 0 } s'.junk l =
        readLines s.db { opt with mend := -1, r := true, killblank := 0 } s'.junk l := by
      intro l
      induction l with
      | nil => rfl
      | cons s r ih => rw [readLines, readLines, ih]; rfl
    rw [this]
  have hfit : adjustSizeAndPadding { opt' with mend := 1 } (prepareDesign opt d) i =
      adjustSizeAndPadding { opt with mend := -1, r := true, killblank := 0 } (prepareDesign opt d) i := by rw [ho']; rfl
  refine run_mended s' opt' (by rw [ho']) (by rw [ho']) hu hrev hrules' d ds' n' rfl rfl rfl rfl hread
    (i := i) (j := j) (i2 := i0) ?_ hil rfl ?_ rfl ?_ q3 ?_
  · rw [hprep, hsame, ← j2, ho']; rfl
  · rw [hprep, hsame, hfit]
    have := handleRemove_mending (opt := { opt with mend := -1, r := true, killblank := 0 }) (by simp) (m := 1) (by decide) j3
    rw [ho']; exact this
  · rw [hprep, hsame, ← q2, ← analyze_lines hlines hfin, ho']
    have hr0 := ho.draws
    unfold analyzeInput
    simp only [hr0]
    rfl
  · rw [hprep, hsame, ho']
    have e := adjust_again opt ho.reqwidth hh 0 0 1 false true (prepareDesign opt d) i i0
    refine (congrArg (fun z => handleGenerateBox s.db _ z i0 s'.fuel) e).trans ?_
    exact (generate_opts s.db opt 0 0 false _ i0 s'.fuel).trans (handleGenerateBox_more _ _ _ _ hfuel q4)

/-- C90, for the complete program: `boxes -d X -m`, reading a plain text in which nothing of a box of this design can be seen, prints what `boxes -d X`
prints, if some line of the text is not indented. -/
theorem C90_program (m : Machine) (hdb : Sane m.db) (hbr : BreaksSane m.db) (hj : m.junk ≠ 0x0d) (c : CommandLine) (hc : DrawsWith c) (fuel : Nat) {a : Args}
    (hopts : optionLoop c.options createNewOpt = some (a, false)) (hfiles : UsableFiles m.canRead m.canWrite c.files)
    (htab : a.opt.tabexp ≠ 'u' ∧ a.opt.tabexp ≠ 'k') (heol : a.opt.eol = [0x0a] ∨ a.opt.eol = [0x0d, 0x0a])
    {file : Bxs} {d : DesignDef} {ds : List DesignDef} {ps : List Bxs} (h : Loaded m a fuel file d ds ps) (hd : Restorable m.db d.core)
    (hrules : d.reprules = []) (hrev : d.revrules = [])
    (lines : List (Str × Str)) (hl : ∀ p ∈ lines, PlainLine m.db p.1 ∧ Foreign m.db d.core p.1 ∧ LineEnd p.2 ∧ (p.1 = [] → p.2 ≠ [])) (hne : lines ≠ [])
    (hflush : ∃ p ∈ lines, ∃ c r, p.1 = c :: r ∧ ¬ Blank m.db c)
    (hpieces : m.input (named c.files 0) = lines.map (fun p => p.1 ++ p.2))
    (c' : CommandLine) (hfirst' : c'.first ≠ some (lit "-?")) (hopts' : c'.options = c.options ++ [.mend]) (hfiles' : UsableFiles m.canRead m.canWrite c'.files)
    (hinput' : m.input (named c'.files 0) = m.input (named c.files 0)) (fuel' : Nat) (hfuel : fuel < fuel')
    {r : Res Outcome} (hrun : wholeProgram m c fuel = some r) :
    ∃ text, r = .ok (.output (named c.files 1) text) ∧ wholeProgram m c' fuel' = some (.ok (.output (named c'.files 1) text)) := by
  have hpl : ∀ p ∈ lines, PlainLine m.db p.1 ∧ LineEnd p.2 := fun p hp => ⟨(hl p hp).1, (hl p hp).2.2.1⟩
  obtain ⟨ho, hm, hh, hqn, hln, hu, hdes⟩ := draws_opts hc hopts htab heol
  obtain ⟨n, out, text, rfl, h1, rfl, h2, h3⟩ := piped_first m hdb hbr c hc fuel hopts hfiles htab heol h hd hrules lines hpl hne hpieces hrun
  refine ⟨text, rfl, ?_⟩
  have ha' : optionLoop c'.options createNewOpt = some ({ a with opt := { a.opt with mend := 2, r := true, killblank := 0 } }, false) := by
    rw [hopts']
    exact optionLoop_more (x := .mend) c.options createNewOpt hopts rfl
  have e := whole_run m c' fuel' hfirst' ha' hfiles' (by
    rw [hopts']
    intro s hs
    simp at hs
    exact hc.create s hs) hqn hln (loaded_again (Nat.le_of_lt hfuel) h m.input rfl rfl rfl hdes)
  obtain ⟨out', q1, q3⟩ := C90_mended (setupOf m a (m.input (named c.files 0)) (d :: ds) (n + 1))
    (setupOf m { a with opt := { a.opt with mend := 2, r := true, killblank := 0 } } (m.input (named c'.files 0)) (d :: ds) fuel') hdb hbr hj rfl
    (Nat.le_of_lt hfuel) a.opt _ ho (by rw [hm]; decide) hh rfl
    d.core (ds.map (·.core)) (ds.map (·.core)) hd
    (by simp [setupOf, rulesOf, hrules]) (by simp [setupOf, rulesOf, hrules]) (by simp [setupOf, rulesOf, hrev]) hu lines hl hne (.inr (.inr hflush)) hpieces
    hinput' n (fuel' - 2) h1
  have hoo : out' = out := by simpa using q1.symm
  subst hoo
  rw [show fuel' - 2 + 2 = fuel' by omega] at q3
  rw [e]
  rw [show runProgram (setupOf m { a with opt := { a.opt with mend := 2, r := true, killblank := 0 } } (m.input (named c'.files 0)) (d :: ds) fuel')
    { a.opt with mend := 2, r := true, killblank := 0 } (d.core :: ds.map (·.core)) fuel' = _ from q3]
  simp only [Option.map_some, Res.ok_bind, renderEvents, h3, List.map_nil, List.flatten_nil, List.nil_append, List.append_nil]

/-! ### A case -/

/-- `boxes -d fr -m`, reading a text without a box -/
example : wholeProgram { sampleMachine with input := fun _ => bareText.map (fun p => p.1 ++ p.2) } { options := [.design (lit "fr"), .mend] } 21 =
    some (.ok (.output none (lit "+---*\n|xy !\n|   !\n|  z!\n+===+"))) := by
  have hrun : wholeProgram { sampleMachine with input := fun _ => bareText.map (fun p => p.1 ++ p.2) } { options := [.design (lit "fr")] } 20 =
      some (.ok (.output none (lit "+---*\n|xy !\n|   !\n|  z!\n+===+"))) := by decide +kernel
  obtain ⟨text, h1, h2⟩ := C90_program { sampleMachine with input := fun _ => bareText.map (fun p => p.1 ++ p.2) } sampleDb_sane sampleDb_breaks (by decide)
    { options := [.design (lit "fr")] } fr_draws 20 (a := frArgs) rfl ⟨by simp, by simp, by simp⟩ (by decide) (by decide)
    (loaded_again (Nat.le_refl _) frDesign_loaded _ rfl rfl rfl rfl) frDesign_restorable (by decide +kernel) (by decide +kernel) bareText
    (fun p hp => ⟨bareText_plain p hp, bareText_foreign p hp, by
      simp only [bareText, List.mem_cons, List.not_mem_nil, or_false] at hp
      rcases hp with rfl | rfl | rfl
      · exact ⟨.inr (.inl rfl), by decide⟩
      · exact ⟨.inr (.inl rfl), by decide⟩
      · exact ⟨.inl rfl, by decide⟩⟩) (by decide)
    ⟨_, .head _, 0x78, _, rfl, by unfold Blank; decide +kernel⟩ rfl { options := [.design (lit "fr"), .mend] } (by simp) rfl
    ⟨by simp, by simp, by simp⟩ rfl 21 (by omega) hrun
  rw [h2, ← (Outcome.output.inj (Res.ok.inj h1)).2]
  rfl

/-- C90 fails for a text that is indented as a whole: its indentation is put in front of the lines once more before the box is drawn. -/
theorem C90_indented_disagrees :
    wholeProgram sampleMachine { options := [.design (lit "fr")] } 20 = some (.ok (.output none (lit "  +--*\n  |ab!\n  |c !\n  +==+\n"))) ∧
    wholeProgram sampleMachine { options := [.design (lit "fr"), .mend] } 20 =
      some (.ok (.output none (lit "    +--*\n    |ab!\n    |c !\n    +==+\n"))) := by decide +kernel

end Boxes
