import Verif.Lemmas.Edited

set_option linter.unusedSimpArgs false

namespace Boxes
open Boxes.Spec ShapeName

/-- C87: Removing a box in which somebody has written gives back the text, wherever the right side is. -/
theorem C87_removed (s : Setup) (hdb : Sane s.db) (hbr : BreaksSane s.db) (opt : Opt) (ho : PlainRemoving opt) (hkill : opt.killblank ≠ 0)
    (d : Design) (ds : List Design) (hd : Restorable s.db d) (hrev : s.revRules 0 = []) (hu : s.byUser = true) (ind above below : Nat)
    (texts : List Str) (ht : ∀ t ∈ texts, PlainLine s.db (spaces (restored opt ind) ++ t) ∧ t ≠ []) (hne : texts ≠ [])
    (rows : List (Str × Str)) (hrows : EditedBox s.db d ind (wanted opt.padding.left d.padding.left)
      (List.replicate above [] ++ texts ++ List.replicate below []) (rows.map Prod.fst))
    (hend : ∀ p ∈ rows, LineEnd p.2) (hshort : ∀ p ∈ rows, p.1.length < 16370) (hpieces : s.pieces = rows.map (fun p => p.1 ++ p.2)) (n : Nat) :
    ∃ out, runProgram s opt (d :: ds) (n + 1) = some (.ok [.read, .removed out]) ∧
      out.map Prod.fst = texts.map (fun t => spaces (restored opt ind) ++ t) ∧
      ∀ (x : Nat) p, out[x]? = some p → p.2 = (if x + 1 = out.length ∧ (∀ q, rows.getLast? = some q → q.2 = []) then [] else opt.eol) := by
  have hk1 : killblankDefault opt.killblank d ≠ 0 := by
    unfold killblankDefault
    have hside := side_seen hdb hd.recognisable
    split
    · rw [if_neg]
      · decide
      · intro h
        have := congrArg Sides.top hside
        simp only [determineEmptySides] at this
        rw [h.1] at this; simp at this
    · exact hkill
  have hmend := ho.mend
  obtain ⟨g1, g2, -, -⟩ := prepareDesign_fields opt d
  obtain ⟨raw, i, j, back, e1, e2, e3, el, ef, e4, e5⟩ := edited_back s.db hdb
    { opt with mend := opt.mend - 1, killblank := killblankDefault opt.killblank d } ⟨ho.removes, ho.tabs, ho.reqwidth, ho.tabstop, by simp only; omega⟩
    d (prepareDesign opt d) hd (restorable_prepared opt hd).recognisable.ready.good g1 s.junk ind above below texts
    (fun t h => plain_inner hdb hbr (ht t h).1 (by simp [(ht t h).2])) hne rows (by rw [g2]; exact hrows) hend hshort (.inl hk1)
  have hlen : rows.length ≠ 0 := by
    have := hrows.count
    have h1 : 0 < (d.shape NE).height := (hd.recognisable.ready.good.corner NE (by simp)).2.2
    simp at this; omega
  refine ⟨back, run_removed s opt ho.mend ho.removes hu hrev d ds n rfl (by rw [hpieces]; exact e1) e2 ?_ e3, ?_, ?_⟩
  · intro h0
    have := readAll_count e1
    rw [← analyze_removing ho.removes e2, h0] at this
    simp at this
    exact hlen (by rw [this])
  · apply List.ext_getElem?
    intro x
    rw [List.getElem?_map, List.getElem?_map]
    cases hx : texts[x]? with
    | none =>
      have : back[x]? = none := by
        rw [List.getElem?_eq_none_iff] at hx ⊢
        rw [e4]; exact hx
      rw [this]; rfl
    | some t =>
      obtain ⟨p, q1, q2, -⟩ := e5 x t hx
      rw [q1, Option.map_some, q2]; rfl
  · intro x p hx
    have hlt := (List.getElem?_eq_some_iff.1 hx).1
    obtain ⟨p', q1, -, q3⟩ := e5 x _ (List.getElem?_eq_getElem (by omega : x < texts.length))
    rw [hx] at q1
    obtain rfl := Option.some.inj q1
    rw [q3, e4]
    have hlast : j.finalNewline = false ↔ ∀ q, rows.getLast? = some q → q.2 = [] := by
      constructor
      · intro hf q hq
        refine Classical.byContradiction fun h0 => ?_
        rw [ef.2 ⟨q, hq, h0⟩] at hf; simp at hf
      · intro hq
        cases hf : j.finalNewline with
        | false => rfl
        | true =>
          obtain ⟨q, h1, h2⟩ := ef.1 hf
          exact absurd (hq q h1) h2
    simp only [hlast]

/-- C87: Mending a box in which somebody has written gives the box that is drawn around the text: the program is run with a text, and it is run with the
same options and -m with a box around the same text in which the right side is out of line, or the top and the bottom do not have the right width, or some of the
padding is missing.  Both runs draw the same box. -/
theorem C87_mended (s s' : Setup) (hdb : Sane s.db) (hbr : BreaksSane s.db) (hsame : s'.db = s.db) (hfuel : s.fuel ≤ s'.fuel) (opt opt' : Opt)
    (ho : PlainDrawing opt) (hm : opt.mend ≤ 0) (hh : opt.reqheight = 0)
    (ho' : opt' = { opt with mend := 2, r := true, killblank := 0 }) (d : Design) (ds ds' : List Design) (hd : Restorable s.db d)
    (hrules : s.rules 0 = []) (hrules' : s'.rules 0 = []) (hrev : s'.revRules 0 = []) (hu : s'.byUser = true)
    (lines : List (Str × Str)) (hl : ∀ p ∈ lines, PlainLine s.db p.1 ∧ p.1 ≠ [] ∧ LineEnd p.2) (hne : lines ≠ [])
    (hpieces : s.pieces = lines.map (fun p => p.1 ++ p.2))
    (ind above below : Nat) (texts : List Str) (htexts : lines.map Prod.fst = texts.map (fun t => spaces (restored opt ind) ++ t))
    (habove : above ≤ wanted opt.padding.top d.padding.top) (hbelow : below ≤ wanted opt.padding.bottom d.padding.bottom)
    (rows : List (Str × Str)) (hrows : EditedBox s.db d ind (wanted opt.padding.left d.padding.left)
      (List.replicate above [] ++ texts ++ List.replicate below []) (rows.map Prod.fst))
    (hend : ∀ p ∈ rows, LineEnd p.2) (hshort : ∀ p ∈ rows, p.1.length < 16370)
    (hfinal : (∃ p, rows.getLast? = some p ∧ p.2 ≠ []) ↔ EndsInBreak s.pieces)
    (hpieces' : s'.pieces = rows.map (fun p => p.1 ++ p.2)) (n n' : Nat) {res : Res (List Event)}
    (h : runProgram s opt (d :: ds) (n + 1) = some res) :
    ∃ out, res = .ok [.read, .drawn out] ∧ runProgram s' opt' (d :: ds') (n' + 2) = some (.ok [.read, .removed [], .drawn out]) := by
  obtain ⟨r, h1, h2⟩ := run_drawn s opt hm ho.draws d ds n h
  rw [hrules, hpieces] at h1
  obtain ⟨f1, f2, -, f4⟩ := prepareDesign_fields opt d
  have hl' : ∀ p ∈ lines, PlainLine s.db p.1 ∧ LineEnd p.2 := fun p hp => ⟨(hl p hp).1, (hl p hp).2.2⟩
  have hprep : prepareDesign opt' d = prepareDesign opt d := by rw [ho']; rfl
  have hd1 := restorable_prepared opt hd
  obtain ⟨out, n1, above', below', w, rfl, -, -, i3, -⟩ := drawn_rows s.db hdb hbr opt ho (prepareDesign opt d) hd1 s.junk lines hl' hne s.fuel h1
  have hlen : 0 < out.length := by
    rw [i3.count]
    have : 0 < ((prepareDesign opt d).shape NE).height := (hd1.recognisable.ready.good.corner NE (by simp)).2.2
    omega
  refine ⟨out, h2 out rfl (List.length_pos_iff.1 hlen), ?_⟩
  -- what the first run draws
  have hdraw : ∃ raw0 i0, readAllInput s.db opt s.junk (lines.map (fun p => p.1 ++ p.2)) = .ok raw0 ∧
      analyzeInput s.db opt (prepareDesign opt d) [] raw0 = .ok i0 ∧ i0.lines ≠ [] ∧
      handleGenerateBox s.db opt (adjustSizeAndPadding opt (prepareDesign opt d) i0) i0 s.fuel = some (.ok out) := by
    unfold drawOnce at h1
    cases hraw : readAllInput s.db opt s.junk (lines.map (fun p => p.1 ++ p.2)) with
    | fail k => rw [hraw] at h1; simp at h1
    | ub => rw [hraw] at h1; simp at h1
    | ok raw0 =>
      rw [hraw, Res.ok_bind] at h1
      cases hi : analyzeInput s.db opt (prepareDesign opt d) [] raw0 with
      | fail k => rw [hi] at h1; simp at h1
      | ub => rw [hi] at h1; simp at h1
      | ok i0 =>
        rw [hi] at h1
        simp only at h1
        by_cases h0 : i0.lines = []
        · rw [if_pos h0] at h1
          have := Res.ok.inj (Option.some.inj h1)
          rw [← this] at hlen; simp at hlen
        · rw [if_neg h0] at h1
          exact ⟨raw0, i0, rfl, hi, h0, h1⟩
  obtain ⟨raw0, i0, q1, q2, q3, q4⟩ := hdraw
  have hmem : ∀ t ∈ texts, ∃ p ∈ lines, p.1 = spaces (restored opt ind) ++ t := by
    intro t ht
    have : spaces (restored opt ind) ++ t ∈ lines.map Prod.fst := by rw [htexts]; exact List.mem_map.2 ⟨t, ht, rfl⟩
    obtain ⟨p, hp, e⟩ := List.mem_map.1 this
    exact ⟨p, hp, e⟩
  have hcount : lines.length = texts.length := by simpa using congrArg List.length htexts
  obtain ⟨raw, i, j, back, j1, j2, j3, jl, jf, jn, jt⟩ := edited_back s.db hdb
    { opt with mend := -1, r := true, killblank := 0 } ⟨rfl, ho.tabs, ho.reqwidth, ho.tabstop, by simp⟩
    d (prepareDesign opt d) hd hd1.recognisable.ready.good f1 s'.junk ind above below texts
    (by
      intro t ht
      obtain ⟨p, hp, e⟩ := hmem t ht
      exact plain_inner hdb hbr (r := restored opt ind) (by rw [← e]; exact (hl p hp).1) (by rw [← e]; exact (hl p hp).2.1))
    (by intro h0; rw [h0] at hcount; exact hne (List.length_eq_zero_iff.1 hcount)) rows (by rw [f2]; exact hrows) hend hshort
    (.inr ⟨rfl, by simp, hh, by rw [f2]; exact habove, by rw [f2]; exact hbelow⟩)
  -- the lines that are left are the lines of the text
  obtain ⟨t1, t2⟩ := plain_raw hdb hbr ho.draws ho.tabstop s.junk lines hl' q1
  have hlines : j.lines = raw0.lines := by
    refine lines_eq ?_ (handleRemove_tabpos j3 ?_) (readAll_tabpos ho.tabs.2 q1)
    · rw [t1]
      apply List.ext_getElem?
      intro x
      rw [List.getElem?_map, List.getElem?_map]
      cases hx : lines[x]? with
      | none =>
        have : j.lines[x]? = none := by
          rw [List.getElem?_eq_none_iff] at hx ⊢
          rw [jl.1]; omega
        rw [this]; rfl
      | some q =>
        have hx2 := congrArg (fun l => l[x]?) htexts
        simp only [List.getElem?_map, hx, Option.map_some] at hx2
        cases ht : texts[x]? with
        | none => rw [ht] at hx2; simp at hx2
        | some t =>
          rw [ht] at hx2
          have hx2 := Option.some.inj hx2
          obtain ⟨p, g1, g2, -⟩ := jt x t ht
          obtain ⟨l, g4, g5⟩ := jl.2 x p g1
          rw [g4]
          simp only [Option.map_some]
          rw [g5, g2, hx2]; rfl
    · rw [analyze_removing rfl j2]
      exact readAll_tabpos (opt := { opt with mend := -1, r := true, killblank := 0 }) ho.tabs.2 j1
  have hfin : j.finalNewline = raw0.finalNewline := by
    rw [Bool.eq_iff_iff, jf, t2, hfinal, hpieces]
  -- the second run
  have hil : i.lines ≠ [] := by
    intro h0
    have e1 := readAll_count j1
    rw [← analyze_removing rfl j2, h0] at e1
    have := hrows.count
    have h1 : 0 < (d.shape NE).height := (hd.recognisable.ready.good.corner NE (by simp)).2.2
    simp at e1 this
    omega
  have hread : readAllInput s'.db { opt' with mend := 1 } s'.junk s'.pieces = .ok raw := by
    rw [hsame, hpieces', ← j1, ho']
    unfold readAllInput
    have : ∀ l, readLines s.db { opt with mend := 1, r := true, killblank := 0 } s'.junk l =
        readLines s.db { opt with mend := -1, r := true, killblank := 0 } s'.junk l := by
      intro l
      induction l with
      | nil => rfl
      | cons s r ih => rw [readLines, readLines, ih]; rfl
    rw [this]
  have hfit : adjustSizeAndPadding { opt' with mend := 1 } (prepareDesign opt d) i =
      adjustSizeAndPadding { opt with mend := -1, r := true, killblank := 0 } (prepareDesign opt d) i := by rw [ho']; rfl
  refine run_mended s' opt' (by rw [ho']) (by rw [ho']) hu hrev hrules' d ds' n' rfl rfl rfl rfl hread
    (i := i) (j := j) (i2 := i0) ?_ hil rfl ?_ rfl ?_ q3 ?_
  · rw [hprep, hsame, ← j2, ho']; rfl
  · rw [hprep, hsame, hfit]
    have := handleRemove_mending (opt := { opt with mend := -1, r := true, killblank := 0 }) (by simp) (m := 1) (by decide) j3
    rw [ho']; exact this
  · rw [hprep, hsame, ← q2, ← analyze_lines hlines hfin, ho']
    have hr0 := ho.draws
    unfold analyzeInput
    simp only [hr0]
    rfl
  · rw [hprep, hsame, ho']
    have e := adjust_again opt ho.reqwidth hh 0 0 1 false true (prepareDesign opt d) i i0
    refine (congrArg (fun z => handleGenerateBox s.db _ z i0 s'.fuel) e).trans ?_
    exact (generate_opts s.db opt 0 0 false _ i0 s'.fuel).trans (handleGenerateBox_more _ _ _ _ hfuel q4)

/-- C87, for the complete program: `boxes -d X -m`, reading a box in which somebody has written, prints exactly what `boxes -d X` prints when it reads the
text. -/
theorem C87_program (m : Machine) (hdb : Sane m.db) (hbr : BreaksSane m.db) (c : CommandLine) (hc : DrawsWith c) (fuel : Nat) {a : Args}
    (hopts : optionLoop c.options createNewOpt = some (a, false)) (hfiles : UsableFiles m.canRead m.canWrite c.files)
    (htab : a.opt.tabexp ≠ 'u' ∧ a.opt.tabexp ≠ 'k') (heol : a.opt.eol = [0x0a] ∨ a.opt.eol = [0x0d, 0x0a])
    {file : Bxs} {d : DesignDef} {ds : List DesignDef} {ps : List Bxs} (h : Loaded m a fuel file d ds ps) (hd : Restorable m.db d.core)
    (hrules : d.reprules = []) (hrev : d.revrules = [])
    (lines : List (Str × Str)) (hl : ∀ p ∈ lines, PlainLine m.db p.1 ∧ p.1 ≠ [] ∧ LineEnd p.2) (hne : lines ≠ [])
    (hpieces : m.input (named c.files 0) = lines.map (fun p => p.1 ++ p.2))
    (ind above below : Nat) (texts : List Str) (htexts : lines.map Prod.fst = texts.map (fun t => spaces (restored a.opt ind) ++ t))
    (habove : above ≤ wanted a.opt.padding.top d.core.padding.top) (hbelow : below ≤ wanted a.opt.padding.bottom d.core.padding.bottom)
    (rows : List (Str × Str)) (hrows : EditedBox m.db d.core ind (wanted a.opt.padding.left d.core.padding.left)
      (List.replicate above [] ++ texts ++ List.replicate below []) (rows.map Prod.fst))
    (hend : ∀ p ∈ rows, LineEnd p.2) (hshort : ∀ p ∈ rows, p.1.length < 16370)
    (hfinal : (∃ p, rows.getLast? = some p ∧ p.2 ≠ []) ↔ EndsInBreak (m.input (named c.files 0)))
    (c' : CommandLine) (hfirst' : c'.first ≠ some (lit "-?")) (hopts' : c'.options = c.options ++ [.mend]) (hfiles' : UsableFiles m.canRead m.canWrite c'.files)
    (input' : Option Str → List Str) (hinput' : input' (named c'.files 0) = rows.map (fun p => p.1 ++ p.2)) (fuel' : Nat) (hfuel : fuel < fuel')
    {r : Res Outcome} (hrun : wholeProgram m c fuel = some r) :
    ∃ text, r = .ok (.output (named c.files 1) text) ∧ wholeProgram { m with input := input' } c' fuel' = some (.ok (.output (named c'.files 1) text)) := by
  have hpl : ∀ p ∈ lines, PlainLine m.db p.1 ∧ LineEnd p.2 := fun p hp => ⟨(hl p hp).1, (hl p hp).2.2⟩
  obtain ⟨ho, hm, hh, hqn, hln, hu, hdes⟩ := draws_opts hc hopts htab heol
  obtain ⟨n, out, text, rfl, h1, rfl, h2, h3⟩ := piped_first m hdb hbr c hc fuel hopts hfiles htab heol h hd hrules lines hpl hne hpieces hrun
  refine ⟨text, rfl, ?_⟩
  have ha' : optionLoop c'.options createNewOpt = some ({ a with opt := { a.opt with mend := 2, r := true, killblank := 0 } }, false) := by
    rw [hopts']
    exact optionLoop_more (x := .mend) c.options createNewOpt hopts rfl
  have e := whole_run { m with input := input' } c' fuel' hfirst' ha' hfiles' (by
    rw [hopts']
    intro s hs
    simp at hs
    exact hc.create s hs) hqn hln (loaded_again (Nat.le_of_lt hfuel) h input' rfl rfl rfl hdes)
  obtain ⟨out', q1, q3⟩ := C87_mended (setupOf m a (m.input (named c.files 0)) (d :: ds) (n + 1))
    (setupOf { m with input := input' } { a with opt := { a.opt with mend := 2, r := true, killblank := 0 } } (input' (named c'.files 0)) (d :: ds) fuel') hdb hbr rfl
    (Nat.le_of_lt hfuel) a.opt _ ho (by rw [hm]; decide) hh rfl
    d.core (ds.map (·.core)) (ds.map (·.core)) hd
    (by simp [setupOf, rulesOf, hrules]) (by simp [setupOf, rulesOf, hrules]) (by simp [setupOf, rulesOf, hrev]) hu lines hl hne hpieces
    ind above below texts htexts habove hbelow rows hrows hend hshort hfinal hinput' n (fuel' - 2) h1
  have hoo : out' = out := by simpa using q1.symm
  subst hoo
  rw [show fuel' - 2 + 2 = fuel' by omega] at q3
  rw [e]
  rw [show runProgram (setupOf { m with input := input' } { a with opt := { a.opt with mend := 2, r := true, killblank := 0 } } (input' (named c'.files 0)) (d :: ds) fuel')
    { a.opt with mend := 2, r := true, killblank := 0 } (d.core :: ds.map (·.core)) fuel' = _ from q3]
  simp only [Option.map_some, Res.ok_bind, renderEvents, h3, List.map_nil, List.flatten_nil, List.nil_append, List.append_nil]

/-- C87, for the complete program: `boxes -d X -r`, reading a box in which somebody has written, prints the texts with their indentation. -/
theorem C87_erased (m : Machine) (hdb : Sane m.db) (hbr : BreaksSane m.db) (c : CommandLine) (hc : DrawsWith c) (fuel : Nat) {a : Args}
    (hopts : optionLoop c.options createNewOpt = some (a, false))
    (htab : a.opt.tabexp ≠ 'u' ∧ a.opt.tabexp ≠ 'k') (heol : a.opt.eol = [0x0a] ∨ a.opt.eol = [0x0d, 0x0a]) (hkill : a.opt.killblank ≠ 0)
    {file : Bxs} {d : DesignDef} {ds : List DesignDef} {ps : List Bxs} (h : Loaded m a fuel file d ds ps) (hd : Restorable m.db d.core)
    (hrev : d.revrules = []) (ind above below : Nat)
    (texts : List Str) (ht : ∀ t ∈ texts, PlainLine m.db (spaces (restored a.opt ind) ++ t) ∧ t ≠ []) (hne : texts ≠ [])
    (rows : List (Str × Str)) (hrows : EditedBox m.db d.core ind (wanted a.opt.padding.left d.core.padding.left)
      (List.replicate above [] ++ texts ++ List.replicate below []) (rows.map Prod.fst))
    (hend : ∀ p ∈ rows, LineEnd p.2) (hshort : ∀ p ∈ rows, p.1.length < 16370)
    (c' : CommandLine) (hfirst' : c'.first ≠ some (lit "-?")) (hopts' : c'.options = c.options ++ [.remove]) (hfiles' : UsableFiles m.canRead m.canWrite c'.files)
    (input' : Option Str → List Str) (hinput' : input' (named c'.files 0) = rows.map (fun p => p.1 ++ p.2)) (hfuel : 0 < fuel) :
    ∃ out : List (Str × Str), wholeProgram { m with input := input' } c' fuel = some (.ok (.output (named c'.files 1) (out.map (fun p => p.1 ++ p.2)).flatten)) ∧
      out.map Prod.fst = texts.map (fun t => spaces (restored a.opt ind) ++ t) ∧
      ∀ (x : Nat) p, out[x]? = some p → p.2 = (if x + 1 = out.length ∧ (∀ q, rows.getLast? = some q → q.2 = []) then [] else a.opt.eol) := by
  obtain ⟨ho, hm, hh, hqn, hln, hu, hdes⟩ := draws_opts hc hopts htab heol
  have ha' : optionLoop c'.options createNewOpt = some ({ a with opt := { a.opt with r := true } }, false) := by
    rw [hopts']
    exact optionLoop_more (x := .remove) c.options createNewOpt hopts rfl
  have e := whole_run { m with input := input' } c' fuel hfirst' ha' hfiles' (by
    rw [hopts']
    intro s hs
    simp at hs
    exact hc.create s hs) hqn hln (loaded_again (Nat.le_refl _) h input' rfl rfl rfl hdes)
  obtain ⟨out, q1, q2, q3⟩ := C87_removed
    (setupOf { m with input := input' } { a with opt := { a.opt with r := true } } (input' (named c'.files 0)) (d :: ds) fuel) hdb hbr
    { a.opt with r := true } ⟨rfl, ho.tabs, ho.reqwidth, ho.tabstop, by simp only; rw [hm]; decide⟩ hkill
    d.core (ds.map (·.core)) hd (by simp [setupOf, rulesOf, hrev]) hu ind above below texts ht hne rows hrows hend hshort hinput' (fuel - 1)
  rw [show fuel - 1 + 1 = fuel by omega] at q1
  refine ⟨out, ?_, q2, q3⟩
  rw [e]
  rw [show runProgram (setupOf { m with input := input' } { a with opt := { a.opt with r := true } } (input' (named c'.files 0)) (d :: ds) fuel)
    { a.opt with r := true } (d.core :: ds.map (·.core)) fuel = _ from q1]
  simp only [Option.map_some, Res.ok_bind, renderEvents, List.append_nil]

/-- a box in which somebody has written: the top is too wide, and the right side is out of line -/
def ragged : List (Str × Str) := [(lit "  +-----*", lit "\n"), (lit "  |ab  !", lit "\n"), (lit "  |c!", lit "\n"), (lit "  +==+", lit "\n")]

theorem ragged_edited : EditedBox sampleDb frDesign.core 2 0 [lit "ab", lit "c"] (ragged.map Prod.fst) := by
  have h1 : (frDesign.core.shape NE).height = 1 := by decide +kernel
  have h2 : (frDesign.core.shape SE).height = 1 := by decide +kernel
  have hp : ∀ n ∈ [W, E, N, S, NNW, NNE, SSW, SSE], Present (frDesign.core.shape n) ↔ n ∈ [W, E, N, S] := by unfold Present; decide +kernel
  refine ⟨by rw [h1, h2]; rfl, ?_, ?_, ?_⟩
  · intro y row hy hr
    rw [h1] at hy
    obtain rfl : y = 0 := by omega
    obtain rfl := Option.some.inj hr
    unfold EdgeRow OccursIn Present
    exact ⟨0, 5, 0, by decide +kernel, by decide +kernel, by decide +kernel, by decide +kernel⟩
  · intro k t row ht hr
    rw [h1] at hr
    have hk : k = 0 ∨ k = 1 := by
      have := (List.getElem?_eq_some_iff.1 ht).1
      simp at this; omega
    rcases hk with rfl | rfl
    · obtain rfl := Option.some.inj ht
      obtain rfl := Option.some.inj hr
      refine ⟨2, ?_⟩
      unfold BodyRow Present
      exact ⟨W, by simp, E, by simp, by decide +kernel, by decide +kernel, by decide +kernel⟩
    · obtain rfl := Option.some.inj ht
      obtain rfl := Option.some.inj hr
      refine ⟨0, ?_⟩
      unfold BodyRow Present
      exact ⟨W, by simp, E, by simp, by decide +kernel, by decide +kernel, by decide +kernel⟩
  · intro y row hy hr
    rw [h2] at hy
    obtain rfl : y = 0 := by omega
    rw [h1] at hr
    obtain rfl := Option.some.inj hr
    unfold EdgeRow OccursIn Present
    exact ⟨0, 2, 0, by decide +kernel, by decide +kernel, by decide +kernel, by decide +kernel⟩

theorem ragged_ends : ∀ p ∈ ragged, LineEnd p.2 ∧ p.1.length < 16370 := by
  intro p hp
  have h : p.2 = [0x0a] ∧ p.1.length < 16370 := by revert p; decide +kernel
  exact ⟨by rw [h.1]; exact .inr (.inl rfl), h.2⟩

/-- `boxes -d fr -m`, reading that box -/
example : wholeProgram { sampleMachine with input := fun _ => ragged.map (fun p => p.1 ++ p.2) } { options := [.design (lit "fr"), .mend] } 21 =
    some (.ok (.output none (lit "  +--*\n  |ab!\n  |c !\n  +==+\n"))) := by
  obtain ⟨text, h1, h2⟩ := C87_program sampleMachine sampleDb_sane sampleDb_breaks { options := [.design (lit "fr")] } fr_draws 20 (a := frArgs) rfl
    ⟨by simp, by simp, by simp⟩ (by decide) (by decide) frDesign_loaded frDesign_restorable (by decide +kernel) (by decide +kernel)
    [(lit "  ab", lit "\n"), (lit "  c", lit "\n")] (fun p hp => ⟨(fr_lines p hp).1, (fr_lines p hp).2, by
      simp only [List.mem_cons, List.not_mem_nil, or_false] at hp
      rcases hp with rfl | rfl <;> exact .inr (.inl rfl)⟩) (by simp) (by decide +kernel) 2 0 0 [lit "ab", lit "c"] (by decide +kernel) (by omega) (by omega)
    ragged (by
      have : wanted frArgs.opt.padding.left frDesign.core.padding.left = 0 := by decide +kernel
      rw [this]; exact ragged_edited) (fun p hp => (ragged_ends p hp).1) (fun p hp => (ragged_ends p hp).2)
    (by
      constructor
      · intro _
        exact ⟨[lit "  ab\n"], lit "  c", 0x0a, by decide +kernel, .inl rfl⟩
      · intro _
        exact ⟨(lit "  +==+", lit "\n"), by decide +kernel, by decide +kernel⟩) { options := [.design (lit "fr"), .mend] } (by simp) rfl
    ⟨by simp, by simp, by simp⟩ (fun _ => ragged.map (fun p => p.1 ++ p.2)) rfl 21 (by omega) fr_run
  have := Res.ok.inj h1
  simp at this
  rw [h2, this.2]; rfl

/-- `boxes -d fr -r`, reading that box -/
example : wholeProgram { sampleMachine with input := fun _ => ragged.map (fun p => p.1 ++ p.2) } { options := [.design (lit "fr"), .remove] } 20 =
    some (.ok (.output none (lit "  ab\n  c\n"))) := by
  obtain ⟨out, h1, h2, h3⟩ := C87_erased sampleMachine sampleDb_sane sampleDb_breaks { options := [.design (lit "fr")] } fr_draws 20 (a := frArgs) rfl
    (by decide) (by decide) (by decide) frDesign_loaded frDesign_restorable (by decide +kernel) 2 0 0 [lit "ab", lit "c"] (by
      intro t ht
      simp only [List.mem_cons, List.not_mem_nil, or_false] at ht
      rcases ht with rfl | rfl
      · exact ⟨(fr_lines (lit "  ab", lit "\n") (by simp)).1, by decide⟩
      · exact ⟨(fr_lines (lit "  c", lit "\n") (by simp)).1, by decide⟩) (by simp)
    ragged (by
      have : wanted frArgs.opt.padding.left frDesign.core.padding.left = 0 := by decide +kernel
      rw [this]; exact ragged_edited) (fun p hp => (ragged_ends p hp).1) (fun p hp => (ragged_ends p hp).2)
    { options := [.design (lit "fr"), .remove] } (by simp) rfl ⟨by simp, by simp, by simp⟩ (fun _ => ragged.map (fun p => p.1 ++ p.2)) rfl (by omega)
  have hlast : ¬ ∀ q, ragged.getLast? = some q → q.2 = [] := fun h => absurd (h (lit "  +==+", lit "\n") (by decide +kernel)) (by decide +kernel)
  rw [h1]
  match out, h2, h3 with
  | [(x1, y1), (x2, y2)], h2, h3 =>
    have e1 := h3 0 _ rfl
    have e2 := h3 1 _ rfl
    simp only [hlast, and_false, if_false] at e1 e2
    simp only [List.map_cons, List.map_nil, List.cons.injEq, and_true] at h2
    rw [h2.1, h2.2, e1, e2]
    decide +kernel

end Boxes
