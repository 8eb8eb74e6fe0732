import Verif.Lemmas.Mend
import Verif.Props.Program

/-!
# Mending a box that is intact gives back the same box (C74)
-/

set_option linter.unusedSimpArgs false

namespace Boxes
open Boxes.Spec ShapeName

/-- C74: the program draws a box around a text and is run again with the same options to mend the box that it printed.  The second run reads, prints nothing
while removing the box, and draws exactly the same box.  The text has no empty lines, the box has no requested size, and its height is that of the text and of the padding:
-m removes no other blank lines. -/
theorem C74_mended (s s' : Setup) (hdb : Sane s.db) (hbr : BreaksSane s.db) (hsame : s'.db = s.db) (hfuel : s.fuel ≤ s'.fuel) (opt opt' : Opt)
    (ho : PlainDrawing opt) (hm : opt.mend ≤ 0) (hh : opt.reqheight = 0)
    (ho' : opt' = { opt with mend := 2, r := true, killblank := 0 }) (d : Design) (ds ds' : List Design) (hd : Restorable s.db d)
    (mode : Char) (hmode : mode = if opt.indentmode = '\x00' then d.indentmode else opt.indentmode) (hmode' : mode = 't' ∨ mode = 'b')
    (hrules : s.rules 0 = []) (hrules' : s'.rules 0 = []) (hrev : s'.revRules 0 = []) (hu : s'.byUser = true)
    (lines : List (Str × Str)) (hl : ∀ p ∈ lines, PlainLine s.db p.1 ∧ p.1 ≠ [] ∧ LineEnd p.2) (hne : lines ≠ [])
    (hpieces : s.pieces = lines.map (fun p => p.1 ++ p.2)) (n n' : Nat) {res : Res (List Event)}
    (h : runProgram s opt (d :: ds) (n + 1) = some res) :
    ∃ out, res = .ok [.read, .drawn out] ∧ ((∀ p ∈ out, p.1.memory.length < 16370) →
      out.length = (d.shape NE).height + wanted opt.padding.top d.padding.top + lines.length + wanted opt.padding.bottom d.padding.bottom + (d.shape SE).height →
      s'.pieces = out.map (fun p => p.1.memory ++ p.2) →
      runProgram s' opt' (d :: ds') (n' + 2) = some (.ok [.read, .removed [], .drawn out])) := by
  obtain ⟨r, h1, h2⟩ := run_drawn s opt hm ho.draws d ds n h
  rw [hrules, hpieces] at h1
  obtain ⟨f1, f2, -, f4⟩ := prepareDesign_fields opt d
  have hl' : ∀ p ∈ lines, PlainLine s.db p.1 ∧ LineEnd p.2 := fun p hp => ⟨(hl p hp).1, (hl p hp).2.2⟩
  have hprep : prepareDesign opt' d = prepareDesign opt d := by rw [ho']; rfl
  -- the first run
  have hd1 := restorable_prepared opt hd
  obtain ⟨out, m, h3, -, h4⟩ := lines_back s.db hdb hbr opt { opt with mend := -1, r := true, killblank := 0 } ho
    ⟨rfl, ho.tabs, ho.reqwidth, ho.tabstop, by simp⟩ (prepareDesign opt d) (prepareDesign opt d) hd1
    hd1.recognisable.ready.good rfl rfl (by
      intro hb
      rw [f4] at hb
      simp only
      by_cases h0 : opt.indentmode = '\x00'
      · exact .inr h0
      · rw [if_neg h0] at hb; exact .inl hb)
    s.junk s'.junk lines hl' hne (fun p hp => (hl p (List.mem_of_getElem? hp)).2.1) (fun p hp => (hl p (List.mem_of_getLast? hp)).2.1) s.fuel h1
  obtain ⟨out', n1, above, below, w, i1, -, -, i3, -⟩ := drawn_rows s.db hdb hbr opt ho (prepareDesign opt d) hd1 s.junk lines hl' hne s.fuel h1
  have hout : out' = out := by rw [h3] at i1; simpa using i1.symm
  have hlen : 0 < out.length := by
    rw [← hout, i3.count]
    have : 0 < ((prepareDesign opt d).shape NE).height := (hd1.recognisable.ready.good.corner NE (by simp)).2.2
    omega
  refine ⟨out, h2 out h3 (List.length_pos_iff.1 hlen), fun hshort hfull hp => ?_⟩
  subst h3
  -- what the first run draws
  have hdraw : ∃ raw0 i0, readAllInput s.db opt s.junk (lines.map (fun p => p.1 ++ p.2)) = .ok raw0 ∧
      analyzeInput s.db opt (prepareDesign opt d) [] raw0 = .ok i0 ∧ i0.lines ≠ [] ∧
      handleGenerateBox s.db opt (adjustSizeAndPadding opt (prepareDesign opt d) i0) i0 s.fuel = some (.ok out) := by
    unfold drawOnce at h1
    cases hraw : readAllInput s.db opt s.junk (lines.map (fun p => p.1 ++ p.2)) with
    | fail k => rw [hraw] at h1; simp at h1
    | ub => rw [hraw] at h1; simp at h1
    | ok raw0 =>
      rw [hraw, Res.ok_bind] at h1
      cases hi : analyzeInput s.db opt (prepareDesign opt d) [] raw0 with
      | fail k => rw [hi] at h1; simp at h1
      | ub => rw [hi] at h1; simp at h1
      | ok i0 =>
        rw [hi] at h1
        simp only at h1
        by_cases h0 : i0.lines = []
        · rw [if_pos h0] at h1
          have := Res.ok.inj (Option.some.inj h1)
          rw [← this] at hlen; simp at hlen
        · rw [if_neg h0] at h1
          exact ⟨raw0, i0, rfl, hi, h0, h1⟩
  obtain ⟨raw0, i0, q1, q2, q3, q4⟩ := hdraw
  obtain ⟨raw, i, j, back, j1, j2, j3, jl, jf, jn, jt⟩ := h4 hshort (.inr ⟨rfl, by simp, hh, hh, rfl, rfl, by rw [f1, f2]; exact hfull⟩)
  -- the lines that are left are the lines that were read
  obtain ⟨t1, t2⟩ := plain_raw hdb hbr ho.draws ho.tabstop s.junk lines hl' q1
  have hlines : j.lines = raw0.lines := by
    refine lines_eq ?_ (handleRemove_tabpos j3 ?_) (readAll_tabpos ho.tabs.2 q1)
    · rw [t1]
      apply List.ext_getElem?
      intro x
      rw [List.getElem?_map, List.getElem?_map]
      cases hx : lines[x]? with
      | none =>
        have : j.lines[x]? = none := by
          rw [List.getElem?_eq_none_iff] at hx ⊢
          rw [jl.1]; omega
        rw [this]; rfl
      | some q =>
        obtain ⟨p, e, g1, g2, g3, -⟩ := jt x q hx
        obtain ⟨l, g4, g5⟩ := jl.2 x p g1
        have hc : comesBack (prepareDesign opt d).indentmode m q.1 = q.1 := by
          unfold comesBack
          rw [f4, ← hmode, if_pos hmode'.symm]
        rw [g4]
        simp only [Option.map_some]
        rw [g5, g2, g3 (hl q (List.mem_of_getElem? hx)).2.1, hc]
        simp [spaces]
    · rw [analyze_removing rfl j2]
      exact readAll_tabpos (opt := { opt with mend := -1, r := true, killblank := 0 }) ho.tabs.2 j1
  have hfinal : j.finalNewline = raw0.finalNewline := by
    rw [Bool.eq_iff_iff, jf, t2]
  -- the second run
  have hil : i.lines ≠ [] := by
    intro h0
    have e1 := readAll_count j1
    rw [← analyze_removing rfl j2, h0] at e1
    simp at e1
    omega
  have hread : readAllInput s'.db { opt' with mend := 1 } s'.junk s'.pieces = .ok raw := by
    rw [hsame, hp, ← j1, ho']
    unfold readAllInput
    have : ∀ l, readLines s.db { opt with mend := 1, r := true, killblank := 0 } s'.junk l =
        readLines s.db { opt with mend := -1, r := true, killblank := 0 } s'.junk l := by
      intro l
      induction l with
      | nil => rfl
      | cons s r ih => rw [readLines, readLines, ih]; rfl
    rw [this]
  have hfit : adjustSizeAndPadding { opt' with mend := 1 } (prepareDesign opt d) i =
      adjustSizeAndPadding { opt with mend := -1, r := true, killblank := 0 } (prepareDesign opt d) i := by rw [ho']; rfl
  refine run_mended s' opt' (by rw [ho']) (by rw [ho']) hu hrev hrules' d ds' n' rfl rfl rfl rfl hread
    (i := i) (j := j) (i2 := i0) ?_ hil rfl ?_ rfl ?_ q3 ?_
  · rw [hprep, hsame, ← j2, ho']; rfl
  · rw [hprep, hsame, hfit]
    have := handleRemove_mending (opt := { opt with mend := -1, r := true, killblank := 0 }) (by simp) (m := 1) (by decide) j3
    rw [ho']; exact this
  · rw [hprep, hsame, ← q2, ← analyze_lines hlines hfinal, ho']
    have hr0 := ho.draws
    unfold analyzeInput
    simp only [hr0]
    rfl
  · rw [hprep, hsame, ho']
    have e := adjust_again opt ho.reqwidth hh 0 0 1 false true (prepareDesign opt d) i i0
    refine (congrArg (fun z => handleGenerateBox s.db _ z i0 s'.fuel) e).trans ?_
    exact (generate_opts s.db opt 0 0 false _ i0 s'.fuel).trans (handleGenerateBox_more _ _ _ _ hfuel q4)

/-! ## Examples and limits -/

/-- what is printed by a run that draws a box and by a run with the same options that mends what the first run printed -/
def drawAndMend (db : CharDb) (opt : Opt) (d : Design) (pieces : List Str) (fuel : Nat) : Option (List Str × List Str) :=
  match runProgram { db, pieces, byUser := true, fuel } opt [d] 1 with
  | some (.ok [.read, .drawn out]) =>
    match runProgram { db, pieces := out.map (fun p => p.1.memory ++ p.2), byUser := true, fuel } { opt with mend := 2, r := true, killblank := 0 } [d] 2 with
    | some (.ok [.read, .removed [], .drawn out']) => some (out.map (fun p => p.1.memory), out'.map (fun p => p.1.memory))
    | _ => none
  | _ => none

/-- the lines of the example -/
def mendLines : List (Str × Str) := [(lit "  a b", [0x0a]), (lit " cd", [0x0a]), (lit " ab", [0x0a])]

theorem mend_plain : ∀ p ∈ mendLines, PlainLine sampleDb p.1 ∧ p.1 ≠ [] ∧ LineEnd p.2 := by
  intro p hp
  simp only [mendLines, List.mem_cons, List.not_mem_nil, or_false] at hp
  rcases hp with rfl | rfl | rfl
  · exact ⟨(sample_plain _ (by simp)).1, by decide, .inr (.inl rfl)⟩
  · exact ⟨(sample_plain _ (by simp)).1, by decide, .inr (.inl rfl)⟩
  · refine ⟨⟨?_, .inr ?_, ?_, by decide⟩, by decide, .inr (.inl rfl)⟩
    · unfold Forbidden Blank; decide +kernel
    · exact ⟨0x61, by decide, by unfold Blank; decide +kernel, by decide, by decide +kernel⟩
    · decide +kernel

/-- the first run of the example: every row is shorter than the buffer, and the box is full -/
theorem mend_run : (match runProgram { db := sampleDb, pieces := mendLines.map (fun p => p.1 ++ p.2), byUser := true, fuel := 100 } {} [sampleDesign] 1 with
    | some (.ok [.read, .drawn out]) => decide (out.length = 6 ∧ ∀ p ∈ out, p.1.memory.length < 16370)
    | _ => false) = true := by
  decide +kernel

/-- the hypotheses of `C74_mended` hold of the two runs -/
example : ∃ out, runProgram { db := sampleDb, pieces := mendLines.map (fun p => p.1 ++ p.2), byUser := true, fuel := 100 } {} [sampleDesign] 1 =
      some (.ok [.read, .drawn out]) ∧
    runProgram { db := sampleDb, pieces := out.map (fun p => p.1.memory ++ p.2), byUser := true, fuel := 100 } { mend := 2, r := true, killblank := 0 } [sampleDesign] 2 =
      some (.ok [.read, .removed [], .drawn out]) := by
  have h := mend_run
  split at h
  · rename_i out hrun
    simp only [decide_eq_true_eq] at h
    obtain ⟨out', h1, h2⟩ := C74_mended { db := sampleDb, pieces := mendLines.map (fun p => p.1 ++ p.2), byUser := true, fuel := 100 }
      { db := sampleDb, pieces := out.map (fun p => p.1.memory ++ p.2), byUser := true, fuel := 100 } sampleDb_sane
      sampleDb_breaks rfl (Nat.le_refl _) {} { mend := 2, r := true, killblank := 0 } plain_drawing (by decide) rfl rfl sampleDesign [] []
      sampleDesign_restorable 'b' rfl (.inr rfl) rfl rfl rfl rfl mendLines mend_plain (by decide) rfl 0 0 hrun
    have : out' = out := by simpa using h1.symm
    subst this
    exact ⟨out', hrun, h2 h.2 (by rw [h.1]; decide +kernel) rfl⟩
  · simp at h

example : drawAndMend sampleDb {} sampleDesign (mendLines.map (fun p => p.1 ++ p.2)) 100 =
    some ([" ..-=<>=-.", " O|  a b )", " || cd   (", " || ab   )", " ||      (", " `'######'"].map lit,
      [" ..-=<>=-.", " O|  a b )", " || cd   (", " || ab   )", " ||      (", " `'######'"].map lit) := by decide +kernel

/-- A box around a text with an empty line grows whenever it is mended: an empty line comes back as blanks (`C71_empty_line_disagrees`), including the padding on the right,
and lines that are entirely blank are not trimmed.  So `C74_mended` needs that no line is empty. -/
theorem C74_empty_line_disagrees : drawAndMend sampleDb {} sampleDesign [lit "ab\n", lit "\n", lit "cd\n"] 100 =
    some (["..-=<>=-.", "O| ab   )", "||      (", "|| cd   )", "||      (", "`'######'"].map lit,
      ["..-=-=<>=-.", "O| ab     )", "||        (", "|| cd     )", "||        (", "`'########'"].map lit) := by
  decide +kernel

/-- The same happens if the box has more blank rows than its padding, because its sides need not fit the number of lines: -m removes only as many blank lines as the padding
has, and the others are text. -/
theorem C74_not_full_disagrees : drawAndMend sampleDb {} sampleDesign [lit "  a b\n", lit " cd\n"] 100 =
    some ([" ..-=<>=-.", " O|  a b )", " || cd   (", " ||      )", " ||      (", " `'######'"].map lit,
      [" ..-=-=<>=-.", " O|  a b   )", " || cd     (", " ||        )", " ||        (", " `'########'"].map lit) := by
  decide +kernel

/-- A box drawn with a requested width loses its padding when it is mended with the same options, because the padding is reduced until the box that is read fits, as if it were
text; what is left of the padding in the box is then taken for indentation. -/
theorem C74_width_disagrees : drawAndMend sampleDb { reqwidth := 12 } { starDesign with padding := ⟨1, 1, 1, 1⟩ } [lit "ab\n", lit "  cd\n"] 100 =
    some (["************", "*          *", "* ab       *", "*   cd     *", "*          *", "************"].map lit,
      [" ************", " *          *", " *ab        *", " *  cd      *", " *          *", " ************"].map lit) := by
  decide +kernel

/-- A box drawn with a requested height gets wider: the rows that are neither text nor padding are not removed. -/
theorem C74_height_disagrees : drawAndMend sampleDb { reqheight := 7 } { starDesign with padding := ⟨1, 1, 1, 1⟩ } [lit "ab\n", lit "  cd\n"] 100 =
    some (["********", "*      *", "* ab   *", "*   cd *", "*      *", "*      *", "********"].map lit,
      ["*********", "*       *", "* ab    *", "*   cd  *", "*       *", "*       *", "*********"].map lit) := by
  decide +kernel

/-- A box with text on the right is mended to a box that is indented: the space in front of the text is taken for indentation. -/
theorem C74_align_disagrees : drawAndMend sampleDb { halign := 'r' } { starDesign with minwidth := 12 } [lit "ab\n", lit "abcdef\n"] 100 =
    some (["************", "*    ab    *", "*    abcdef*", "************"].map lit,
      ["    ************", "    *    ab    *", "    *    abcdef*", "    ************"].map lit) := by
  decide +kernel

end Boxes
