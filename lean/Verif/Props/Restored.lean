import Verif.Props.DrawRemove
import Verif.Lemmas.Whole

/-!
# Drawing a box and removing it again: the program run twice (C71)
-/

set_option linter.unusedSimpArgs false

namespace Boxes
open Boxes.Spec ShapeName

/-! ## The whole program -/

theorem prepareDesign_fields (opt : Opt) (d : Design) : (prepareDesign opt d).shape = d.shape ∧ (prepareDesign opt d).padding = d.padding ∧
    d.minwidth ≤ (prepareDesign opt d).minwidth ∧
    (prepareDesign opt d).indentmode = if opt.indentmode = '\x00' then d.indentmode else opt.indentmode := by
  have hw : d.minwidth ≤ (applyExpectedSize opt d).minwidth := by
    simp only [applyExpectedSize]
    repeat' split
    all_goals omega
  unfold prepareDesign
  by_cases h : opt.indentmode = '\x00'
  · simp only [h, ne_eq, not_true_eq_false, if_false, if_true]
    exact ⟨rfl, rfl, hw, rfl⟩
  · simp only [h, ne_eq, not_false_eq_true, if_true, if_false]
    exact ⟨rfl, rfl, hw, trivial⟩

theorem restorable_prepared {db : CharDb} (opt : Opt) {d : Design} (hd : Restorable db d) : Restorable db (prepareDesign opt d) := by
  obtain ⟨h1, -, h3, -⟩ := prepareDesign_fields opt d
  refine ⟨recognisable_shape hd.recognisable h1 (C20_adjusted_design db opt d hd.recognisable.ready.good {}).1, ?_, ?_, ?_⟩
  · have := hd.roomy
    unfold Roomy at this ⊢
    rw [h1]; omega
  · rw [h1]; exact hd.flush
  · rw [h1]; exact hd.clean

/-- C70: without -k, blank lines are dropped, except if nothing shows at the top and at the bottom of the design; with it, it says what to do. -/
theorem C70_blank_default {db : CharDb} (hdb : Sane db) {d : Design} (hg : ∀ n, Present (d.shape n) → GoodShape db (d.shape n)) (kb : Int) :
    (kb ≠ -1 → killblankDefault kb d = kb) ∧
    (kb = -1 → BlankSide db d [NW, NNW, N, NNE, NE] ∧ BlankSide db d [SE, SSE, S, SSW, SW] → killblankDefault kb d = 0) ∧
    (kb = -1 → ¬ (BlankSide db d [NW, NNW, N, NNE, NE] ∧ BlankSide db d [SE, SSE, S, SSW, SW]) → killblankDefault kb d = 1) := by
  unfold killblankDefault
  refine ⟨fun h => if_neg h, fun h hb => ?_, fun h hb => ?_⟩
  · rw [if_pos h, if_pos ⟨(emptySide_iff hdb hg northSide).2 hb.1, (emptySide_iff hdb hg southSide).2 hb.2⟩]
  · rw [if_pos h, if_neg (fun hc => hb ⟨(emptySide_iff hdb hg northSide).1 hc.1, (emptySide_iff hdb hg southSide).1 hc.2⟩)]

/-- without mending and removing, the program draws once -/
theorem run_drawn (s : Setup) (opt : Opt) (hm : opt.mend ≤ 0) (hr : opt.r = false) (d0 : Design) (ds : List Design) (n : Nat) {res : Res (List Event)}
    (h : runProgram s opt (d0 :: ds) (n + 1) = some res) :
    ∃ r, drawOnce s.db opt (prepareDesign opt d0) (s.rules 0) s.junk s.pieces s.fuel = some r ∧
      ∀ out, r = .ok out → out ≠ [] → res = .ok [.read, .drawn out] := by
  rw [← drawOnce_mend s.db opt (opt.mend - 1)]
  unfold runProgram at h
  simp only [List.getElem?_cons_zero, List.set_cons_zero] at h
  generalize hd : prepareDesign opt d0 = d at h ⊢
  unfold mainLoop mainPhase handleInput at h
  unfold drawOnce
  have ho : { opt with r := if opt.mend = 1 then false else opt.r, mend := opt.mend - 1 } = { opt with mend := opt.mend - 1 } := by
    rw [if_neg (by omega)]
  simp only [ho, List.getElem?_cons_zero, List.set_cons_zero] at h
  rw [if_pos (by omega)] at h
  have hro : ({ opt with mend := opt.mend - 1 } : Opt).r = false := hr
  have hmo : ({ opt with mend := opt.mend - 1 } : Opt).mend ≤ 0 := by simp only; omega
  generalize ({ opt with mend := opt.mend - 1 } : Opt) = o at h hro hmo ⊢
  cases h1 : readAllInput s.db o s.junk s.pieces with
  | fail k => exact ⟨.fail k, by simp, fun out h => by simp at h⟩
  | ub => exact ⟨.ub, by simp, fun out h => by simp at h⟩
  | ok raw =>
    simp only [h1, Res.ok_bind] at h ⊢
    cases h2 : analyzeInput s.db o d (s.rules 0) raw with
    | fail k => exact ⟨.fail k, by simp, fun out h => by simp at h⟩
    | ub => exact ⟨.ub, by simp, fun out h => by simp at h⟩
    | ok i =>
      have h2' : analyzeInput s.db o { d with minwidth := d.minwidth, minheight := d.minheight } (s.rules 0) raw = .ok i := h2
      rw [h2', Res.ok_bind] at h
      simp only at h
      by_cases hl : i.lines = []
      · simp only [hl, if_true]
        exact ⟨_, rfl, fun out h0 h1 => absurd (by simpa using h0.symm) h1⟩
      · rw [if_neg hl, if_neg (by rw [if_neg (by omega), hr]; decide)] at h
        simp only [hl, if_false]
        have hdd : adjustSizeAndPadding o { d with minwidth := d.minwidth, minheight := d.minheight } i = adjustSizeAndPadding o d i := rfl
        rw [hdd] at h
        cases h3 : handleGenerateBox s.db o (adjustSizeAndPadding o d i) i s.fuel with
        | none => rw [h3] at h; simp at h
        | some r =>
          refine ⟨r, rfl, ?_⟩
          rintro out rfl -
          rw [h3] at h
          simp only [Option.map_some, Res.ok_bind] at h
          rw [if_neg (by omega)] at h
          exact (Option.some.inj h).symm

theorem analyze_rules {db : CharDb} {opt : Opt} (hr : opt.r = true) (d : Design) (rules : List Subst) (i : Input) :
    analyzeInput db opt d rules i = analyzeInput db opt d [] i := by
  unfold analyzeInput
  simp [hr]

/-- removing a box with a chosen design -/
theorem run_removed (s : Setup) (opt : Opt) (hm : opt.mend ≤ 0) (hr : opt.r = true) (hu : s.byUser = true) (hrev : s.revRules 0 = [])
    (d0 : Design) (ds : List Design) (n : Nat) {o : Opt} (ho : o = { opt with mend := opt.mend - 1, killblank := killblankDefault opt.killblank d0 })
    {raw i j : Input} {out : List (Str × Str)} (h1 : readAllInput s.db o s.junk s.pieces = .ok raw)
    (h2 : analyzeInput s.db o (prepareDesign opt d0) [] raw = .ok i) (hl : i.lines ≠ [])
    (h3 : handleRemoveBox s.db o (adjustSizeAndPadding o (prepareDesign opt d0) i) [] i = .ok (j, out)) :
    runProgram s opt (d0 :: ds) (n + 1) = some (.ok [.read, .removed out]) := by
  have hsh := (prepareDesign_fields opt d0).1
  unfold runProgram
  simp only [List.getElem?_cons_zero, List.set_cons_zero]
  generalize hd : prepareDesign opt d0 = d at hsh h2 h3 ⊢
  unfold mainLoop mainPhase handleInput
  have ho1 : { opt with r := if opt.mend = 1 then false else opt.r, mend := opt.mend - 1 } = { opt with mend := opt.mend - 1 } := by
    rw [if_neg (by omega)]
  simp only [ho1, List.getElem?_cons_zero, List.set_cons_zero]
  rw [if_pos (by omega)]
  have e1 : readAllInput s.db { opt with mend := opt.mend - 1 } s.junk s.pieces = .ok raw := by
    rw [← h1, ho]
    unfold readAllInput
    have : ∀ l, readLines s.db { opt with mend := opt.mend - 1 } s.junk l =
        readLines s.db { opt with mend := opt.mend - 1, killblank := killblankDefault opt.killblank d0 } s.junk l := by
      intro l
      induction l with
      | nil => rfl
      | cons s r ih => rw [readLines, readLines, ih]; rfl
    rw [this]
  have e2 : analyzeInput s.db { opt with mend := opt.mend - 1 } { d with minwidth := d.minwidth, minheight := d.minheight } (s.rules 0) raw = .ok i := by
    rw [← h2, ho]
    exact analyze_rules (opt := { opt with mend := opt.mend - 1 }) hr d (s.rules 0) raw
  simp only [e1, Res.ok_bind, e2]
  rw [if_neg hl, if_pos (by rw [if_neg (by omega)]; exact hr)]
  have hkb : killblankDefault opt.killblank (adjustSizeAndPadding { opt with mend := opt.mend - 1 } { d with minwidth := d.minwidth, minheight := d.minheight } i) =
      killblankDefault opt.killblank d0 := by
    unfold killblankDefault
    have : (adjustSizeAndPadding { opt with mend := opt.mend - 1 } { d with minwidth := d.minwidth, minheight := d.minheight } i).shape = d0.shape :=
      (C21_padding _ _ _).2.2.1.trans hsh
    rw [this]
  have hdd : adjustSizeAndPadding { opt with mend := opt.mend - 1 } { d with minwidth := d.minwidth, minheight := d.minheight } i =
      adjustSizeAndPadding o d i := by rw [ho]; rfl
  unfold removePhase
  rw [hdd] at hkb
  simp only [hdd, hkb, hu, if_true, detectDesignIfNeeded, Res.ok_bind, List.getElem?_cons_zero, Res.get_some, hrev]
  rw [← ho, h3, Res.ok_bind]
  simp only
  rw [if_neg (by rw [ho]; simp only; omega)]
  rfl

/-- C71, for the program: it is run to draw a box around a text and run again, with the same design, to remove the box from what the first run
printed.  The second run prints exactly the text. -/
theorem C71_program (s s' : Setup) (hdb : Sane s.db) (hbr : BreaksSane s.db) (hsame : s'.db = s.db) (opt opt' : Opt) (ho : PlainDrawing opt)
    (hm : opt.mend ≤ 0) (ho' : PlainRemoving opt') (d : Design) (ds ds' : List Design) (hd : Restorable s.db d)
    (hpad : wanted opt'.padding.left d.padding.left = wanted opt.padding.left d.padding.left)
    (mode : Char) (hmode : mode = if opt.indentmode = '\x00' then d.indentmode else opt.indentmode)
    (hmode' : mode = 't' ∨ (mode = 'b' ∧ (opt'.indentmode = 'b' ∨ opt'.indentmode = '\x00'))) (hkill : opt'.killblank ≠ 0)
    (hrules : s.rules 0 = []) (hrev : s'.revRules 0 = []) (hu : s'.byUser = true)
    (lines : List (Str × Str)) (hl : ∀ p ∈ lines, PlainLine s.db p.1 ∧ p.1 ≠ []) (hne : lines ≠ [])
    (hterm : ∀ (x : Nat) p, lines[x]? = some p → p.2 = opt'.eol ∨ (x + 1 = lines.length ∧ p.2 = [])) (heol : opt'.eol = [0x0a] ∨ opt'.eol = [0x0d, 0x0a])
    (hpieces : s.pieces = lines.map (fun p => p.1 ++ p.2)) (n n' : Nat) {res : Res (List Event)}
    (h : runProgram s opt (d :: ds) (n + 1) = some res) :
    ∃ out, res = .ok [.read, .drawn out] ∧ ((∀ p ∈ out, p.1.memory.length < 16370) → s'.pieces = out.map (fun p => p.1.memory ++ p.2) →
      runProgram s' opt' (d :: ds') (n' + 1) = some (.ok [.read, .removed lines])) := by
  obtain ⟨r, h1, h2⟩ := run_drawn s opt hm ho.draws d ds n h
  rw [hrules, hpieces] at h1
  obtain ⟨f1, f2, -, f4⟩ := prepareDesign_fields opt d
  obtain ⟨g1, g2, -, -⟩ := prepareDesign_fields opt' d
  have hk1 : killblankDefault opt'.killblank d ≠ 0 := by
    unfold killblankDefault
    have hside := side_seen hdb hd.recognisable
    split
    · rw [if_neg]
      · decide
      · intro h
        have := congrArg Sides.top hside
        simp only [determineEmptySides] at this
        rw [h.1] at this; simp at this
    · exact hkill
  have hmend' := ho'.mend
  obtain ⟨out, h3, h4⟩ := C71_identity s.db hdb hbr opt { opt' with mend := opt'.mend - 1, killblank := killblankDefault opt'.killblank d } ho
    ⟨ho'.removes, ho'.tabs, ho'.reqwidth, ho'.tabstop, by simp only; omega⟩ (prepareDesign opt d) (prepareDesign opt' d) (restorable_prepared opt hd)
    (restorable_prepared opt' hd).recognisable.ready.good (g1.trans f1.symm) (by rw [g2, f2]; exact hpad) (by rw [f4, ← hmode]; exact hmode') hk1
    s.junk s'.junk lines hl hne hterm heol s.fuel h1
  obtain ⟨out', n1, above, below, w, i1, -, -, i3, -⟩ := drawn_rows s.db hdb hbr opt ho (prepareDesign opt d) (restorable_prepared opt hd) s.junk lines
    (by
      intro p hp
      refine ⟨(hl p hp).1, ?_⟩
      obtain ⟨x, hx⟩ := List.getElem?_of_mem hp
      rcases hterm x p hx with h | h
      · rw [h]; exact .inr heol
      · exact .inl h.2) hne s.fuel h1
  have hout : out' = out := by rw [h3] at i1; simpa using i1.symm
  have hlen : 0 < out.length := by
    rw [← hout, i3.count]
    have : 0 < ((prepareDesign opt d).shape NE).height := ((restorable_prepared opt hd).recognisable.ready.good.corner NE (by simp)).2.2
    omega
  refine ⟨out, h2 out h3 (List.length_pos_iff.1 hlen), fun hshort hp => ?_⟩
  obtain ⟨raw, i, j, j1, j2, j3, -⟩ := h4 hshort
  rw [← hp, ← hsame] at j1
  rw [← hsame] at j2 j3
  refine run_removed s' opt' ho'.mend ho'.removes hu hrev d ds' n' rfl j1 j2 ?_ j3
  -- the lines that were read
  intro h0
  have e1 := readAll_count j1
  rw [← analyze_removing ho'.removes j2, h0, hp] at e1
  simp at e1
  omega

/-! ## Examples -/

/-- the program draws a box with the sample design -/
theorem sample_run : (runProgram { db := sampleDb, pieces := [lit "  a b\n", lit " cd\n"], byUser := true, fuel := 100 } {} [sampleDesign] 1).isSome = true := by
  decide +kernel

/-- the hypotheses of `C71_program` hold of the two runs -/
example : ∃ out, runProgram { db := sampleDb, pieces := [lit "  a b\n", lit " cd\n"], byUser := true, fuel := 100 } {} [sampleDesign] 1 =
      some (.ok [.read, .drawn out]) ∧ ((∀ p ∈ out, p.1.memory.length < 16370) →
    runProgram { db := sampleDb, pieces := out.map (fun p => p.1.memory ++ p.2), byUser := true, fuel := 100 } { r := true } [sampleDesign] 1 =
      some (.ok [.read, .removed [(lit "  a b", [0x0a]), (lit " cd", [0x0a])]])) := by
  obtain ⟨res, h⟩ := Option.isSome_iff_exists.1 sample_run
  have key := fun q => C71_program { db := sampleDb, pieces := [lit "  a b\n", lit " cd\n"], byUser := true, fuel := 100 }
    { db := sampleDb, pieces := q, byUser := true, fuel := 100 } sampleDb_sane
    sampleDb_breaks rfl {} { r := true } plain_drawing (by decide) plain_removing sampleDesign [] [] sampleDesign_restorable rfl 'b' rfl
    (.inr ⟨rfl, .inr rfl⟩) (by decide) rfl rfl rfl _ sample_plain (by decide)
    (by
      intro x p h
      match x with
      | 0 => simp at h; subst h; exact .inl rfl
      | 1 => simp at h; subst h; exact .inl rfl
      | x + 2 => simp at h) (.inl rfl) rfl 0 0 h
  obtain ⟨out, h1, -⟩ := key []
  obtain ⟨out', h1', h2⟩ := key (out.map (fun p => p.1.memory ++ p.2))
  have : out' = out := by rw [h1] at h1'; simpa using h1'.symm
  subst this
  exact ⟨out', by rw [h, h1], fun hs => h2 hs rfl⟩

end Boxes
