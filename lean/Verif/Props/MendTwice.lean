import Verif.Props.Edited
import Verif.Props.MendBare
import Verif.Props.Pipe

/-! # Mending once is enough (C92) -/

set_option linter.unusedVariables false

namespace Boxes
open Spec
open ShapeName

/-- C92: Mending once is enough.  `boxes -d X -m` reads a box in which somebody has written; when it is run again and reads what it has printed, it prints the
same again.  (`c` is the same command line without -m, and the text fills the box.) -/
theorem C92_edited (m : Machine) (hdb : Sane m.db) (hbr : BreaksSane m.db) (c : CommandLine) (hc : DrawsWith c) (fuel : Nat) {a : Args}
    (hopts : optionLoop c.options createNewOpt = some (a, false)) (hfiles : UsableFiles m.canRead m.canWrite c.files)
    (htab : a.opt.tabexp ≠ 'u' ∧ a.opt.tabexp ≠ 'k') (heol : a.opt.eol = [0x0a] ∨ a.opt.eol = [0x0d, 0x0a])
    {file : Bxs} {d : DesignDef} {ds : List DesignDef} {ps : List Bxs} (h : Loaded m a fuel file d ds ps) (hd : Restorable m.db d.core)
    (hrules : d.reprules = []) (hrev : d.revrules = [])
    (mode : Char) (hmode : mode = if a.opt.indentmode = '\x00' then d.core.indentmode else a.opt.indentmode) (hmode' : mode = 't' ∨ mode = 'b')
    (lines : List (Str × Str)) (hl : ∀ p ∈ lines, PlainLine m.db p.1 ∧ p.1 ≠ [] ∧ LineEnd p.2) (hne : lines ≠ [])
    (hpieces : m.input (named c.files 0) = lines.map (fun p => p.1 ++ p.2))
    (ind above below : Nat) (texts : List Str) (htexts : lines.map Prod.fst = texts.map (fun t => spaces (restored a.opt ind) ++ t))
    (habove : above ≤ wanted a.opt.padding.top d.core.padding.top) (hbelow : below ≤ wanted a.opt.padding.bottom d.core.padding.bottom)
    (rows : List (Str × Str)) (hrows : EditedBox m.db d.core ind (wanted a.opt.padding.left d.core.padding.left)
      (List.replicate above [] ++ texts ++ List.replicate below []) (rows.map Prod.fst))
    (hend : ∀ p ∈ rows, LineEnd p.2) (hshort : ∀ p ∈ rows, p.1.length < 16370)
    (hfinal : (∃ p, rows.getLast? = some p ∧ p.2 ≠ []) ↔ EndsInBreak (m.input (named c.files 0)))
    {r : Res Outcome} (hrun : wholeProgram m c fuel = some r)
    (c' : CommandLine) (hfirst' : c'.first ≠ some (lit "-?")) (hopts' : c'.options = c.options ++ [.mend]) (hfiles' : UsableFiles m.canRead m.canWrite c'.files)
    (input' : Option Str → List Str) (hinput' : input' (named c'.files 0) = rows.map (fun p => p.1 ++ p.2)) (fuel' : Nat) (hfuel : fuel < fuel') :
    ∃ text, wholeProgram { m with input := input' } c' fuel' = some (.ok (.output (named c'.files 1) text)) ∧
      ∀ input'' : Option Str → List Str, ReadInLines text (input'' (named c'.files 0)) → (∀ p ∈ input'' (named c'.files 0), p.length < 16370) →
        (input'' (named c'.files 0)).length = (d.core.shape NE).height + wanted a.opt.padding.top d.core.padding.top + lines.length +
          wanted a.opt.padding.bottom d.core.padding.bottom + (d.core.shape SE).height →
        wholeProgram { m with input := input'' } c' fuel' = wholeProgram { m with input := input' } c' fuel' := by
  obtain ⟨text, rfl, k⟩ := C87_program m hdb hbr c hc fuel hopts hfiles htab heol h hd hrules hrev lines hl hne hpieces ind above below texts htexts habove hbelow
    rows hrows hend hshort hfinal c' hfirst' hopts' hfiles' input' hinput' fuel' hfuel hrun
  obtain ⟨text', e, k'⟩ := C74_pipeline m hdb hbr c hc fuel hopts hfiles htab heol h hd hrules hrev mode hmode hmode' lines hl hne hpieces hrun
  cases e
  refine ⟨text, k, fun input'' hread hs hfull => ?_⟩
  rw [k, k' c' input'' hfirst' hopts' hfiles' hread hs hfull fuel' hfuel]

/-- C92, for a plain text without a box: the first run draws the box, the second one leaves it as it is. -/
theorem C92_bare (m : Machine) (hdb : Sane m.db) (hbr : BreaksSane m.db) (hj : m.junk ≠ 0x0d) (c : CommandLine) (hc : DrawsWith c) (fuel : Nat) {a : Args}
    (hopts : optionLoop c.options createNewOpt = some (a, false)) (hfiles : UsableFiles m.canRead m.canWrite c.files)
    (htab : a.opt.tabexp ≠ 'u' ∧ a.opt.tabexp ≠ 'k') (heol : a.opt.eol = [0x0a] ∨ a.opt.eol = [0x0d, 0x0a])
    {file : Bxs} {d : DesignDef} {ds : List DesignDef} {ps : List Bxs} (h : Loaded m a fuel file d ds ps) (hd : Restorable m.db d.core)
    (hrules : d.reprules = []) (hrev : d.revrules = [])
    (mode : Char) (hmode : mode = if a.opt.indentmode = '\x00' then d.core.indentmode else a.opt.indentmode) (hmode' : mode = 't' ∨ mode = 'b')
    (lines : List (Str × Str)) (hl : ∀ p ∈ lines, PlainLine m.db p.1 ∧ Foreign m.db d.core p.1 ∧ LineEnd p.2 ∧ p.1 ≠ []) (hne : lines ≠ [])
    (hflush : ∃ p ∈ lines, ∃ c r, p.1 = c :: r ∧ ¬ Blank m.db c)
    (hpieces : m.input (named c.files 0) = lines.map (fun p => p.1 ++ p.2))
    {r : Res Outcome} (hrun : wholeProgram m c fuel = some r)
    (c' : CommandLine) (hfirst' : c'.first ≠ some (lit "-?")) (hopts' : c'.options = c.options ++ [.mend]) (hfiles' : UsableFiles m.canRead m.canWrite c'.files)
    (hinput' : m.input (named c'.files 0) = m.input (named c.files 0)) (fuel' : Nat) (hfuel : fuel < fuel') :
    ∃ text, wholeProgram m c' fuel' = some (.ok (.output (named c'.files 1) text)) ∧
      ∀ input'' : Option Str → List Str, ReadInLines text (input'' (named c'.files 0)) → (∀ p ∈ input'' (named c'.files 0), p.length < 16370) →
        (input'' (named c'.files 0)).length = (d.core.shape NE).height + wanted a.opt.padding.top d.core.padding.top + lines.length +
          wanted a.opt.padding.bottom d.core.padding.bottom + (d.core.shape SE).height →
        wholeProgram { m with input := input'' } c' fuel' = wholeProgram m c' fuel' := by
  obtain ⟨text, rfl, k⟩ := C90_program m hdb hbr hj c hc fuel hopts hfiles htab heol h hd hrules hrev lines
    (fun p hp => ⟨(hl p hp).1, (hl p hp).2.1, (hl p hp).2.2.1, fun e => absurd e (hl p hp).2.2.2⟩) hne hflush hpieces c' hfirst' hopts' hfiles' hinput' fuel' hfuel hrun
  obtain ⟨text', e, k'⟩ := C74_pipeline m hdb hbr c hc fuel hopts hfiles htab heol h hd hrules hrev mode hmode hmode' lines
    (fun p hp => ⟨(hl p hp).1, (hl p hp).2.2.2, (hl p hp).2.2.1⟩) hne hpieces hrun
  cases e
  refine ⟨text, k, fun input'' hread hs hfull => ?_⟩
  rw [k, k' c' input'' hfirst' hopts' hfiles' hread hs hfull fuel' hfuel]

/-! ## Examples -/

/-- the box that `boxes -d fr -m` makes of the edited box `ragged` is left as it is by `boxes -d fr -m` -/
example : wholeProgram { sampleMachine with input := fun _ => [lit "  +--*\n", lit "  |ab!\n", lit "  |c !\n", lit "  +==+\n"] }
    { options := [.design (lit "fr"), .mend] } 21 =
    wholeProgram { sampleMachine with input := fun _ => ragged.map (fun p => p.1 ++ p.2) } { options := [.design (lit "fr"), .mend] } 21 := by
  obtain ⟨text, h1, h2⟩ := C92_edited sampleMachine sampleDb_sane sampleDb_breaks { options := [.design (lit "fr")] } fr_draws 20 (a := frArgs) rfl
    ⟨by simp, by simp, by simp⟩ (by decide) (by decide) frDesign_loaded frDesign_restorable (by decide +kernel) (by decide +kernel) _ rfl (by decide +kernel)
    [(lit "  ab", lit "\n"), (lit "  c", lit "\n")] (fun p hp => ⟨(fr_lines p hp).1, (fr_lines p hp).2, by
      simp only [List.mem_cons, List.not_mem_nil, or_false] at hp
      rcases hp with rfl | rfl <;> exact .inr (.inl rfl)⟩) (by simp) (by decide +kernel) 2 0 0 [lit "ab", lit "c"] (by decide +kernel) (by omega) (by omega)
    ragged (by
      have : wanted frArgs.opt.padding.left frDesign.core.padding.left = 0 := by decide +kernel
      rw [this]; exact ragged_edited) (fun p hp => (ragged_ends p hp).1) (fun p hp => (ragged_ends p hp).2)
    (by
      constructor
      · intro _
        exact ⟨[lit "  ab\n"], lit "  c", 0x0a, by decide +kernel, .inl rfl⟩
      · intro _
        exact ⟨(lit "  +==+", lit "\n"), by decide +kernel, by decide +kernel⟩) fr_run { options := [.design (lit "fr"), .mend] } (by simp) rfl
    ⟨by simp, by simp, by simp⟩ (fun _ => ragged.map (fun p => p.1 ++ p.2)) rfl 21 (by omega)
  have e : wholeProgram { sampleMachine with input := fun _ => ragged.map (fun p => p.1 ++ p.2) } { options := [.design (lit "fr"), .mend] } 21 =
      some (.ok (.output none (lit "  +--*\n  |ab!\n  |c !\n  +==+\n"))) := by decide +kernel
  have ht : text = lit "  +--*\n  |ab!\n  |c !\n  +==+\n" := (Outcome.output.inj (Res.ok.inj (Option.some.inj (h1.symm.trans e)))).2
  refine h2 (fun _ => [lit "  +--*\n", lit "  |ab!\n", lit "  |c !\n", lit "  +==+\n"]) ?_ (by decide +kernel) (by decide +kernel)
  rw [ht]
  exact frBox_read

end Boxes
