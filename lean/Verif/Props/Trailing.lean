/-
C96: Blanks at the ends of input lines, and the kind of line breaks, make no difference when a box is drawn.
-/
import Verif.Lemmas.Trailing
import Verif.Lemmas.Names

namespace Boxes
open Spec

/-- C96: Blanks at the ends of the lines of the input, and the kind of its line breaks, make no difference unless a box is removed or mended. -/
theorem C96_blanks (m : Machine) (c : CommandLine) (hrm : .remove ∉ c.options) (hmend : .mend ∉ c.options) (input' : Option Str → List Str)
    (h : ∀ f, SameStarts m.db (m.input f) (input' f) ∧ (EndsInBreak (m.input f) ↔ EndsInBreak (input' f))) (fuel : Nat) :
    wholeProgram { m with input := input' } c fuel = wholeProgram m c fuel := by
  by_cases hfirst : c.first = some (lit "-?")
  · simp [wholeProgram, processCommandline, hfirst]
  · cases hopts : optionLoop c.options createNewOpt with
    | none => rw [whole_refused _ c fuel hfirst hopts, whole_refused _ c fuel hfirst hopts]
    | some x =>
      obtain ⟨a, hv⟩ := x
      cases hv with
      | true =>
        rcases optionLoop_done _ _ _ hopts with e | e <;> simp [wholeProgram, processCommandline, hfirst, hopts, e]
      | false =>
        obtain ⟨s1, s2, s3, s4, -⟩ := C58_switches c.options a hopts
        have hmn : a.opt.mend = 0 := by rw [s3, if_neg hmend]
        have hrn : a.opt.r = false := by
          cases hb : a.opt.r with
          | false => rfl
          | true => exact absurd (s2.1 hb) (by simp [hrm, hmend])
        by_cases hfiles : UsableFiles m.canRead m.canWrite c.files
        · rw [whole_accepted m c fuel hfirst hopts hfiles, whole_accepted { m with input := input' } c fuel hfirst hopts hfiles]
          have key := fun file ds ps f => (mainTask_blanks m input' { a with infile := named c.files 0, outfile := named c.files 1 } hmn hrn
            (h (named c.files 0)).1 file ds ps f fuel).1 (h (named c.files 0)).2
          have hload : ∀ file, loadDesigns { m with input := input' } { a with infile := named c.files 0, outfile := named c.files 1 } file fuel =
              loadDesigns m { a with infile := named c.files 0, outfile := named c.files 1 } file fuel := fun _ => rfl
          unfold afterOptions
          simp only [key, hload]
        · rw [whole_files m c fuel hfirst hopts hfiles, whole_files { m with input := input' } c fuel hfirst hopts hfiles]

/-- C96: Whether the last line of the input ends with a line break decides only whether the last line of the box does. -/
theorem C96_last_break (m : Machine) (c : CommandLine) (hrm : .remove ∉ c.options) (hmend : .mend ∉ c.options)
    (hlist : .list ∉ c.options) (hq : ∀ s, .query s ∉ c.options) (hfirst : c.first ≠ some (lit "-?")) {a : Args}
    (hopts : optionLoop c.options createNewOpt = some (a, false)) (input' : Option Str → List Str)
    (h : SameStarts m.db (m.input (named c.files 0)) (input' (named c.files 0)))
    (hb : EndsInBreak (m.input (named c.files 0))) (hb' : ¬ EndsInBreak (input' (named c.files 0))) (fuel : Nat) {f : Option Str} {text : Str} (hne : text ≠ [])
    (hrun : wholeProgram { m with input := input' } c fuel = some (.ok (.output f text))) :
    wholeProgram m c fuel = some (.ok (.output f (text ++ a.opt.eol))) := by
  obtain ⟨s1, s2, s3, s4, -⟩ := C58_switches c.options a hopts
  have hmn : a.opt.mend = 0 := by rw [s3, if_neg hmend]
  have hrn : a.opt.r = false := by
    cases hb : a.opt.r with
    | false => rfl
    | true => exact absurd (s2.1 hb) (by simp [hrm, hmend])
  have hqn : a.query = none := by
    rcases (C58_words c.options a hopts).2.2.2.2.2 with ⟨x, ⟨pre', post', e, -, hno⟩, arg', q, rfl, hq', e'⟩ | ⟨hn, e⟩
    · exact absurd (by rw [e]; simp) (hq arg')
    · exact e
  have hln : a.l = false := by
    cases hl : a.l with
    | false => rfl
    | true => exact absurd (s1.1 hl) hlist
  by_cases hfiles : UsableFiles m.canRead m.canWrite c.files
  · rw [whole_accepted { m with input := input' } c fuel hfirst hopts hfiles] at hrun
    rw [whole_accepted m c fuel hfirst hopts hfiles]
    have key := fun file ds ps f => (mainTask_blanks m input' { a with infile := named c.files 0, outfile := named c.files 1 } hmn hrn
      h file ds ps f fuel).2 hb hb' hln (by simp [hqn]) text hne
    have hload : ∀ file, loadDesigns { m with input := input' } { a with infile := named c.files 0, outfile := named c.files 1 } file fuel =
        loadDesigns m { a with infile := named c.files 0, outfile := named c.files 1 } file fuel := fun _ => rfl
    unfold afterOptions at hrun ⊢
    simp only [hload] at hrun
    split at hrun
    · simp at hrun
    · simp at hrun
    · split at hrun
      · simp at hrun
      · simp at hrun
      · simp at hrun
      · split at hrun
        · simp at hrun
        · simp at hrun
        · simp at hrun
        · rename_i t ht
          simp only [Option.some.injEq, Res.ok.injEq, Outcome.output.injEq] at hrun
          obtain ⟨rfl, rfl⟩ := hrun
          have := key _ _ _ _ ht
          simp_all
  · rw [whole_files { m with input := input' } c fuel hfirst hopts hfiles] at hrun
    simp at hrun

/-- the input of the sample machine with blanks at the ends of its lines, and with other line breaks -/
def blankInput (f : Option Str) : List Str := if f = some (lit "in") then [lit "q"] else [lit "  ab \r\n", lit "  c\t\n"]

theorem blankInput_same (f : Option Str) :
    SameStarts sampleMachine.db (sampleMachine.input f) (blankInput f) ∧ (EndsInBreak (sampleMachine.input f) ↔ EndsInBreak (blankInput f)) := by
  by_cases hf : f = some (lit "in")
  · have e : sampleMachine.input f = blankInput f := by subst hf; rfl
    rw [e]
    refine ⟨⟨rfl, fun i s s' h h' => ?_⟩, Iff.rfl⟩
    rw [h] at h'
    obtain rfl := Option.some.inj h'
    have hb : blankInput f = [lit "q"] := by subst hf; rfl
    have hm : s ∈ [lit "q"] := by rw [← hb]; exact List.mem_of_getElem? h
    have : ∀ s ∈ [lit "q"], ∀ c ∈ s, c ≠ 0x1b := by decide
    exact ⟨s, s, [], [], by simp, by simp, Spec.Text.plain (this s hm), by simp⟩
  · have e1 : sampleMachine.input f = [lit "  ab\n", lit "  c\n"] := by simp [sampleMachine, hf]
    have e2 : blankInput f = [lit "  ab \r\n", lit "  c\t\n"] := by simp [blankInput, hf]
    rw [e1, e2]
    refine ⟨⟨rfl, ?_⟩, ?_⟩
    · intro i s s' h h'
      match i with
      | 0 =>
        obtain rfl := Option.some.inj h
        obtain rfl := Option.some.inj h'
        exact ⟨lit "  ab", lit "  ab", lit "\n", lit " \r\n", rfl, rfl, Spec.Text.plain (by decide), by decide⟩
      | 1 =>
        obtain rfl := Option.some.inj h
        obtain rfl := Option.some.inj h'
        exact ⟨lit "  c", lit "  c", lit "\n", lit "\t\n", rfl, rfl, Spec.Text.plain (by decide), by decide⟩
      | i + 2 => simp at h
    · rw [← finalBreak_iff, ← finalBreak_iff]; decide

/-- For every command line that neither removes nor mends a box, the program does the same with this input. -/
example (c : CommandLine) (hrm : .remove ∉ c.options) (hmend : .mend ∉ c.options) (fuel : Nat) :
    wholeProgram { sampleMachine with input := blankInput } c fuel = wholeProgram sampleMachine c fuel :=
  C96_blanks sampleMachine c hrm hmend blankInput blankInput_same fuel

example : wholeProgram { sampleMachine with input := blankInput } { options := [.design (lit "fr")] } 20 =
    some (.ok (.output none (lit "  +--*\n  |ab!\n  |c !\n  +==+\n"))) := by
  rw [C96_blanks sampleMachine _ (by decide) (by decide) blankInput blankInput_same]
  decide +kernel

/-- Without the last line break, the box is printed without its last line break. -/
example : wholeProgram { sampleMachine with input := fun _ => [lit "  ab\n", lit "  c "] } { options := [.design (lit "fr")] } 20 =
    some (.ok (.output none (lit "  +--*\n  |ab!\n  |c !\n  +==+"))) := by decide +kernel

example : SameStarts sampleDb [lit "  ab\n", lit "  c\n"] [lit "  ab\n", lit "  c "] := by
  have e1 : lit "  ab\n" = lit "  ab" ++ lit "\n" := by decide
  have e2 : lit "  c\n" = lit "  c" ++ lit "\n" := by decide
  have e3 : lit "  c " = lit "  c" ++ lit " " := by decide
  rw [e1, e2, e3]
  exact sameStarts_cons (Spec.Text.plain (by decide)) (by decide) (sameStarts_cons (Spec.Text.plain (by decide)) (by decide) (sameStarts_nil _))

example : EndsInBreak [lit "  ab\n", lit "  c\n"] ∧ ¬ EndsInBreak [lit "  ab\n", lit "  c "] := by
  rw [← finalBreak_iff, ← finalBreak_iff]; exact ⟨rfl, Bool.false_ne_true⟩

end Boxes
