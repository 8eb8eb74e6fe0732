import Verif.Lemmas.Order

namespace Boxes
open Boxes.Spec

/-- C99: The order of options that are about different things does not matter: the settings are the same, or the command line is refused both times. -/
theorem C99_settings (canRead canWrite : Str → Bool) (first : Option Str) (opts opts' : List Option') (files : List Str) (h : SameByTopic opts opts')
    (hh : .help ∉ opts) (hv : .version ∉ opts) :
    processCommandline canRead canWrite first opts' files = processCommandline canRead canWrite first opts files := by
  unfold processCommandline
  rw [optionLoop_order opts opts' h hh hv]

/-- C99, for the complete program: what it does is the same. -/
theorem C99_order (m : Machine) (c : CommandLine) (opts' : List Option') (h : SameByTopic c.options opts') (hh : .help ∉ c.options) (hv : .version ∉ c.options) (fuel : Nat) :
    wholeProgram m { c with options := opts' } fuel = wholeProgram m c fuel := by
  unfold wholeProgram
  rw [C99_settings m.canRead m.canWrite c.first c.options opts' c.files h hh hv]

/-- C99: In particular, two neighbours about different things can change places. -/
theorem C99_neighbours (m : Machine) (c : CommandLine) (pre post : List Option') (x y : Option') (hc : c.options = pre ++ x :: y :: post) (hxy : optionTopic x ≠ optionTopic y)
    (hh : .help ∉ c.options) (hv : .version ∉ c.options) (fuel : Nat) :
    wholeProgram m { c with options := pre ++ y :: x :: post } fuel = wholeProgram m c fuel := by
  refine C99_order m c _ ?_ hh hv fuel
  intro k
  rw [hc, List.filter_append, List.filter_append]
  congr 1
  by_cases h1 : optionTopic x = k <;> by_cases h2 : optionTopic y = k
  · exact absurd (h1.trans h2.symm) hxy
  all_goals simp [List.filter_cons, h1, h2]

/-! ## Examples -/

/-- `-d fr -p a1 -i none -a c -p l2` in another order: the options for the padding keep their order -/
example : SameByTopic [.design (lit "fr"), .padding (lit "a1"), .indent (lit "none"), .align (lit "c"), .padding (lit "l2")]
    [.padding (lit "a1"), .align (lit "c"), .padding (lit "l2"), .design (lit "fr"), .indent (lit "none")] := by
  intro k
  cases k <;> decide

example (m : Machine) (fuel : Nat) :
    wholeProgram m { options := [.mend, .design (lit "fr"), .remove] } fuel = wholeProgram m { options := [.remove, .mend, .design (lit "fr")] } fuel :=
  C99_order m { options := [.remove, .mend, .design (lit "fr")] } _ (by intro k; cases k <;> decide) (by decide) (by decide) fuel

/-- Options about the same thing cannot change places: the last one counts, and `-k` counts only before `-m`.  Nor can help and an unknown option. -/
example : (wholeProgram sampleMachine { options := [.design (lit "fr"), .design (lit "dots")] } 20 ≠ wholeProgram sampleMachine { options := [.design (lit "dots"), .design (lit "fr")] } 20) ∧
    (optionLoop [.mend, .kill (lit "maybe")] createNewOpt).isSome = true ∧ (optionLoop [.kill (lit "maybe"), .mend] createNewOpt).isSome = false ∧
    (optionLoop [.help, .bad] createNewOpt).isSome = true ∧ (optionLoop [.bad, .help] createNewOpt).isSome = false := by decide +kernel

end Boxes
