import Verif.Model.Complete
import Verif.Props.Getopt
import Verif.Props.Scanner
import Verif.Props.Whole
import Verif.Props.Program

/-!
# C69: the complete program, from texts to text
-/
namespace Boxes
open Spec

/-- C69: what the program does with arguments and configuration files depends only on what is written there: the options and file names that the
arguments mean, and the declarations that the configuration files consist of.  (What it does with these is the subject of the other theorems.) -/
theorem C69_complete (m : Machine) (texts : Bxs → Option Str) (input : Option Str → Str) (argv : List Str) (fuel : Nat)
    {os : List Option'} {fs : List Str} (hargs : Reading argv os fs) {declared : Bxs → Option (List Decl)}
    (hnone : ∀ f, texts f = none → declared f = none)
    (hsome : ∀ f t, texts f = some t → ∃ ds toks, declared f = some ds ∧ Reads .initial standard t toks ∧ FileTokens ds toks) :
    boxesProgram m texts input argv fuel =
      wholeProgram { m with contents := declared, input := fun f => inputPieces (input f) } { options := os, files := fs } fuel := by
  have hc : (fun f => (texts f).map (fun t => (readDecls t).getD [])) = declared := by
    funext f
    cases ht : texts f with
    | none => rw [hnone f ht]; rfl
    | some t =>
      obtain ⟨ds, toks, h1, h2, h3⟩ := hsome f t ht
      rw [h1, Option.map_some, (C62_read _ _).2 ⟨toks, h2, h3⟩]
      rfl
  have hq := reading_question hargs
  unfold boxesProgram withTexts
  rw [hc]
  unfold boxesMain commandLineOf wholeProgram processCommandline
  simp only [(reading_words hargs).1]
  rw [if_neg (show argv.head? ≠ some (lit "-?") from hq), if_neg (show (none : Option Str) ≠ some (lit "-?") by simp)]

/-- the hypotheses of `C69_complete` hold of arguments and a configuration file -/
example (input : Option Str → Str) (fuel : Nat) : ∃ ds, boxesProgram sampleMachine (fun _ => some exampleText) input [lit "-l", lit "in"] fuel =
    wholeProgram { sampleMachine with contents := fun _ => some ds, input := fun f => inputPieces (input f) } { options := [.list], files := [lit "in"] } fuel := by
  refine ⟨[.box (lit "a") [] [.sample (lit "--\n "), .padding [(lit "all", -12)], .elastic [.NW], .tags [lit "x"]] (lit "a")], C69_complete sampleMachine _ input _ fuel
    ((C75_reading _ _ _).2 (by decide +kernel)) (declared := fun _ => some _) (by simp) ?_⟩
  intro f t ht
  obtain rfl : exampleText = t := by simpa using ht
  refine ⟨_, _, rfl, exampleText_reads, (C62_grammar _ _).2 (by decide)⟩

/-- C69: a box from the texts of a configuration file and an input, and the box removed again -/
def frameText : Str := lit "# a design\nBOX frame, fr\n  tags (\"plain\")\n  sample\n    x\n  ends\n  shapes {\n    nw (\"+\") n (\"-\") ne (\"*\") e (\"!\")\n    se (\"+\") s (\"=\") sw (\"+\") w (\"|\")\n  }\n  elastic (n, e, s, w)\nEND frame\n"

example : readDecls frameText = some [.box (lit "frame") [lit "fr"]
    [.tags [lit "plain"], .sample (lit "    x\n  "), .shapes [(.NW, [lit "+"]), (.N, [lit "-"]), (.NE, [lit "*"]), (.E, [lit "!"]), (.SE, [lit "+"]), (.S, [lit "="]),
      (.SW, [lit "+"]), (.W, [lit "|"])], .elastic [.N, .E, .S, .W]] (lit "frame")] := by decide +kernel

example : boxesProgram sampleMachine (fun f => if f.memory = lit "/h/.config/boxes/boxes-config" then some frameText else none)
    (fun _ => lit "  ab\n  c\n") [lit "--des", lit "fr"] 20 = some (.ok (.output none (lit "  +--*\n  |ab!\n  |c !\n  +==+\n"))) := by decide +kernel

example : boxesProgram sampleMachine (fun f => if f.memory = lit "/h/.config/boxes/boxes-config" then some frameText else none)
    (fun _ => lit "  +--*\n  |ab!\n  |c !\n  +==+\n") [lit "-rd", lit "fr"] 20 = some (.ok (.output none (lit "  ab\n  c\n"))) := by decide +kernel

end Boxes
