import Verif.Spec.Pipe
import Verif.Model.Whole

/-!
# Specification: boxes in boxes

The program is used as a filter several times in a row: `boxes -d a | boxes -d b | …`.
-/
namespace Boxes.Spec
open ShapeName

/-- A text made of plain lines in which something is shown; each one ends with the line terminator, perhaps not the last one. -/
structure PlainText (db : CharDb) (eol text : Str) (lines : List (Str × Str)) : Prop where
  whole : (lines.map (fun p => p.1 ++ p.2)).flatten = text
  nonempty : lines ≠ []
  plain : ∀ p ∈ lines, PlainLine db p.1 ∧ p.1 ≠ []
  ends : ∀ (x : Nat) p, lines[x]? = some p → p.2 = eol ∨ (x + 1 = lines.length ∧ p.2 = [])

/-- There is no white space other than spaces in the shapes of a design. -/
def OnlySpaces (db : CharDb) (d : Design) : Prop :=
  ∀ n, Present (d.shape n) → ∀ b ∈ (d.shape n).lines, ∀ c ∈ b.memory, db.white c = true ∨ Blank db c → c = 0x20

/-- The program is a filter: it reads a text from standard input, line by line (every line fits into the buffer), and prints another text on
standard output. -/
def Filters (m : Machine) (fuel : Nat) (c : CommandLine) (text text' : Str) : Prop :=
  ∃ pieces, ReadInLines text pieces ∧ (∀ p ∈ pieces, p.length < 16360) ∧
    wholeProgram { m with input := fun _ => pieces } c fuel = some (.ok (.output none text'))

/-- Several runs in a row, each one reads what the one before has printed. -/
inductive Pipeline (m : Machine) (fuel : Nat) : List CommandLine → Str → Str → Prop
  | none (text : Str) : Pipeline m fuel [] text text
  | more {c : CommandLine} {cs : List CommandLine} {text text' text'' : Str} :
      Filters m fuel c text text' → Pipeline m fuel cs text' text'' → Pipeline m fuel (c :: cs) text text''

/-- the command that removes the box which was drawn by a command: the same one, with the option -r -/
def undo (c : CommandLine) : CommandLine := { c with options := c.options ++ [.remove] }

end Boxes.Spec
