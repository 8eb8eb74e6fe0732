import Verif.Spec.Found
import Verif.Spec.Pipe
import Verif.Model.Whole

/-!
# Specification: removing a box without naming its design, with the complete program
-/
namespace Boxes.Spec

/-- The command line asks for the removal of a box, without naming a design. -/
structure RemovesAny (c : CommandLine) : Prop where
  first : c.first ≠ some (lit "-?")
  remove : .remove ∈ c.options
  mend : .mend ∉ c.options
  design : ∀ s, .design s ∉ c.options
  create : ∀ s, .create s ∉ c.options
  list : .list ∉ c.options
  query : ∀ s, .query s ∉ c.options
  size : ∀ s, .size s ∉ c.options

/-- The lines that are read, without their line breaks, are the texts of `rows`. -/
def AsLines (db : CharDb) (pieces : List Str) (rows : List Line) : Prop :=
  ∃ parts : List (Str × Str), pieces = parts.map (fun p => p.1 ++ p.2) ∧ (∀ p ∈ parts, LineEnd p.2 ∧ 0x0a ∉ p.1 ∧ 0x0d ∉ p.1) ∧
    rows.map Line.text = parts.map (fun p => fromUnicode db p.1)

/-- The blanks in the visible text of every shape line of the file are one column wide, and escape sequences are complete. -/
def ReadableTexts (db : CharDb) (decls : List Decl) : Prop := ∀ s ∈ fileTexts decls, ∃ v, Text s v ∧ NarrowBlanks db v

end Boxes.Spec
