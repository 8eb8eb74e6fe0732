import Verif.Spec.Main

/-!
# Specification: texts at whose ends no colours are active
-/
namespace Boxes.Spec

/-- The escape sequences that end all colours and other attributes: `ESC [ m` and `ESC [ 0 m`. -/
def FullReset (e : Str) : Prop := e = [0x1b, 0x5b, 0x6d] ∨ e = [0x1b, 0x5b, 0x30, 0x6d]

/-- At the end of the text no colours are active: it has no escape sequences, or the last one of them ends all colours. -/
def ColoursOff (s : Str) : Prop := 0x1b ∉ s ∨ ∃ a x e z, s = a ++ e ++ z ∧ Text a x ∧ FullReset e ∧ 0x1b ∉ z

/-- A shape line that can be placed anywhere: without escape sequences, or with the colours off at its end and a last visible character
that is no blank. -/
def SelfContained (db : CharDb) (s : Str) : Prop := 0x1b ∉ s ∨ (ColoursOff s ∧ ∃ x c, Text s (x ++ [c]) ∧ ¬ Blank db c)

/-- A line of input, with its line end, whose colours are off directly behind its last visible character that is no white space; or a line
that shows nothing but white space. -/
def SelfContainedLine (db : CharDb) (s : Str) : Prop :=
  (∃ y, Text s y ∧ ∀ c ∈ y, db.white c = true) ∨
  ∃ p x c e w, s = p ++ c :: (e ++ w) ∧ Text p x ∧ c ≠ 0x1b ∧ db.white c = false ∧ (e = [] ∧ ColoursOff p ∨ FullReset e) ∧
    ∀ d ∈ w, d ≠ 0x1b ∧ db.white d = true

end Boxes.Spec
