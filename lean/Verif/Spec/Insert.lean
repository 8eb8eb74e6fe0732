import Verif.Model.Insert

/-!
# Specification of the insertion of blanks into a string (C79)
-/
namespace Boxes.Spec

/-- the block holds the string `s`: its characters, none of them NUL, and then a terminator -/
def HoldsStr (b : Block) (s : Str) : Prop := ∃ rest, b = s.map some ++ some 0 :: rest ∧ 0 ∉ s

/-- `s` with `n` blanks inserted at position `idx`, or at its end if it is shorter -/
def withBlanks (s : Str) (idx n : Nat) : Str := s.take idx ++ List.replicate n 0x20 ++ s.drop idx

end Boxes.Spec
