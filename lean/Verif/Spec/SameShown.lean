import Verif.Spec.Text

namespace Boxes.Spec

/-- Two texts show the same: they differ only in their escape sequences. -/
def ShowSame (s s' : Str) : Prop := ∃ v, Text s v ∧ Text s' v

/-- There is no escape sequence in front of a tab. -/
def TabsFirst (s : Str) : Prop := ∀ a b, s = a ++ 0x09 :: b → 0x1b ∉ a

end Boxes.Spec
