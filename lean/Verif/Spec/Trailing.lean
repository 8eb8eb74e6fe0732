/-
Specification for C96: texts that differ only in what cannot be seen at the ends of their lines.
-/
import Verif.Spec.Text

namespace Boxes.Spec

/-- The texts, line by line, differ at most in the white space at the ends of their lines, line breaks included. -/
def SameStarts (db : CharDb) (ss ss' : List Str) : Prop :=
  ss.length = ss'.length ∧ ∀ (i : Nat) s s', ss[i]? = some s → ss'[i]? = some s' →
    ∃ q v y y', s = q ++ y ∧ s' = q ++ y' ∧ Text q v ∧ ∀ c ∈ y ++ y', c ≠ 0x1b ∧ db.white c = true

end Boxes.Spec
