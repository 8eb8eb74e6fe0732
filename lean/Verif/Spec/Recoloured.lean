import Verif.Spec.SameShown
import Verif.Spec.Ready

/-!
# Specification: designs that differ only in their colours
-/
namespace Boxes.Spec

/-- Two shapes that differ only in escape sequences: the lines show the same, and they are identical or both analysed texts. -/
structure RecolouredShape (db : CharDb) (s s' : Shape) : Prop where
  height : s'.height = s.height
  width : s'.width = s.width
  elastic : s'.elastic = s.elastic
  count : s'.lines.length = s.lines.length
  lines : ∀ (i : Nat) b b', s.lines[i]? = some b → s'.lines[i]? = some b' →
    ShowSame b.memory b'.memory ∧ (b' = b ∨ (fromUnicode db b.memory = some b ∧ fromUnicode db b'.memory = some b'))

/-- Two designs that differ only in escape sequences. -/
structure Recoloured (db : CharDb) (d d' : Design) : Prop where
  shapes : ∀ n, RecolouredShape db (d.shape n) (d'.shape n)
  indentmode : d'.indentmode = d.indentmode
  minwidth : d'.minwidth = d.minwidth
  minheight : d'.minheight = d.minheight
  padding : d'.padding = d.padding

end Boxes.Spec
