import Verif.Spec.RoundTrip

namespace Boxes.Spec
open ShapeName

/-- The rows are a box in which somebody has written: `ts` are the texts in the rows between the top and the bottom.  In front of a text
there are the left side and the padding; behind it there are any number of spaces and the right side, which need not be in line with the
rows above and below.  The top and the bottom may have any width. -/
structure EditedBox (db : CharDb) (d : Design) (ind lp : Nat) (ts : List Str) (rows : List Str) : Prop where
  count : rows.length = (d.shape NE).height + ts.length + (d.shape SE).height
  top : ∀ (y : Nat) row, y < (d.shape NE).height → rows[y]? = some row → EdgeRow db d true ind y row
  body : ∀ (k : Nat) t row, ts[k]? = some t → rows[(d.shape NE).height + k]? = some row → ∃ e, BodyRow db d ind (spaces lp ++ t ++ spaces e) row
  bottom : ∀ (y : Nat) row, y < (d.shape SE).height → rows[(d.shape NE).height + ts.length + y]? = some row → EdgeRow db d false ind y row

end Boxes.Spec
