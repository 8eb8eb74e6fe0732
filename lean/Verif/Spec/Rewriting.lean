import Verif.Spec.Rules
import Verif.Spec.Whole

/-!
# Specification: boxes of designs with replacement rules
-/
namespace Boxes.Spec
open ShapeName

/-- The rules make only texts of `s` that the program can handle. -/
def TameRules (db : CharDb) (rules : List (Str → Option Str)) (s : Str) : Prop :=
  ∀ t ∈ attempts rules s, ∃ w, Text t w ∧ Legit db w

/-- what is left of an input line: its beginning, with tabs expanded, without its first characters -/
def Remainder (tabstop : Nat) (line s : Str) : Prop := ∃ q u, q <+: line ∧ Expand tabstop 0 q u ∧ s <:+ u

/-- The input lines become the texts `us` (without trailing white space, tabs expanded) and, without the common indentation, the
texts `ls`, see `C16_drawing`. -/
def ReadAs (db : CharDb) (opt : Opt) (d : Design) (pieces : List Str) (us ls : List (Str × Str)) : Prop :=
  us.length = pieces.length ∧ ls.length = pieces.length ∧
  ∃ n, LeastIndent db (us.map Prod.snd) n ∧
    ∀ (i : Nat) s, pieces[i]? = some s → ∃ (u p : Str × Str) (q z y : Str), us[i]? = some u ∧ ls[i]? = some p ∧
      s = q ++ z ∧ Text z y ∧ (∀ c ∈ y, db.white c = true) ∧ EndsVisibly db q z ∧ Expand opt.tabstop 0 q u.1 ∧ Text u.1 u.2 ∧
      Text p.1 p.2 ∧ Unindented db (if d.indentmode = 't' then 0 else n) u p

/-- The rules make the texts `ws` of the texts `ls`, each rule working on the result of the rule before it; `m` is the number of columns
of the widest text that comes up on the way. -/
def RewrittenTo (db : CharDb) (rules : List (Str → Option Str)) (ls ws : List (Str × Str)) (m : Nat) : Prop :=
  ws.length = ls.length ∧
  (∀ (i : Nat) p, ls[i]? = some p → ∃ ss w, stages rules p.1 = some ss ∧ ws[i]? = some w ∧ w.1 = ss.getLast?.getD p.1 ∧ Text w.1 w.2) ∧
  (∀ p ∈ ls, columns db p.2 ≤ m) ∧
  (∀ p ∈ ls, ∀ ss, stages rules p.1 = some ss → ∀ s ∈ ss, ∀ v, Text s v → columns db v ≤ m) ∧
  ((∃ p ∈ ls, columns db p.2 = m) ∨ ∃ p ∈ ls, ∃ ss, stages rules p.1 = some ss ∧ ∃ s ∈ ss, ∃ v, Text s v ∧ columns db v = m)

/-- A box around the texts `ls`: the rows between the sides, see `C16_drawing`. -/
def BoxDrawn (db : CharDb) (opt : Opt) (d : Design) (fuel : Nat) (j : Input) (ls : List (Str × Str)) (endsInBreak : Prop)
    (out : List (Bxs × Str)) : Prop :=
  ∃ (d' : Design) (box : Sides Shape) (above below lp rp s e : Nat),
    d' = adjustSizeAndPadding opt d j ∧ generateBox db d' j fuel = some (.ok box) ∧
    above = linesAbove opt d' box ls.length ∧
    box.top.height + above + ls.length + below + box.bottom.height = box.right.height ∧
    lp = columnsLeft opt d' box j.maxline ∧ lp + j.maxline + rp = box.top.width ∧
    NumberIf (BlankSide db d [NW, NNW, N, NNE, NE]) box.top.height s ∧
    NumberIf (BlankSide db d [SE, SSE, S, SSW, SW]) box.bottom.height e ∧
    s + out.length + e = box.right.height ∧
    ∀ t, t < out.length → ∃ row i m r' eol,
      RowAt db opt d' j ls box above below lp rp (s + t) i m ∧
      Row opt d' j box (BlankSide db d [SW, WSW, W, WNW, NW]) (s + t) i m row.memory ∧
      fromUnicode db row.memory = some row ∧ row.rtrim db = some r' ∧
      out[t]? = some (r', eol) ∧ (endsInBreak ∨ t + 1 ≠ out.length → eol = opt.eol) ∧
      (¬ endsInBreak ∧ t + 1 = out.length → eol = [])

/-- The box that is drawn around the texts that the rules make of the input. -/
def RewrittenDrawing (db : CharDb) (opt : Opt) (d : Design) (rules : List (Str → Option Str)) (fuel : Nat) (pieces : List Str)
    (out : List (Bxs × Str)) : Prop :=
  ∃ (j : Input) (us ls ws : List (Str × Str)), ReadAs db opt d pieces us ls ∧ RewrittenTo db rules ls ws j.maxline ∧
    j.lines.length = pieces.length ∧ LeastIndent db ((if d.indentmode = 't' then ws else us).map Prod.snd) j.indent ∧
    BoxDrawn db opt d fuel j ws (EndsInBreak pieces) out

end Boxes.Spec
