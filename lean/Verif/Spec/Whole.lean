import Verif.Model.Whole
import Verif.Spec.Main
import Verif.Spec.Query
import Verif.Spec.Cmdline

/-!
# Specification: the complete program
-/
namespace Boxes.Spec
open ShapeName

/-- The text to be printed for lines with their line ends: each line is shown with its escape sequences if colours are used, and
without them otherwise. -/
inductive PrintedText (db : CharDb) (color : Bool) : List (Bxs × Str) → Str → Prop
  | nil : PrintedText db color [] []
  | cons {b : Bxs} {e t text : Str} {more : List (Bxs × Str)} : Shown db color b t → PrintedText db color more text →
      PrintedText db color ((b, e) :: more) (t ++ e ++ text)

/-- There are at most two file names, the first of a file that can be read, the second of one that can be written; a single hyphen
stands for standard input or output. -/
def UsableFiles (canRead canWrite : Str → Bool) (files : List Str) : Prop :=
  files.length ≤ 2 ∧ (∀ f, files[0]? = some f → f = lit "-" ∨ canRead f = true) ∧ (∀ f, files[1]? = some f → f = lit "-" ∨ canWrite f = true)

/-- the file name at a position, `none` if there is none or it is a hyphen -/
def named (files : List Str) (k : Nat) : Option Str := (files[k]?).filter (fun f => decide (f ≠ lit "-"))

/-- Are colours used?  The last one of the options for and against them counts; without any, the terminal decides. -/
def colours (opts : List Option') (terminal : Bool) : Bool :=
  latest (fun x => match x with | .color => some true | .noColor => some false | _ => none) opts terminal

/-- The box that is drawn around an input, see `C16_drawing`: lines `out` with their line ends. -/
def Drawing (db : CharDb) (opt : Opt) (d : Design) (fuel : Nat) (pieces : List Str) (out : List (Bxs × Str)) : Prop :=
  ∃ (j : Input) (d' : Design) (box : Sides Shape) (us ls : List (Str × Str)) (above below lp rp s e : Nat),
    d' = adjustSizeAndPadding opt d j ∧ generateBox db d' j fuel = some (.ok box) ∧
    us.length = pieces.length ∧ ls.length = pieces.length ∧ j.lines.length = pieces.length ∧
    LeastIndent db (us.map Prod.snd) j.indent ∧
    (∀ p ∈ ls, columns db p.2 ≤ j.maxline) ∧ (∃ p ∈ ls, columns db p.2 = j.maxline) ∧
    (∀ (i : Nat) s, pieces[i]? = some s → ∃ (u p : Str × Str) (q z y : Str), us[i]? = some u ∧ ls[i]? = some p ∧
      s = q ++ z ∧ Text z y ∧ (∀ c ∈ y, db.white c = true) ∧ EndsVisibly db q z ∧ Expand opt.tabstop 0 q u.1 ∧ Text u.1 u.2 ∧
      Unindented db (if d.indentmode = 't' then 0 else j.indent) u p) ∧
    above = linesAbove opt d' box ls.length ∧
    box.top.height + above + ls.length + below + box.bottom.height = box.right.height ∧
    lp = columnsLeft opt d' box j.maxline ∧ lp + j.maxline + rp = box.top.width ∧
    NumberIf (BlankSide db d [NW, NNW, N, NNE, NE]) box.top.height s ∧
    NumberIf (BlankSide db d [SE, SSE, S, SSW, SW]) box.bottom.height e ∧
    s + out.length + e = box.right.height ∧
    ∀ t, t < out.length → ∃ row i m r' eol,
      RowAt db opt d' j ls box above below lp rp (s + t) i m ∧
      Row opt d' j box (BlankSide db d [SW, WSW, W, WNW, NW]) (s + t) i m row.memory ∧
      fromUnicode db row.memory = some row ∧ row.rtrim db = some r' ∧
      out[t]? = some (r', eol) ∧ (EndsInBreak pieces ∨ t + 1 ≠ out.length → eol = opt.eol) ∧
      (¬ EndsInBreak pieces ∧ t + 1 = out.length → eol = [])

/-- The lines that are printed when the design was created from the text `cld` (which shows `v`), see `C67_output` -/
def Commented (db : CharDb) (opt : Opt) (cld v : Str) (pieces : List Str) (out : List (Bxs × Str)) : Prop :=
  ∃ (us : List (Str × Str)) (mode : Char) (n : Nat), out.length = pieces.length ∧
    us.length = pieces.length ∧ LeastIndent db (us.map Prod.snd) n ∧
    mode = (if opt.indentmode = '\x00' then 'b' else opt.indentmode) ∧
    ∀ (i : Nat) s, pieces[i]? = some s → ∃ (u p : Str × Str) (q z y t ind : Str) (x : Nat) (b : Bxs), us[i]? = some u ∧
      s = q ++ z ∧ Text z y ∧ (∀ c ∈ y, db.white c = true) ∧ EndsVisibly db q z ∧ Expand opt.tabstop 0 q u.1 ∧ Text u.1 u.2 ∧
      Unindented db (if mode = 't' then 0 else n) u p ∧
      t <:+ p.1 ∧ (p.2 ≠ [] → t = p.1) ∧
      ind = (if mode = 'b' then spaces n else []) ∧
      b.memory <+: ind ++ cld ++ spaces 1 ++ t ++ spaces x ∧
      Text b.memory (dropTrailing db (ind ++ v ++ spaces 1 ++ p.2)) ∧
      ∃ e, out[i]? = some (b, e) ∧ (i + 1 = pieces.length ∧ ¬ EndsInBreak pieces → e = []) ∧
        (i + 1 ≠ pieces.length ∨ EndsInBreak pieces → e = opt.eol)

end Boxes.Spec
