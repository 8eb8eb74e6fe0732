import Verif.Spec.Cmdline
import Verif.Spec.Logging
import Verif.Spec.Details
import Verif.Model.Cmdline

/-! How the program explains that it refuses a command line (C94). -/

namespace Boxes.Spec
open Boxes

/-- a line of the program on standard error: its name, a reason, and what it is about -/
def tells (reason : String) (what : Str) : Str := say "boxes: " ++ say reason ++ what ++ ['\n'.toNat]

/-- the hint how to use the program -/
def usageHint : Str := say "Usage: boxes [options] [infile [outfile]]\nTry `boxes -h' for more information.\n"

/-- an integer as a decimal numeral -/
def integer10 (v : Int) : Str := if v < 0 then '-'.toNat :: number10 v.natAbs else number10 v.natAbs

/-- A term of a query that names a tag. -/
def TagTerm (t : Str) : Prop := bare t = everything ∨ Identifier true (bare t)

/-- These terms of a query are fine: they name tags, no tag twice. -/
def FineTerms (ts : List Str) : Prop := (∀ t ∈ ts, TagTerm t) ∧ ts.Pairwise (fun a b => ¬ SameName (bare a) (bare b))

/-- The distance of tab stops in the argument of `-t`: the number at its beginning, or the nearest one that a `long` can hold, reduced to an `int`. -/
def Distance (s : Str) (w : Int) : Prop := ∃ v, Leading s v ∧ Wraps (max (-(2 ^ 63)) (min (2 ^ 63 - 1) v)) w

/-- The argument of `-x` asks for debug messages about areas. -/
def Areas (s arg : Str) : Prop := ∃ d, Word "debug" d ∧ beyondUndoc s = d ++ ':'.toNat :: arg

/-- the message about an option that was refused -/
inductive Explains : Option' → Str → Prop
  | align (s : Str) : Explains (.align s) (tells "Illegal text format -- " s)
  | create : Explains (.create []) (tells "empty command line design definition" [])
  | eol (s : Str) : Explains (.eol s) (tells "invalid eol spec -- " s)
  | indent (s : Str) : Explains (.indent s) (tells "invalid indentation mode" [])
  | kill (s : Str) : Explains (.kill s) (tells "-k: invalid parameter" [])
  | padding (s : Str) : Explains (.padding s) (tells "invalid padding specification - " s)
  | noTag {s t : Str} {pre post : List Str} : terms s = pre ++ t :: post → FineTerms pre → ¬ TagTerm t → Explains (.query s) (tells "not a tag -- " (bare t))
  | twice {s t : Str} {pre post : List Str} : terms s = pre ++ t :: post → FineTerms pre → TagTerm t → (∃ e ∈ pre, SameName (bare e) (bare t)) →
      Explains (.query s) (tells "duplicate query expression -- " t)
  | noTerm {s : Str} : terms s = [] → Explains (.query s) (tells "empty tag query -- " s)
  | size {s : Str} : 'x'.toNat ∈ s ∨ 'X'.toNat ∉ s → Explains (.size s) (tells "invalid box size specification -- " s)
  | sizeUpper {a b : Str} : 'x'.toNat ∉ a → 'x'.toNat ∉ b → 'X'.toNat ∉ a →
      Explains (.size (a ++ 'X'.toNat :: b)) (tells "invalid box size specification -- " (a ++ 'x'.toNat :: b))
  | distance {s : Str} {w : Int} : Distance s w → w < 1 ∨ 16 < w → Explains (.tabs s) (tells "invalid tab stop distance -- " (integer10 w))
  | tabs {s : Str} {w : Int} : Distance s w → 1 ≤ w → w ≤ 16 → Explains (.tabs s) (tells "invalid tab handling specification - " s)
  | area {s arg t : Str} {pre post : List Str} : Areas s arg → terms arg = pre ++ t :: post → (∀ e ∈ pre, ∃ k, Names e k) → (∀ k, ¬ Names t k) →
      Explains (.extra s) (tells "invalid debug area -- " (t ++ say ". Valid values: ALL, MAIN, REGEXP, PARSER, LEXER, DISCOVERY"))
  | extra {s : Str} : (∀ arg, Areas s arg → ∀ t ∈ terms arg, ∃ k, Names t k) → Explains (.extra s) (tells "invalid option -x " s)

/-- the message about the arguments that are no options, the input file and the output file; `reason` is what the C library says about the output file -/
inductive ExplainsFiles (canRead canWrite : Str → Bool) (reason : Str) : List Str → Str → Prop
  | third {i o t : Str} {more : List Str} : ExplainsFiles canRead canWrite reason (i :: o :: t :: more) (tells "illegal parameter -- " t ++ usageHint)
  | input {i : Str} {more : List Str} : more.length ≤ 1 → i ≠ say "-" → canRead i = false →
      ExplainsFiles canRead canWrite reason (i :: more) (tells "Can't open input file -- " i)
  | output {i o : Str} : i = say "-" ∨ canRead i = true → o ≠ say "-" → canWrite o = false →
      ExplainsFiles canRead canWrite reason [i, o] (tells "" reason)

end Boxes.Spec
