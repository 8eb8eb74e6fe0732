import Verif.Spec.Text
import Verif.Model.Regex

/-!
# Specification: replacement and reversion rules, replacement by regular expression
-/
namespace Boxes.Spec

/-- The texts that come of `s` when the rules are applied one after the other, each to what the one before it made; `none` if a rule fails. -/
def stages : List (Str → Option Str) → Str → Option (List Str)
  | [], _ => some []
  | f :: fs, s => (f s).bind (fun t => (stages fs t).map (t :: ·))

/-- The texts that come up while the rules are applied, as far as they succeed. -/
def attempts : List (Str → Option Str) → Str → List Str
  | [], _ => []
  | f :: fs, s =>
    match f s with
    | none => []
    | some t => t :: attempts fs t

/-- the largest of some numbers, and of `m` -/
def largest (m : Nat) (l : List Nat) : Nat := l.foldl max m

/-- What PCRE2 documents about `pcre2_substitute` with `PCRE2_SUBSTITUTE_OVERFLOW_LENGTH`: the result of the substitution does not depend on the
buffer.  If it is the text `t`, it is written to the buffer together with a NUL if there is room for both; otherwise the return code tells that
there is not enough memory, and the length that is needed (with the NUL) is stored.  If the substitution fails, the return code is another
negative one. -/
def Pcre2 (call : Nat → SubstCall) (result : Option Str) : Prop :=
  match result with
  | some t => ∀ n, if t.length + 1 ≤ n then 0 ≤ (call n).rc ∧ (call n).written = t ∧ (call n).outlen = t.length
      else (call n).rc = -48 ∧ (call n).outlen = t.length + 1
  | none => ∀ n, (call n).rc < 0 ∧ (call n).rc ≠ -48

end Boxes.Spec
