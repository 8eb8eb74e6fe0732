import Verif.Spec.Query
import Verif.Model.Types

/-!
# Specification: debug messages and the option -x
-/
namespace Boxes.Spec

/-- the areas for which debug messages can be requested -/
inductive Topic where
  | main | regexp | parser | lexer | discovery
deriving DecidableEq, Repr

/-- the name of an area -/
def Topic.word : Topic → String
  | .main => "main" | .regexp => "regexp" | .parser => "parser" | .lexer => "lexer" | .discovery => "discovery"

/-- A name given by the user means an area: it is its name, or "all"; case does not matter. -/
def Names (t : Str) (k : Topic) : Prop := Word k.word t ∨ Word "all" t

/-- the text that asks for undocumented features -/
def undocWord : Str := "(undoc)".toList.map Char.toNat

/-- The argument of -x asks for undocumented features. -/
def Undoc (s : Str) : Prop := undocWord <+: s

/-- what the argument of -x says apart from that -/
def beyondUndoc (s : Str) : Str := if undocWord <+: s then s.drop undocWord.length else s

/-- The argument of -x asks for the messages about an area: `debug` alone means the area MAIN, otherwise areas follow after a colon. -/
def AsksFor (s : Str) (k : Topic) : Prop :=
  ∃ d, Word "debug" d ∧ ((beyondUndoc s = d ∧ k = .main) ∨ ∃ arg, beyondUndoc s = d ++ ':'.toNat :: arg ∧ ∃ t ∈ terms arg, Names t k)

/-- If the argument of -x begins with `debug`, nothing or a colon and known areas follow. -/
def WellSaid (s : Str) : Prop :=
  ∀ d rest, Word "debug" d → beyondUndoc s = d ++ rest → rest = [] ∨ ∃ arg, rest = ':'.toNat :: arg ∧ ∀ t ∈ terms arg, ∃ k, Names t k

/-- the file name `base` at the end of the path `m`: the path is the name alone, or it has a directory in front of it, separated by a slash, or by a
backslash if there is no slash -/
def Leaf (m base : Str) : Prop :=
  (m = base ∨ (∃ dir : Str, m = dir ++ '/'.toNat :: base) ∨ ∃ dir : Str, '/'.toNat ∉ dir ∧ m = dir ++ '\\'.toNat :: base) ∧
  '/'.toNat ∉ base ∧ '\\'.toNat ∉ base

end Boxes.Spec
