import Verif.Spec.Config

/-!
# Specification: tag queries and lists of designs
-/
namespace Boxes.Spec

/-- without the spaces and tabs at both ends -/
def strip (s : Str) : Str :=
  let blank := fun c => decide (c = ' '.toNat ∨ c = '\t'.toNat)
  ((s.dropWhile blank).reverse.dropWhile blank).reverse

/-- the terms of a query as typed by the user: separated by commas, blanks and empty terms do not count -/
def terms (arg : Str) : List Str := ((commaSplit arg).map strip).filter (fun t => decide (t ≠ []))

/-- a term that excludes the designs with a tag -/
def Minus (term tag : Str) : Prop := term = '-'.toNat :: tag
/-- a term that requires a tag -/
def Plus (term tag : Str) : Prop := term = '+'.toNat :: tag
/-- a term without a sign -/
def Unsigned (term : Str) : Prop := ∀ t, ¬ Minus term t ∧ ¬ Plus term t

/-- the tag of a term, without the sign -/
def bare (term : Str) : Str :=
  match term with
  | [] => []
  | c :: rest => if c = '+'.toNat ∨ c = '-'.toNat then rest else term

/-- the text that stands for "all designs" -/
def everything : Str := "(all)".toList.map Char.toNat

/-- A design with these tags carries the tag. -/
def Carries (tags : List Str) (tag : Str) : Prop := ∃ t ∈ tags, SameName t tag

instance (tags : List Str) (tag : Str) : Decidable (Carries tags tag) := inferInstanceAs (Decidable (∃ t ∈ tags, _))

/-- order of names, without regard to case -/
def NameLe (a b : Str) : Prop := a.map lower ≤ b.map lower

/-- texts with a separator in between -/
def joined (sep : Str) : List Str → Str
  | [] => []
  | [t] => t
  | t :: rest => t ++ sep ++ joined sep rest

/-- A text is printed as it is when colours are used, and without its escape sequences otherwise. -/
def Shown (db : CharDb) (color : Bool) (b : Bxs) (out : Str) : Prop :=
  ∃ s v, Text s v ∧ fromUnicode db s = some b ∧ out = if color then s else v

end Boxes.Spec
