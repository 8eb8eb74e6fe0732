import Verif.Spec.Text

/-! # Specification: tab expansion, identifiers, yes/no words, substring search -/
namespace Boxes.Spec

/-- `Expand ts col s t`: replacing the tabs of `s`, which starts at column `col`, gives `t`.  A tab becomes between one and
`ts` spaces and ends at a multiple of `ts`; everything else stays. -/
inductive Expand (ts : Nat) : Nat → Str → Str → Prop
  | nil (col : Nat) : Expand ts col [] []
  | char {col : Nat} (c : Nat) {s t : Str} : c ≠ 0x09 → Expand ts (col + 1) s t → Expand ts col (c :: s) (c :: t)
  | tab {col : Nat} (n : Nat) {s t : Str} : 1 ≤ n → n ≤ ts → ts ∣ col + n → Expand ts (col + n) s t →
      Expand ts col (0x09 :: s) (List.replicate n 0x20 ++ t)

/-- number of columns a tab at column `t` covers -/
def tabCols (ts t : Nat) : Nat := ts - t % ts

/-- the tabs of a recorded list that lie completely within the first `L` columns, up to the first that does not -/
def fitting (ts L : Nat) (tabpos : List Nat) : List Nat := tabpos.takeWhile (fun t => decide (t + tabCols ts t ≤ L))

/-- letters of an identifier; `strict`: lower case only -/
def Letter (strict : Bool) (c : Nat) : Prop :=
  ('a'.toNat ≤ c ∧ c ≤ 'z'.toNat) ∨ (strict = false ∧ 'A'.toNat ≤ c ∧ c ≤ 'Z'.toNat)

/-- separators in an identifier: `-`, and `_` unless `strict` -/
def Separator (strict : Bool) (c : Nat) : Prop := c = '-'.toNat ∨ (strict = false ∧ c = '_'.toNat)

/-- decimal digits -/
def Digit (c : Nat) : Prop := '0'.toNat ≤ c ∧ c ≤ '9'.toNat

/-- The lexical rule for design names (`strict = false` also allows upper case and `_`) and tags. -/
structure Identifier (strict : Bool) (s : Str) : Prop where
  starts : ∃ c r, s = c :: r ∧ Letter strict c
  chars : ∀ c ∈ s, Letter strict c ∨ Digit c ∨ Separator strict c
  no_double : ∀ a x y b, s = a ++ x :: y :: b → ¬ (Separator strict x ∧ Separator strict y)
  no_sep_end : ∀ a x, s = a ++ [x] → ¬ Separator strict x
  not_reserved : ¬ ("none".toList.map Char.toNat) <+: s

/-- ASCII letters compared without regard to case -/
def lower (c : Nat) : Nat := if 'A'.toNat ≤ c ∧ c ≤ 'Z'.toNat then c + 32 else c

/-- `w` is the word written `s`, in any case -/
def Word (w : String) (s : Str) : Prop := s.map lower = w.toList.map Char.toNat

/-- documented ways of saying yes -/
def Yes (s : Str) : Prop := Word "on" s ∨ Word "yes" s ∨ Word "true" s ∨ Word "1" s ∨ Word "t" s
/-- documented ways of saying no -/
def No (s : Str) : Prop := Word "off" s ∨ Word "no" s ∨ Word "false" s ∨ Word "0" s ∨ Word "f" s

/-- `needle` occurs in `haystack` at position `p` -/
def OccursAt (haystack needle : Str) (p : Nat) : Prop := ∃ a b, haystack = a ++ needle ++ b ∧ a.length = p

end Boxes.Spec
