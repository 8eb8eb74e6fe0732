import Verif.Spec.Text

/-!
# Specification: the sample of a design
-/
namespace Boxes.Spec

/-- `Eols eol s t`: `t` is `s` with every line end (CR LF, CR alone, LF) replaced by `eol`. -/
inductive Eols (eol : Str) : Str → Str → Prop
  | nil : Eols eol [] []
  | char (c : Nat) {s t : Str} : c ≠ '\r'.toNat → c ≠ '\n'.toNat → Eols eol s t → Eols eol (c :: s) (c :: t)
  | crlf {s t : Str} : Eols eol s t → Eols eol ('\r'.toNat :: '\n'.toNat :: s) (eol ++ t)
  | cr {s t : Str} : (∀ r, s ≠ '\n'.toNat :: r) → Eols eol s t → Eols eol ('\r'.toNat :: s) (eol ++ t)
  | lf {s t : Str} : Eols eol s t → Eols eol ('\n'.toNat :: s) (eol ++ t)

/-- the characters removed at the end of a sample -/
def EndWhite (c : Nat) : Prop := c = ' '.toNat ∨ c = '\t'.toNat ∨ c = '\r'.toNat ∨ c = '\n'.toNat

/-- a character of a line without visible content -/
def LineBlank (db : CharDb) (c : Nat) : Prop := db.ucBlank c = true ∨ c = '\r'.toNat

/-- `SampleBody db text body`: the text is `body`, with lines without content in front, and blanks and white space behind.  The
first line of `body` has content, and its last character is not blank. -/
def SampleBody (db : CharDb) (text body : Str) : Prop :=
  ∃ skipped blanks white : Str, text = skipped ++ body ++ blanks ++ white ∧
    (skipped = [] ∨ ∃ s, skipped = s ++ ['\n'.toNat]) ∧ (∀ c ∈ skipped, LineBlank db c ∨ c = '\n'.toNat) ∧
    (∃ p c q, body = p ++ c :: q ∧ (∀ x ∈ p, LineBlank db x) ∧ ¬ LineBlank db c ∧ c ≠ '\n'.toNat) ∧
    (∃ b c, body = b ++ [c] ∧ ¬ Blank db c) ∧
    (∀ c ∈ blanks, Blank db c) ∧ (∃ b c, body ++ blanks = b ++ [c] ∧ ¬ EndWhite c) ∧ (∀ c ∈ white, EndWhite c)

end Boxes.Spec
