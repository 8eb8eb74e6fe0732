import Verif.Model.Unicode

/-!
# Specification: text with ANSI escape sequences

Independent of the scanning code: a text is built from visible characters and complete escape sequences.
-/
namespace Boxes.Spec

/-- A complete escape sequence: ESC plus one character from `@`..`_`, or a control sequence `ESC [` / `ESC (`,
parameter characters, and a final character from `@`..`~`. -/
inductive EscSeq : Str → Prop
  | two (c : Nat) : 0x40 ≤ c → c ≤ 0x5f → c ≠ 0x5b → EscSeq [0x1b, c]
  | csi (o : Nat) (params : Str) (f : Nat) : (o = 0x5b ∨ o = 0x28) →
      (∀ p ∈ params, ¬ (0x40 ≤ p ∧ p ≤ 0x7e)) → 0x40 ≤ f → f ≤ 0x7e → EscSeq (0x1b :: o :: (params ++ [f]))

/-- `Text s v`: the string `s` consists of the visible characters `v` and complete escape sequences. -/
inductive Text : Str → Str → Prop
  | nil : Text [] []
  | vis (c : Nat) {s v : Str} : c ≠ 0x1b → Text s v → Text (c :: s) (c :: v)
  | esc (e : Str) {s v : Str} : EscSeq e → Text s v → Text (e ++ s) v

/-- An escape sequence that ends the effect of earlier ones: no parameter, `0`, or one of the codes 10, 39, 49, 59, 75. -/
inductive ResetSeq : Str → Prop
  | mk (o : Nat) (params : Str) (f : Nat) : (o = 0x5b ∨ o = 0x28) →
      params ∈ [[], [0x30], [0x31, 0x30], [0x33, 0x39], [0x34, 0x39], [0x35, 0x39], [0x37, 0x35]] →
      0x40 ≤ f → f ≤ 0x7e → ResetSeq (0x1b :: o :: (params ++ [f]))

/-- Display width of a visible character: printable ASCII characters and tabs take one column, other characters what
the character database says, control characters nothing. -/
def width (db : CharDb) (c : Nat) : Nat :=
  if (0x20 ≤ c ∧ c < 0x7f) ∨ c = 0x09 then 1 else (max 0 (db.width c)).toNat

/-- Display width of a visible text -/
def columns (db : CharDb) (v : Str) : Nat := (v.map (width db)).sum

/-- A blank character: tab or a Unicode blank -/
def Blank (db : CharDb) (c : Nat) : Prop := c = 0x09 ∨ db.ucBlank c = true

instance (db : CharDb) (c : Nat) : Decidable (Blank db c) := by unfold Blank; infer_instance

/-- ASCII form of a visible text, of the same display width: printable ASCII characters as they are, blanks as spaces, all
others as `x`. -/
def asciiForm (db : CharDb) (v : Str) : Str :=
  v.flatMap (fun c => if 0x20 ≤ c ∧ c < 0x7f then [c] else List.replicate (width db c) (if Blank db c then 0x20 else 0x78))

/-- Number of blanks at the beginning of a visible text -/
def leadingBlanks (db : CharDb) (v : Str) : Nat := (v.takeWhile (fun c => decide (Blank db c))).length

/-- A visible text without its trailing blanks -/
def dropTrailing (db : CharDb) (v : Str) : Str := (v.reverse.dropWhile (fun c => decide (Blank db c))).reverse

/-- Character the program refuses in any text: a control character other than tab, CR, LF, ESC. -/
def Forbidden (db : CharDb) (c : Nat) : Prop := db.cntrl c = true ∧ c ≠ 0x09 ∧ c ≠ 0x0d ∧ c ≠ 0x0a ∧ c ≠ 0x1b

instance (db : CharDb) (c : Nat) : Decidable (Forbidden db c) := by unfold Forbidden; infer_instance

/-- `From n s v p`: `p` is the part of the text `s` (visible characters `v`) that begins with visible character number `n`.  The escape
sequence directly in front of that character belongs to it unless it is a reset; earlier ones do not.  Behind the last character there is
nothing. -/
def From (n : Nat) (s v p : Str) : Prop :=
  (v.length ≤ n ∧ p = []) ∨
  ∃ a e c q, s = a ++ p ∧ p = e ++ c :: q ∧ v[n]? = some c ∧ Text a (v.take n) ∧ Text q (v.drop (n + 1)) ∧
    ((EscSeq e ∧ ¬ ResetSeq e) ∨ (e = [] ∧ ∀ a' e', a = a' ++ e' → Text a' (v.take n) → EscSeq e' → ResetSeq e'))

/-- Nothing in front of the first visible character is lost when the text is cut there: at most one escape sequence, which is no reset. -/
def FrontKept (s : Str) : Prop := s = [] ∨ ∃ e c r, s = e ++ c :: r ∧ c ≠ 0x1b ∧ (e = [] ∨ (EscSeq e ∧ ¬ ResetSeq e))

/-- Nothing behind the last visible character is lost when the text is cut there: if the text ends in an escape sequence, it is a reset. -/
def BackKept (s : Str) : Prop := ∀ a u e, s = a ++ e → Text a u → EscSeq e → ResetSeq e

end Boxes.Spec
