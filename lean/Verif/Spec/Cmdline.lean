import Verif.Spec.Query

/-!
# Specification: what the options on the command line mean
-/
namespace Boxes.Spec

/-- the letter `w` in lower or upper case -/
def Either (w : Char) (c : Nat) : Prop := c = w.toNat ∨ c = w.toUpper.toNat

/-- the value of a sequence of decimal digits -/
def number : Str → Nat
  | [] => 0
  | d :: rest => (d - '0'.toNat) * 10 ^ rest.length + number rest

/-- white space in the sense of the C library -/
def CSpace (c : Nat) : Prop := c = ' '.toNat ∨ ('\t'.toNat ≤ c ∧ c ≤ '\r'.toNat)

/-- `t` is an integer of value `v` as the C library reads it: white space, an optional sign, at least one digit -/
def Numeral (t : Str) (v : Int) : Prop :=
  ∃ blanks sign ds : Str, t = blanks ++ sign ++ ds ∧ (∀ c ∈ blanks, CSpace c) ∧ ds ≠ [] ∧ (∀ c ∈ ds, Digit c) ∧
    ((sign = [] ∧ v = number ds) ∨ (sign = ['+'.toNat] ∧ v = number ds) ∨ (sign = ['-'.toNat] ∧ v = - (number ds : Int)))

/-- `s` begins with an integer, and `rest` is what follows it -/
def Begins (s : Str) (v : Int) (rest : Str) : Prop :=
  ∃ t, s = t ++ rest ∧ Numeral t v ∧ ∀ c ∈ rest.head?, ¬ Digit c

/-- the number at the beginning of a text, zero if there is none -/
def Leading (s : Str) (v : Int) : Prop :=
  (∃ rest, Begins s v rest) ∨ (v = 0 ∧ ∀ w rest, ¬ Begins s w rest)

/-- `v` is a number that a `long` of 64 bits can hold -/
def Long (v : Int) : Prop := -(2 ^ 63) ≤ v ∧ v < 2 ^ 63

/-- what is left of the number `v` in an `int` of 32 bits -/
def Wraps (v w : Int) : Prop := -(2 ^ 31) ≤ w ∧ w < 2 ^ 31 ∧ (2 ^ 32 : Int) ∣ v - w

/-- the last of the values in a list, or the value from before -/
def latest {α β : Type} (f : α → Option β) (l : List α) (before : β) : β := (l.filterMap f).getLast?.getD before

/-! ## Padding -/

/-- part of a padding option: a letter, the text behind it, and the size it stands for -/
structure Area where
  letter : Nat
  text : Str
  size : Int

/-- the sides of a box -/
inductive Edge where
  | top | right | bottom | left

/-- the letter speaks about the side -/
def Covers (c : Nat) : Edge → Prop
  | .top => Either 'a' c ∨ Either 'v' c ∨ Either 't' c
  | .right => Either 'a' c ∨ Either 'h' c ∨ Either 'r' c
  | .bottom => Either 'a' c ∨ Either 'v' c ∨ Either 'b' c
  | .left => Either 'a' c ∨ Either 'h' c ∨ Either 'l' c

instance (c : Nat) (e : Edge) : Decidable (Covers c e) := by
  cases e <;> unfold Covers Either <;> infer_instance

/-- the size an area gives to a side, if it does -/
def Area.on (e : Edge) (a : Area) : Option Int := if Covers a.letter e then some a.size else none

/-- An area as it is documented: a letter with a number that an `int` can hold. -/
def Area.Documented (a : Area) : Prop :=
  (∃ e, Covers a.letter e) ∧ a.text ≠ [] ∧ (∀ c ∈ a.text, Digit c) ∧ a.size = number a.text ∧ a.size < 2 ^ 31

/-- An area as it is accepted: the number may be missing, then it is zero; it may have blanks and a sign in front of it; of a
number that an `int` cannot hold something else is left. -/
def Area.Tolerated (a : Area) : Prop :=
  (∃ e, Covers a.letter e) ∧
    ((a.text = [] ∧ a.size = 0) ∨ (∃ v, Numeral a.text v ∧ Long v ∧ Wraps v a.size ∧ 0 ≤ a.size))

/-- the text of a padding option -/
def areasText (l : List Area) : Str := (l.map (fun a => a.letter :: a.text)).flatten

/-! ## Alignment -/

/-- what a part of an alignment option sets -/
inductive Placing where
  | horizontal (x : Char)
  | vertical (x : Char)
  | justify (x : Char)
  | shorthand (x : Char)

/-- how it is spelled -/
inductive Spells : Str → Placing → Prop
  | horizontal {a b : Nat} {x : Char} : Either 'h' a → x ∈ ['l', 'c', 'r'] → Either x b → Spells [a, b] (.horizontal x)
  | vertical {a b : Nat} {x : Char} : Either 'v' a → x ∈ ['t', 'c', 'b'] → Either x b → Spells [a, b] (.vertical x)
  | justify {a b : Nat} {x : Char} : Either 'j' a → x ∈ ['l', 'c', 'r'] → Either x b → Spells [a, b] (.justify x)
  | shorthand {a : Nat} {x : Char} : x ∈ ['l', 'c', 'r'] → Either x a → Spells [a] (.shorthand x)

def Placing.halign : Placing → Option Char
  | .horizontal x => some x
  | .shorthand x => some x
  | _ => none
def Placing.valign : Placing → Option Char
  | .vertical x => some x
  | .shorthand _ => some 'c'
  | _ => none
def Placing.just : Placing → Option Char
  | .justify x => some x
  | .shorthand x => some x
  | _ => none

/-! ## Tabs and sizes -/

/-- the letter of a way to treat tabs -/
inductive TabMode : Str → Char → Char → Prop
  | none (old : Char) : TabMode [] old old
  | letter {c : Nat} {x : Char} (old : Char) : x ∈ ['e', 'k', 'u'] → Either x c → TabMode [c] old x

/-- how the argument of the size option is split: the text of the width and the text of the height, where there is one -/
inductive SizeParts : Str → Option Str → Option Str → Prop
  | width {s : Str} : 'x'.toNat ∉ s → 'X'.toNat ∉ s → SizeParts s (some s) none
  | height {b : Str} : SizeParts ('x'.toNat :: b) none (some b)
  | heightUpper {b : Str} : 'x'.toNat ∉ b → SizeParts ('X'.toNat :: b) none (some b)
  | both {a b : Str} : a ≠ [] → 'x'.toNat ∉ a → SizeParts (a ++ 'x'.toNat :: b) (some a) (some b)
  | bothUpper {a b : Str} : a ≠ [] → 'x'.toNat ∉ a → 'x'.toNat ∉ b → 'X'.toNat ∉ a →
      SizeParts (a ++ 'X'.toNat :: b) (some a) (some b)

/-- the size in a text, or the one from before if there is no text -/
def SizeIs (text : Option Str) (before v : Int) : Prop :=
  match text with
  | none => v = before
  | some t => Leading t v ∧ Long v

/-! ## Words -/

/-- the line break a word stands for -/
inductive LineBreak : Str → Str → Prop
  | crlf {s : Str} : Word "crlf" s → LineBreak s ['\r'.toNat, '\n'.toNat]
  | lf {s : Str} : Word "lf" s → LineBreak s ['\n'.toNat]
  | cr {s : Str} : Word "cr" s → LineBreak s ['\r'.toNat]

/-- `s` abbreviates the word `w`, in any case -/
def ShortFor (w : String) (s : Str) : Prop := s.map lower <+: w.toList.map Char.toNat

/-- the indentation mode a word stands for; the empty word stands for `box` -/
inductive IndentWord : Str → Char → Prop
  | box {s : Str} : ShortFor "box" s → IndentWord s 'b'
  | text {s : Str} : s ≠ [] → ShortFor "text" s → IndentWord s 't'
  | none {s : Str} : s ≠ [] → ShortFor "none" s → IndentWord s 'n'

end Boxes.Spec
