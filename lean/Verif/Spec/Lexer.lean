import Verif.Spec.Text

/-!
# Specification: quoted strings in configuration files
-/
namespace Boxes.Spec

/-- `Quoted e d raw text`: written between delimiters `d`, the characters `raw` mean `text`.  The escape character `e` takes the
special meaning away from the character that follows it. -/
inductive Quoted (e d : Nat) : Str → Str → Prop
  | nil : Quoted e d [] []
  | plain (c : Nat) {raw text : Str} : c ≠ e → c ≠ d → Quoted e d raw text → Quoted e d (c :: raw) (c :: text)
  | escaped (c : Nat) {raw text : Str} : Quoted e d raw text → Quoted e d (e :: c :: raw) (c :: text)

/-- `Escaped s t`: `t` is the text `s` with a backslash in front of each backslash and each quote, escape sequences being left as
they are. -/
inductive Escaped : Str → Str → Prop
  | nil : Escaped [] []
  | special (c : Nat) {s t : Str} : (c = '\\'.toNat ∨ c = '"'.toNat) → Escaped s t → Escaped (c :: s) ('\\'.toNat :: c :: t)
  | other (c : Nat) {s t : Str} : c ≠ 0x1b → c ≠ '\\'.toNat → c ≠ '"'.toNat → Escaped s t → Escaped (c :: s) (c :: t)
  | esc (q : Str) {s t : Str} : EscSeq q → Escaped s t → Escaped (q ++ s) (q ++ t)

/-- No escape sequence of the text contains a backslash or a quote. -/
inductive PlainSequences : Str → Prop
  | nil : PlainSequences []
  | vis (c : Nat) {s : Str} : c ≠ 0x1b → PlainSequences s → PlainSequences (c :: s)
  | esc (q : Str) {s : Str} : EscSeq q → '\\'.toNat ∉ q → '"'.toNat ∉ q → PlainSequences s → PlainSequences (q ++ s)

end Boxes.Spec
