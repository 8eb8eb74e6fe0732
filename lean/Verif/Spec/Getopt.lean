import Verif.Model.Cmdline

/-!
# Specification: how options are written

`Reading argv options files`: the words `argv` are the options `options`, in this order, and the file names `files`.
-/
namespace Boxes.Spec

/-- options without a value, and their letters -/
def switchLetters : List (Char × Option') := [('h', .help), ('l', .list), ('m', .mend), ('r', .remove), ('v', .version)]

/-- options with a value, and their letters -/
def valueLetters : List (Char × (Str → Option')) := [('a', .align), ('c', .create), ('d', .design), ('e', .eol), ('f', .config), ('i', .indent),
  ('k', .kill), ('n', .encoding), ('p', .padding), ('q', .query), ('s', .size), ('t', .tabs), ('x', .extra)]

/-- options without a value, and their names -/
def switchWords : List (String × Option') := [("color", .color), ("no-color", .noColor), ("help", .help), ("kill-blank", .killBlank),
  ("no-kill-blank", .noKillBlank), ("list", .list), ("mend", .mend), ("remove", .remove), ("version", .version)]

/-- options with a value, and their names -/
def valueWords : List (String × (Str → Option')) := [("align", .align), ("create", .create), ("design", .design), ("eol", .eol),
  ("config", .config), ("indent", .indent), ("encoding", .encoding), ("padding", .padding), ("tag-query", .query), ("size", .size),
  ("tabs", .tabs), ("extra", .extra)]

/-- the characters of a word -/
def word (s : String) : Str := s.toList.map Char.toNat

/-- The text `w` calls the option named `k`: by its full name, or by a beginning of it with which no other name begins. -/
def Calls (w : Str) (k : String) : Prop :=
  w = word k ∨ (w <+: word k ∧ ∀ k' ∈ switchWords.map (·.1) ++ valueWords.map (·.1), w <+: word k' → k' = k)

/-- a sequence of letters of options without a value -/
inductive Letters : Str → List Option' → Prop
  | nil : Letters [] []
  | cons {cs : Str} {os : List Option'} (c : Char) (o : Option') : (c, o) ∈ switchLetters → Letters cs os → Letters (c.toNat :: cs) (o :: os)

/-- a word which is not an option -/
def IsFile (w : Str) : Prop := w.head? ≠ some '-'.toNat ∨ w = word "-"

inductive Reading : List Str → List Option' → List Str → Prop
  /-- no words -/
  | done : Reading [] [] []
  /-- two dashes: all that follows are file names -/
  | stop (rest : List Str) : Reading (word "--" :: rest) [] rest
  /-- a file name -/
  | file {ws : List Str} {os : List Option'} {fs : List Str} (w : Str) : IsFile w → Reading ws os fs → Reading (w :: ws) os (w :: fs)
  /-- a dash and letters of options without a value -/
  | letters {ws : List Str} {os : List Option'} {fs : List Str} (cs : Str) (ls : List Option') : cs ≠ [] → Letters cs ls →
      Reading ws os fs → Reading (('-'.toNat :: cs) :: ws) (ls ++ os) fs
  /-- the last letter is that of an option with a value, followed by the value -/
  | attached {ws : List Str} {os : List Option'} {fs : List Str} (cs : Str) (ls : List Option') (c : Char) (f : Str → Option') (v : Str) :
      Letters cs ls → (c, f) ∈ valueLetters → v ≠ [] →
      Reading ws os fs → Reading (('-'.toNat :: (cs ++ c.toNat :: v)) :: ws) (ls ++ f v :: os) fs
  /-- the value is the next word, whatever it is -/
  | separate {ws : List Str} {os : List Option'} {fs : List Str} (cs : Str) (ls : List Option') (c : Char) (f : Str → Option') (v : Str) :
      Letters cs ls → (c, f) ∈ valueLetters →
      Reading ws os fs → Reading (('-'.toNat :: (cs ++ [c.toNat])) :: v :: ws) (ls ++ f v :: os) fs
  /-- two dashes and the name of an option without a value -/
  | long {ws : List Str} {os : List Option'} {fs : List Str} (w : Str) (k : String) (o : Option') : Calls w k → (k, o) ∈ switchWords →
      Reading ws os fs → Reading ((word "--" ++ w) :: ws) (o :: os) fs
  /-- two dashes, the name of an option with a value, an equals sign and the value -/
  | longAttached {ws : List Str} {os : List Option'} {fs : List Str} (w : Str) (k : String) (f : Str → Option') (v : Str) : Calls w k →
      (k, f) ∈ valueWords → Reading ws os fs → Reading ((word "--" ++ w ++ '='.toNat :: v) :: ws) (f v :: os) fs
  /-- the value is the next word -/
  | longSeparate {ws : List Str} {os : List Option'} {fs : List Str} (w : Str) (k : String) (f : Str → Option') (v : Str) : Calls w k →
      (k, f) ∈ valueWords → Reading ws os fs → Reading ((word "--" ++ w) :: v :: ws) (f v :: os) fs

end Boxes.Spec
