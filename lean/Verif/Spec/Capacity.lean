import Verif.Spec.Text
import Verif.Model.Bxs

/-!
# Specification: the memory for texts
-/
namespace Boxes.Spec

/-- The room a text takes on a terminal if escape sequences are taken for text: the widths of all its characters, where control
characters have none. -/
def room (db : CharDb) (s : Str) : Nat := (s.map (fun c => (max 0 (db.width c)).toNat)).sum

/-- Widths as libunistring gives them: printable ASCII characters take one column, control characters such as the tab none, no
character more than two. -/
structure Widths (db : CharDb) : Prop where
  ascii : ∀ c, 0x20 ≤ c → c < 0x7f → db.width c = 1
  tab : db.width 0x09 ≤ 0
  two : ∀ c, db.width c ≤ 2

/-- What shows a visible character in the ASCII form of `count_invisible_chars`: itself, or an `x` for each of its columns -/
def shown (db : CharDb) (c : Nat) : Str := if 0x20 ≤ c ∧ c < 0x7f then [c] else List.replicate (max 0 (db.width c)).toNat 0x78

/-- `ShownAs db pos s a m n`: the text `s`, which begins at position `pos` of a longer text, has the ASCII form `a` and `n` escape
sequences; `m` has for each character of `a` the position of the character it stands for. -/
inductive ShownAs (db : CharDb) : Nat → Str → Str → List Nat → Nat → Prop
  | nil (pos : Nat) : ShownAs db pos [] [] [] 0
  | vis (c : Nat) {pos : Nat} {s a : Str} {m : List Nat} {n : Nat} : c ≠ 0x1b → ShownAs db (pos + 1) s a m n →
      ShownAs db pos (c :: s) (shown db c ++ a) (List.replicate (shown db c).length pos ++ m) n
  | esc (e : Str) {pos : Nat} {s a : Str} {m : List Nat} {n : Nat} : EscSeq e → ShownAs db (pos + e.length) s a m n →
      ShownAs db pos (e ++ s) a m (n + 1)

/-- What the fields of a string say about its buffers is true: the number of characters, of columns, and of visible characters. -/
structure Sized (b : Bxs) : Prop where
  chars : b.memory.length = b.numChars
  columns : b.ascii.length = b.cols
  first : b.firstChar.length = b.vis + 1
  visible : b.visChar.length = b.vis + 1

end Boxes.Spec
