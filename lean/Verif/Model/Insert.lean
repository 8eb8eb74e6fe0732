import Verif.Model.Unicode

/-!
# Model of `u32_insert_space_at` (`src/unicode.c`) on blocks of memory
-/
namespace Boxes

/-- A block of memory of 32-bit places; `none` is a place that has not been written since it was allocated. -/
abbrev Block := List (Option Nat)

/-- `u32_strlen` (libunistring); `none`: no terminator before the end of the block or before a place that was not written -/
def Block.strlen : Block → Option Nat
  | [] => none
  | none :: _ => none
  | some c :: r => if c = 0 then some 0 else (Block.strlen r).map (· + 1)

/-- `realloc` to `n` places, for the case that it succeeds -/
def Block.realloc (b : Block) (n : Nat) : Block := b.take n ++ List.replicate (n - b.length) none

/-- `u32_move (b + i, b + j, n)`; `none`: outside of the block -/
def Block.move (b : Block) (i j n : Nat) : Option Block :=
  if i + n ≤ b.length ∧ j + n ≤ b.length then some (b.take i ++ (b.drop j).take n ++ b.drop (i + n)) else none

/-- `u32_set (b + i, c, n)`; `none`: outside of the block -/
def Block.set (b : Block) (i c n : Nat) : Option Block :=
  if i + n ≤ b.length then some (b.take i ++ List.replicate n (some c) ++ b.drop (i + n)) else none

/-- src/unicode.c:344-359 `u32_insert_space_at`: the block `*s` after the call, for `s != NULL`; `none` is undefined behaviour.
Overflow of `len + 1 + n` and a failing `realloc` are not modelled. -/
def insertSpaceAt (b : Block) (idx n : Nat) : Option Block :=
  if n = 0 then some b
  else do
    let len ← b.strlen
    let x := if idx > len then len else idx
    let b1 := b.realloc (len + 1 + n)
    let b2 ← b1.move (x + n) x (len - x)
    b2.set x chSpace n

end Boxes
