import Verif.Spec.Cmdline

/-! What a line of the help text says (C89). -/

namespace Boxes.Spec
open Boxes

/-- the words of a text, which are separated by spaces and commas -/
def wordsOf : Str → List Str
  | [] => []
  | c :: r =>
    if c = 0x20 ∨ c = 0x2c then wordsOf r
    else match r with
      | [] => [[c]]
      | c' :: _ => if c' = 0x20 ∨ c' = 0x2c then [c] :: wordsOf r
        else match wordsOf r with
          | [] => [[c]]
          | w :: ws => (c :: w) :: ws

/-- A line of the help text is about an option if it begins with two spaces; the first 24 columns are then about its name.  The words there that begin with
a dash are names of the option; a word that begins with `<` tells that it takes an argument. -/
def documented (line : Str) : List (Str × Bool) :=
  if [0x20, 0x20].isPrefixOf line then
    let ws := wordsOf (line.take 24)
    (ws.filter (fun w => w.head? == some 0x2d)).map (fun w => (w, ws.any (fun w => w.head? == some 0x3c)))
  else []

/-- what the line shows in `[default: ...]` -/
def shownDefault : Str → Option Str
  | [] => none
  | c :: r => if (lit "[default: ").isPrefixOf (c :: r) then some (((c :: r).drop 10).takeWhile (fun c => decide (c ≠ 0x5d))) else shownDefault r

/-- what the line shows in `(like -k ...)` -/
def shownLike : Str → Option Str
  | [] => none
  | c :: r => if (lit "(like -k ").isPrefixOf (c :: r) then some (((c :: r).drop 9).takeWhile (fun c => decide (c ≠ 0x29))) else shownLike r

end Boxes.Spec
