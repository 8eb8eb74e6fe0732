import Verif.Spec.Remove
import Verif.Spec.Tools

/-!
# Specification: how box lines are recognised when a box is removed
-/
namespace Boxes.Spec

/-- `Cut db leftFirst left right text l r`: `l` characters may be cut from the front and `r` from the end of a shape line.  Only blanks
are cut, only on the sides allowed, and on the second side only if nothing is left to cut on the first. -/
structure Cut (db : CharDb) (leftFirst left right : Bool) (text : Str) (l r : Nat) : Prop where
  fits : l + r ≤ text.length
  front : ∀ (i : Nat) c, i < l → text[i]? = some c → Blank db c
  back : ∀ (i : Nat) c, text.length - r ≤ i → text[i]? = some c → Blank db c
  noLeft : left = false → l = 0
  noRight : right = false → r = 0
  leftOrder : leftFirst = true → 0 < r → ∃ c, text[l]? = some c ∧ ¬ Blank db c
  rightOrder : leftFirst = false → 0 < l → right = true → ∃ c, text[text.length - r - 1]? = some c ∧ ¬ Blank db c

/-- what is left of the shape line -/
def remains (text : Str) (l r : Nat) : Str := (text.drop l).take (text.length - l - r)

/-- `LongestFit db whole text rest q`: `rest` begins with the first `q` characters of the shape line `text`, of which only blanks are
missing at the end (`whole`: nothing may be missing), and not with more of them. -/
structure LongestFit (db : CharDb) (whole : Bool) (text rest : Str) (q : Nat) : Prop where
  some : 0 < q
  inside : q ≤ text.length
  found : text.take q <+: rest
  lost : ∀ c ∈ text.drop q, Blank db c
  all : whole = true → q = text.length
  longest : ∀ k, q < k → k ≤ text.length → (whole = true → k = text.length) → ¬ text.take k <+: rest

/-- a shape line with nothing to see -/
def Vanishing (db : CharDb) (sl : ShapeLine) : Prop := sl.empty = true ∨ sl.text.isBlankStr db = true

/-- none of the shapes from `a` up to `b` (exclusive) has anything to see -/
def NothingFrom (db : CharDb) (shapes : List ShapeLine) (a b : Nat) : Prop :=
  ∀ (i : Nat) sl, a ≤ i → i < b → shapes[i]? = some sl → Vanishing db sl

/-- `SideRow db shapes whole tail idx w`: the part `w` of a line (in front of `tail`) consists of the shape lines number `idx` to 3 of a
horizontal side, in order.  `whole`: the corner follows directly. -/
inductive SideRow (db : CharDb) (shapes : List ShapeLine) (whole : Bool) (tail : Str) : Nat → Str → Prop
  /-- all shapes used up in front of the corner -/
  | corner : whole = true → SideRow db shapes whole tail 4 []
  /-- the remaining shapes cannot be seen -/
  | over {idx} : NothingFrom db shapes idx 4 → (∀ sl, shapes[idx]? = some sl → Vanishing db sl) → SideRow db shapes whole tail idx []
  /-- all shapes used up, only blanks follow -/
  | blank {idx w} : 4 ≤ idx → w ≠ [] → (∀ c ∈ w ++ tail, Blank db c) → SideRow db shapes whole tail idx w
  /-- a shape that is not defined -/
  | skip {idx w sl} : idx < 4 → w ≠ [] → shapes[idx]? = some sl → sl.empty = true → SideRow db shapes whole tail (idx + 1) w →
      SideRow db shapes whole tail idx w
  /-- the last shape that can be seen -/
  | last {idx w sl} : idx < 4 → shapes[idx]? = some sl → sl.empty = false → LongestFit db whole sl.text.memory (w ++ tail) w.length →
      NothingFrom db shapes (idx + 1) 4 → SideRow db shapes whole tail idx w
  /-- one occurrence of a shape -/
  | once {idx a w sl} : idx < 4 → a ++ w ≠ [] → shapes[idx]? = some sl → sl.empty = false →
      LongestFit db whole sl.text.memory (a ++ w ++ tail) a.length → SideRow db shapes whole tail (idx + 1) w →
      SideRow db shapes whole tail idx (a ++ w)
  /-- elastic shapes may be repeated -/
  | again {idx a w sl} : idx < 4 → a ++ w ≠ [] → shapes[idx]? = some sl → sl.empty = false → sl.elastic = true →
      LongestFit db whole sl.text.memory (a ++ w ++ tail) a.length → SideRow db shapes whole tail idx w →
      SideRow db shapes whole tail idx (a ++ w)

/-- the first occurrence of `piece` at or behind position `cur` -/
def FirstFrom (line piece : Str) (cur p : Nat) : Prop :=
  cur ≤ p ∧ OccursAt line piece p ∧ ∀ p', cur ≤ p' → p' < p → ¬ OccursAt line piece p'

/-- only blanks from position `a` up to position `b` -/
def BlankFrom (db : CharDb) (line : Str) (a b : Nat) : Prop := ∀ (i : Nat) c, a ≤ i → i < b → line[i]? = some c → Blank db c

/-- `piece` is found at `p`, behind blanks only, in front of `stop` -/
def ShiftHit (db : CharDb) (line : Str) (cur stop : Nat) (piece : Str) (p : Nat) : Prop :=
  FirstFrom line piece cur p ∧ p < stop ∧ BlankFrom db line cur p

/-- `FewestCut db leftFirst left right text Hit p q`: as few blanks as possible are cut from the shape line `text` so that the remaining
`q` characters are found; they are found at `p`. -/
def FewestCut (db : CharDb) (leftFirst left right : Bool) (text : Str) (Hit : Str → Nat → Prop) (p q : Nat) : Prop :=
  ∃ l r, Cut db leftFirst left right text l r ∧ l + r + q = text.length ∧ Hit (remains text l r) p ∧
    ∀ l' r' p', Cut db leftFirst left right text l' r' → l' + r' < l + r → ¬ Hit (remains text l' r') p'

/-- `Between db shapes line cur idx stop leftFound rightFound`: the part of the line from `cur` to `stop`, between the corners, is made of
the shape lines number `idx` to 3 of the side.  Behind a corner that was found they follow directly; otherwise blanks may come first,
and the first shape line that can be seen may have lost blanks on the left, too (on the right only if nothing follows). -/
def Between (db : CharDb) (shapes : List ShapeLine) (line : Str) (cur idx stop : Nat) (leftFound rightFound : Bool) : Prop :=
  if leftFound = true then
    cur ≤ stop ∧ SideRow db shapes rightFound (line.drop stop) idx ((line.take stop).drop cur)
  else
    (NothingFrom db shapes idx 4 ∧ BlankFrom db line cur stop) ∨
    ∃ i sl p q, idx ≤ i ∧ i < 4 ∧ shapes[i]? = some sl ∧ ¬ Vanishing db sl ∧ NothingFrom db shapes idx i ∧
      (∃ right : Bool, (right = true ↔ NothingFrom db shapes (i + 1) 5) ∧
        FewestCut db false true right sl.text.memory (ShiftHit db line cur stop) p q) ∧
      p + q ≤ stop ∧ (SideRow db shapes rightFound (line.drop stop) (i + 1) ((line.take stop).drop (p + q)) ∨
        sl.elastic = true ∧ SideRow db shapes rightFound (line.drop stop) i ((line.take stop).drop (p + q)))

/-- `LeftCorner db input shape limit s p`: without its first `s` characters, the shape line occurs in the input for the first time at `p`,
at most `limit` characters from the start; with more of its characters this is not so.  Of the characters 1, ..., `s` of the shape
line all are blank. -/
structure LeftCorner (db : CharDb) (input shape : Str) (limit s p : Nat) : Prop where
  found : FirstFrom input (shape.drop s) 0 p
  near : p ≤ limit
  blank : ∀ j, 0 < j → j ≤ s → ∃ c, shape[j]? = some c ∧ Blank db c
  most : ∀ s' p', s' < s → FirstFrom input (shape.drop s') 0 p' → limit < p'

/-- the last occurrence of a piece -/
def LastAt (input piece : Str) (p : Nat) : Prop := OccursAt input piece p ∧ ∀ p', OccursAt input piece p' → p' ≤ p

/-- `RightCorner db input shape limit k p`: the first `k` characters of the shape line occur in the input for the last time at `p`, and end
at `limit` or behind it; with more of its characters this is not so.  All characters left out are blank. -/
structure RightCorner (db : CharDb) (input shape : Str) (limit k p : Nat) : Prop where
  inside : k ≤ shape.length
  found : LastAt input (shape.take k) p
  near : limit ≤ p + k
  blank : ∀ c ∈ shape.drop k, Blank db c
  most : ∀ k' p', k < k' → k' ≤ shape.length → LastAt input (shape.take k') p' → p' + k' < limit

/-- a corner that can be looked for: the box has this side, line and shape line are not empty, the shape line can be seen -/
def Searched (db : CharDb) (isOpen : Bool) (line : Str) (shape : Bxs) : Prop :=
  isOpen = false ∧ line ≠ [] ∧ shape.memory ≠ [] ∧ shape.isBlankStr db = false

/-- `LeftEnd db isOpen line shape limit cur found`: the shapes of the side begin at position `cur` of the line.  That is behind the left
corner, if this is found near enough (`found`); otherwise it is the start of the line. -/
def LeftEnd (db : CharDb) (isOpen : Bool) (line : Str) (shape : Bxs) (limit cur : Nat) (found : Bool) : Prop :=
  (found = true ∧ Searched db isOpen line shape ∧
    ∃ s p, LeftCorner db line shape.memory limit s p ∧ s ≤ shape.memory.length ∧ cur + s = p + shape.memory.length) ∨
  (found = false ∧ cur = 0 ∧ (Searched db isOpen line shape → ∀ s p, ¬ LeftCorner db line shape.memory limit s p))

/-- `RightEnd db isOpen line shape limit stop found`: the shapes of the side end at position `stop` of the line.  That is the start of the
right corner, if this is found near enough (`found`); otherwise it is the end of the line. -/
def RightEnd (db : CharDb) (isOpen : Bool) (line : Str) (shape : Bxs) (limit stop : Nat) (found : Bool) : Prop :=
  (found = true ∧ Searched db isOpen line shape ∧ ∃ k, RightCorner db line shape.memory limit k stop) ∨
  (found = false ∧ stop = line.length ∧ (Searched db isOpen line shape → ∀ k p, ¬ RightCorner db line shape.memory limit k p))

/-- `Trimmed db s v n line left right`: the line that is compared.  It is the text `s` (with visible characters `v`) without trailing
blanks, with `n` spaces appended; a blank text keeps its blanks.  `left` is where its first visible character is, `right` where the
appended spaces begin. -/
def Trimmed (db : CharDb) (s v : Str) (n : Nat) (line : Str) (left right : Nat) : Prop :=
  ∃ t, line = t ++ List.replicate n 0x20 ∧ right = t.length ∧ left ≤ t.length ∧ t <+: s ∧
    ((∀ c ∈ v, Blank db c) → t = s ∧ left = s.length) ∧
    ((∃ c ∈ v, ¬ Blank db c) → Text t (dropTrailing db v) ∧ Text (t.take left) (v.take (leadingBlanks db v)))

/-- the visible text without leading blanks (`l`) and without trailing blanks (`r`; not if all of it is blank) -/
def stripped (db : CharDb) (l r : Bool) (v : Str) : Str :=
  let w := if l then v.drop (leadingBlanks db v) else v
  if r && v.any (fun c => !decide (Blank db c)) then dropTrailing db w else w

end Boxes.Spec
