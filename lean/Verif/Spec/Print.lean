import Verif.Spec.Box

/-!
# Specification: what is printed after a box was removed
-/
namespace Boxes.Spec

/-- `Remaining db opt lines ls`: the remaining lines have the texts `ls` (string and visible characters), none of them with a character
the program refuses; tab positions, if kept, are as recorded when the input was read (C07). -/
structure Remaining (db : CharDb) (opt : Opt) (lines : List Line) (ls : List (Str × Str)) : Prop where
  texts : lines.map Line.text = ls.map (fun p => fromUnicode db p.1)
  good : ∀ p ∈ ls, Text p.1 p.2 ∧ ∀ c ∈ p.2, ¬ Forbidden db c
  tabs : opt.tabexp = 'k' → ∀ l ∈ lines, l.tabpos.Pairwise (fun a b => a + tabCols opt.tabstop a ≤ b)
  tabstop : 1 ≤ opt.tabstop

/-- `EndTrimmed db s v s' v'`: a text without its trailing blanks; a text of blanks only, or one that does not end with a blank, stays as it is. -/
def EndTrimmed (db : CharDb) (s v s' v' : Str) : Prop :=
  Text s' v' ∧
  (((∀ c ∈ v, Blank db c) ∧ s' = s ∧ v' = v) ∨
   ((∃ c ∈ v, ¬ Blank db c) ∧ v' = dropTrailing db v ∧
     ((v' = v ∧ s' = s) ∨ (v' ≠ v ∧ ∃ p, s = s' ++ p ∧ From v'.length s v p))))

/-- `Printed db opt n tabpos s v p`: `p` is printed for the text `s` (visible characters `v`), which has no trailing blanks, when the lines
are indented by `n` columns and the tabs of this line were at the columns `tabpos`.  By default the text itself.  With unexpanded tabs, the
columns of its leading blanks as tabs and spaces, then what follows these blanks.  With kept tabs, `n` columns with the tabs restored, then what follows the first `n`
characters. -/
structure Printed (db : CharDb) (opt : Opt) (n : Nat) (tabpos : List Nat) (s v p : Str) : Prop where
  plain : opt.tabexp ≠ 'u' → opt.tabexp ≠ 'k' → From 0 s v p
  unexpanded : opt.tabexp = 'u' → ∃ ind rest tabs blanks, p = ind ++ rest ∧ ind = List.replicate tabs 0x09 ++ List.replicate blanks 0x20 ∧
    blanks < opt.tabstop ∧ Expand opt.tabstop 0 ind (spaces (columns db (v.takeWhile (fun c => decide (Blank db c))))) ∧
    From (columns db (v.takeWhile (fun c => decide (Blank db c)))) s v rest
  kept : opt.tabexp = 'k' → ∃ ind rest, p = ind ++ rest ∧ From n s v rest ∧ (∀ c ∈ ind, c = 0x20 ∨ c = 0x09) ∧ 
    ((∀ a b c, fitting opt.tabstop n tabpos = a ++ b :: c → c ≠ [] → opt.tabstop ∣ b + 1) →
      Expand opt.tabstop 0 ind (spaces n) ∧ ∀ x : Nat, ind[x]? = some 0x09 ↔ x ∈ fitting opt.tabstop n tabpos)

/-- `Shows db ts s v p`: with its tabs replaced, `p` shows the text with the visible characters `v`: its leading blanks (at least some of
them) as spaces, the rest unchanged. -/
def Shows (db : CharDb) (ts : Nat) (v p : Str) : Prop :=
  ∃ ind rest k, p = ind ++ rest ∧ (∀ c ∈ ind, c = 0x20 ∨ c = 0x09) ∧ k ≤ leadingBlanks db v ∧ Expand ts 0 ind (spaces k) ∧ Text rest (v.drop k)

end Boxes.Spec
