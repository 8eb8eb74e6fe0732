import Verif.Spec.Parse
import Verif.Spec.Tools

/-!
# Specification: what a design definition says

The meaning of the entries of a design, in terms of the texts in the configuration file.
-/
namespace Boxes.Spec
open ShapeName

instance (w : String) (s : Str) : Decidable (Word w s) := inferInstanceAs (Decidable (_ = _))

/-- Equal without regard to the case of ASCII letters -/
def SameName (a b : Str) : Prop := a.map lower = b.map lower

instance (a b : Str) : Decidable (SameName a b) := inferInstanceAs (Decidable (_ = _))

/-- the names by which a design can be addressed -/
def _root_.Boxes.DesignDef.names (d : DesignDef) : List Str := d.name :: d.aliases

/-- The design is called `name`. -/
def Called (d : DesignDef) (name : Str) : Prop := ∃ n ∈ d.names, SameName name n

/-- aliases of a design that are not aliases of a design in a child configuration -/
def keptAliases (children : List DesignDef) (aliases : List Str) : List Str :=
  aliases.filter (fun a => decide (¬ ∃ c ∈ children, ∃ x ∈ c.aliases, SameName a x))

/-- values given for a keyword -/
def settings (key : String) (items : List Item) : List Str :=
  items.filterMap (fun i => match i with | .keyword k v => if Word key k then some v else none | _ => none)

/-- replacement rules: search text, replacement, `o` for "once" or `g` for "global", the default -/
def replaceRules (items : List Item) : List (Str × Str × Char) :=
  items.filterMap (fun i => match i with | .replace flag s r => some (s, r, flag.getD 'g') | _ => none)

/-- reversion rules -/
def reverseRules (items : List Item) : List (Str × Str × Char) :=
  items.filterMap (fun i => match i with | .reverse flag s r => some (s, r, flag.getD 'g') | _ => none)

/-- A rule as text -/
def ruleText (r : Rule) : Str × Str × Char := (r.search.memory, r.repstr.memory, r.mode)

/-- padding entries -/
def paddings (items : List Item) : List (Str × Int) :=
  items.flatMap (fun i => match i with | .padding es => es | _ => [])

/-- `area` abbreviates `word`, in any case. -/
def Abbreviates (area : Str) (word : String) : Prop := area.map lower <+: word.toList.map Char.toNat

/-- The padding entry is about a side; `words` are the areas that include the side. -/
def Concerns (words : List String) (entry : Str × Int) : Prop := 0 ≤ entry.2 ∧ ∃ w ∈ words, Abbreviates entry.1 w

instance (a : Str) (w : String) : Decidable (Abbreviates a w) := inferInstanceAs (Decidable (_ <+: _))

instance (words : List String) (e : Str × Int) : Decidable (Concerns words e) :=
  inferInstanceAs (Decidable (_ ∧ ∃ w ∈ words, _))

/-- Padding of the side: the last entry that concerns it decides. -/
def paddingOf (words : List String) (entries : List (Str × Int)) : Nat :=
  match (entries.filter (fun e => decide (Concerns words e))).getLast? with
  | some e => e.2.toNat
  | none => 0

/-- the pieces of a text between commas -/
def commaSplit : Str → List Str
  | [] => [[]]
  | c :: rest =>
    if c = ','.toNat then [] :: commaSplit rest
    else match commaSplit rest with
      | [] => [[c]]
      | p :: ps => (c :: p) :: ps

/-- without the Unicode blanks at both ends -/
def trimBlanks (db : CharDb) (s : Str) : Str :=
  ((s.dropWhile db.ucBlank).reverse.dropWhile db.ucBlank).reverse

/-- the texts with tags in a design definition -/
def tagTexts (items : List Item) : List Str :=
  items.flatMap (fun i => match i with
    | .tags vs => vs
    | .keyword k v => if Word "tags" k then [v] else []
    | _ => [])

/-- what might be a tag in a text; text with escape sequences is ignored -/
def tagCandidates (db : CharDb) (s : Str) : List Str :=
  if 0x1b ∈ s then [] else (commaSplit s).map (trimBlanks db)

open Classical in
/-- the valid ones of the candidates, each once, in the order of their first occurrence, behind the tags known before -/
noncomputable def collectTags : List Str → List Str → List Str
  | known, [] => known
  | known, t :: rest =>
    if Identifier true t ∧ ¬ ∃ k ∈ known, SameName k t then collectTags (known ++ [t]) rest else collectTags known rest

/-- the number of SAMPLE, SHAPES and ELASTIC blocks -/
def samples (items : List Item) : Nat := items.countP (fun i => match i with | .sample _ => true | _ => false)
def shapeBlocks (items : List Item) : Nat := items.countP (fun i => match i with | .shapes _ => true | _ => false)
def elasticBlocks (items : List Item) : Nat := items.countP (fun i => match i with | .elastic _ => true | _ => false)

/-- the shapes that are given -/
def givenShapes (items : List Item) : List (ShapeName × List Str) :=
  items.flatMap (fun i => match i with | .shapes defs => defs | _ => [])

/-- the names of elastic shapes that are given -/
def givenElastic (items : List Item) : List ShapeName :=
  items.flatMap (fun i => match i with | .elastic names => names | _ => [])

/-- A shape is given and takes some space. -/
def Given (db : CharDb) (items : List Item) (n : ShapeName) (lines : List Str) : Prop :=
  (n, lines) ∈ givenShapes items ∧ ∃ t rest v, lines = t :: rest ∧ Text t v ∧ 0 < columns db v

end Boxes.Spec
