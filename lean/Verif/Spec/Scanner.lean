import Verif.Spec.Lexer
import Verif.Spec.Tools
import Verif.Model.Scanner

/-!
# Specification: how a configuration file is written

`Reads m d text toks`: inside of a part of kind `m` of the file, with string delimiters `d`, the text `text` consists of the
tokens `toks`, with white space and comments in between.  What makes no sense where it stands is the token `unrec`.  `FileTokens decls toks`: the tokens are those of the declarations.
-/
namespace Boxes.Spec
open ShapeName

/-- characters that separate tokens -/
def White (c : Nat) : Prop := c = ' '.toNat ∨ c = '\t'.toNat ∨ c = '\r'.toNat ∨ c = '\n'.toNat

/-- characters that may occur in a word -/
def WordChar (c : Nat) : Prop := Letter false c ∨ Digit c ∨ c = '_'.toNat ∨ c = '-'.toNat ∨ 0x80 ≤ c

/-- The text does not begin with a character that would continue a word. -/
def Apart (s : Str) : Prop := ∀ c r, s = c :: r → ¬ WordChar c

/-- a word of ASCII letters, digits, `_`, `-`, beginning with a letter -/
def AsciiWord (w : Str) : Prop := (∃ c r, w = c :: r ∧ Letter false c) ∧ ∀ c ∈ w, WordChar c ∧ c < 0x80

/-- words with a meaning of their own between designs -/
def outerWords : List String := ["parent", "box"]
/-- words with a meaning of their own inside of a design -/
def innerWords : List String := ["sample", "tags", "elastic", "shapes", "replace", "reverse", "padding", "to", "with", "global", "once",
  "end", "author", "designer", "indent", "delimiter", "delim"]

/-- words inside of a design after which the design goes on, and the tokens they are -/
def plainWords : List (String × Token) := [("tags", .tags), ("replace", .replace), ("reverse", .reverse), ("padding", .padding),
  ("to", .to), ("with", .with), ("global", .flag 'g'), ("once", .flag 'o')]

/-- the written name of a shape -/
def shapeNames : List (String × ShapeName) := [("nw", NW), ("nnw", NNW), ("n", N), ("nne", NNE), ("ne", NE), ("ene", ENE), ("e", E),
  ("ese", ESE), ("se", SE), ("sse", SSE), ("s", S), ("ssw", SSW), ("sw", SW), ("wsw", WSW), ("w", W), ("wnw", WNW)]

/-- the value of a decimal number -/
def numeral (ds : Str) : Nat := ds.foldl (fun v c => 10 * v + (c - '0'.toNat)) 0

/-- the standard delimiters: strings in double quotes, with backslash as escape character -/
def standard : Delims := ⟨'\\'.toNat, '"'.toNat⟩

/-- possible string delimiters: one of certain characters, with another character as escape character -/
def ValidDelims (d : Delims) : Prop :=
  d.sesc ≠ d.sdel ∧ d.sesc < 0x80 ∧ d.sdel ∈ "\"~'`!@%&*=:;<>?/|.\\".toList.map Char.toNat

/-- the rest of the line that ends a sample: the word `ends` and blanks -/
def EndsHere (s : Str) : Prop := ∃ e t, s = e ++ t ∧ Word "ends" e ∧ ∀ c ∈ t, c = ' '.toNat ∨ c = '\t'.toNat ∨ c = '\r'.toNat

/-- the text of a sample block as it is handed on -/
def withoutFirstNewlines (s : Str) : Str := s.dropWhile (fun c => decide (c = '\n'.toNat))

/-- No name of a shape that is longer than `w` begins where `w` begins. -/
def LongestShape (w s : Str) : Prop := ∀ k n w' s', (k, n) ∈ shapeNames → Word k w' → w ++ s = w' ++ s' → w'.length ≤ w.length

/-- No line of the text ends in what ends a sample.  (What comes behind the last line break is not a line.) -/
def NoEnd (body : Str) : Prop := ∀ x y z, body = x ++ y ++ '\n'.toNat :: z → ¬ EndsHere y

/-- A character that makes no sense inside of a part of kind `m`, if the text goes on with `s`: nothing that is allowed there begins
with it.  A comment and a string need a line break at their end. -/
def Senseless (m : Mode) (d : Delims) (c : Nat) (s : Str) : Prop :=
  ¬ White c ∧ (c = '#'.toNat → '\n'.toNat ∉ s) ∧
  (m = .initial → ¬ Letter false c ∧ c < 0x80) ∧
  (m = .box → ¬ Letter false c ∧ c < 0x80 ∧ ¬ Digit c ∧ ((c = '+'.toNat ∨ c = '-'.toNat) → ∀ e r, s = e :: r → ¬ Digit e)) ∧
  (m ∈ [.box, .shapes] → c = d.sdel → '\n'.toNat ∉ s) ∧
  (m ∈ [.box, .shapes, .elastic] → c ∉ ",(){}".toList.map Char.toNat) ∧
  (m ∈ [.shapes, .elastic] → c ≠ 0xfeff ∧ ∀ k n w s', (k, n) ∈ shapeNames → Word k w → c :: s ≠ w ++ s') ∧
  m ∈ [.initial, .box, .shapes, .elastic]

inductive Reads : Mode → Delims → Str → List Token → Prop
  | nil (m : Mode) (d : Delims) : m ≠ .sample → Reads m d [] []
  | white {m : Mode} {d : Delims} {s : Str} {ts : List Token} (c : Nat) : m ∈ [.initial, .box, .shapes, .elastic, .delimspec] → White c →
      Reads m d s ts → Reads m d (c :: s) ts
  | comment {m : Mode} {d : Delims} {s : Str} {ts : List Token} (body : Str) : m ∈ [.initial, .box, .shapes, .elastic] →
      '\n'.toNat ∉ body → Reads m d ('\n'.toNat :: s) ts → Reads m d ('#'.toNat :: (body ++ '\n'.toNat :: s)) ts
  | outerName {d : Delims} {s : Str} {ts : List Token} (w : Str) : AsciiWord w → (∀ k ∈ outerWords, ¬ Word k w) → Apart s →
      Reads .initial d s ts → Reads .initial d (w ++ s) (.asciiId w :: ts)
  | innerName {d : Delims} {s : Str} {ts : List Token} (w : Str) : AsciiWord w → (∀ k ∈ innerWords, ¬ Word k w) → Apart s →
      Reads .box d s ts → Reads .box d (w ++ s) (.asciiId w :: ts)
  | foreign {m : Mode} {d : Delims} {s : Str} {ts : List Token} (w : Str) : m ∈ [.initial, .box] →
      (∃ c r, w = c :: r ∧ (Letter false c ∨ 0x80 ≤ c)) → (∀ c ∈ w, WordChar c) → (∃ c ∈ w, 0x80 ≤ c) → w ≠ [0xfeff] → Apart s →
      Reads m d s ts → Reads m d (w ++ s) (.bxWord w :: ts)
  | parent {d : Delims} {s : Str} {ts : List Token} (w : Str) : Word "parent" w → Apart s →
      Reads .parent d s ts → Reads .initial d (w ++ s) (.parent :: ts)
  | filename {d : Delims} {s : Str} {ts : List Token} (f : Str) : f ≠ [] → '\r'.toNat ∉ f → '\n'.toNat ∉ f →
      (∀ c r, s = c :: r → c = '\r'.toNat ∨ c = '\n'.toNat) →
      Reads .initial d s ts → Reads .parent d (f ++ s) (.filename f :: ts)
  | box {d : Delims} {s : Str} {ts : List Token} (w : Str) : Word "box" w → Apart s →
      Reads .box standard s ts → Reads .initial d (w ++ s) (.box :: ts)
  | endBox {d : Delims} {s : Str} {ts : List Token} (w : Str) : Word "end" w → Apart s →
      Reads .initial standard s ts → Reads .box d (w ++ s) (.endBox :: ts)
  | plain {d : Delims} {s : Str} {ts : List Token} (w : Str) (k : String) (t : Token) : (k, t) ∈ plainWords → Word k w → Apart s →
      Reads .box d s ts → Reads .box d (w ++ s) (t :: ts)
  | keyword {d : Delims} {s : Str} {ts : List Token} (w : Str) (k : String) : k ∈ ["author", "designer", "indent"] → Word k w → Apart s →
      Reads .box d s ts → Reads .box d (w ++ s) (.keyword w :: ts)
  | delimiter {d : Delims} {s : Str} {ts : List Token} (w : Str) (k : String) : k ∈ ["delim", "delimiter"] → Word k w → Apart s →
      Reads .delimspec d s ts → Reads .box d (w ++ s) (.chgDel :: ts)
  | delimSpec {d : Delims} {s : Str} {ts : List Token} (d' : Delims) : ValidDelims d' →
      ¬ White d'.sesc → (∀ c r, s = c :: r → White c) →
      Reads .box d' s ts → Reads .delimspec d (d'.sesc :: d'.sdel :: s) (.delimSpec :: ts)
  | shapes {d : Delims} {s : Str} {ts : List Token} (w : Str) : Word "shapes" w → Apart s →
      Reads .shapes d s ts → Reads .box d (w ++ s) (.shapes :: ts)
  | elastic {d : Delims} {s : Str} {ts : List Token} (w : Str) : Word "elastic" w → Apart s →
      Reads .elastic d s ts → Reads .box d (w ++ s) (.elastic :: ts)
  | sample {d : Delims} {s : Str} {ts : List Token} (w : Str) : Word "sample" w → Apart s →
      Reads .sample d s ts → Reads .box d (w ++ s) (.sample :: ts)
  | sampleText {d : Delims} {s : Str} {ts : List Token} (body indent e : Str) :
      (∃ b, body = b ++ ['\n'.toNat]) → (∀ c ∈ indent, c = ' '.toNat ∨ c = '\t'.toNat) → EndsHere e →
      NoEnd body →
      Reads .box d ('\n'.toNat :: s) ts →
      Reads .sample d (body ++ indent ++ e ++ '\n'.toNat :: s)
        (.sampleText (withoutFirstNewlines body ++ indent) :: .endSample :: ts)
  | string {m : Mode} {d : Delims} {s : Str} {ts : List Token} (raw text : Str) : m ∈ [.box, .shapes] → Quoted d.sesc d.sdel raw text →
      '\n'.toNat ∉ raw → '\n'.toNat ∈ s →
      Reads m d s ts → Reads m d (d.sdel :: (raw ++ d.sdel :: s)) (.string text :: ts)
  | number {d : Delims} {s : Str} {ts : List Token} (ds : Str) : ds ≠ [] → (∀ c ∈ ds, Digit c) → (∀ c r, s = c :: r → ¬ Digit c) →
      Reads .box d s ts → Reads .box d (ds ++ s) (.number (numeral ds) :: ts)
  | signed {d : Delims} {s : Str} {ts : List Token} (ds : Str) (sign : Nat) : ds ≠ [] → (∀ c ∈ ds, Digit c) →
      (∀ c r, s = c :: r → ¬ Digit c) → (sign = '+'.toNat ∨ sign = '-'.toNat) →
      Reads .box d s ts →
      Reads .box d (sign :: (ds ++ s)) (.number (if sign = '-'.toNat then - (numeral ds : Int) else numeral ds) :: ts)
  | symbol {m : Mode} {d : Delims} {s : Str} {ts : List Token} (c : Nat) : m ∈ [.box, .shapes, .elastic] →
      c ∈ ",(){}".toList.map Char.toNat → (m = .shapes → c ≠ '}'.toNat) → (m = .elastic → c ≠ ')'.toNat) →
      Reads m d s ts → Reads m d (c :: s) (.sym c :: ts)
  | closeShapes {d : Delims} {s : Str} {ts : List Token} :
      Reads .box d s ts → Reads .shapes d ('}'.toNat :: s) (.sym '}'.toNat :: ts)
  | closeElastic {d : Delims} {s : Str} {ts : List Token} :
      Reads .box d s ts → Reads .elastic d (')'.toNat :: s) (.sym ')'.toNat :: ts)
  | shape {m : Mode} {d : Delims} {s : Str} {ts : List Token} (w : Str) (k : String) (n : ShapeName) : m ∈ [.shapes, .elastic] →
      (k, n) ∈ shapeNames → Word k w → LongestShape w s →
      Reads m d s ts → Reads m d (w ++ s) (.shape n :: ts)
  /- a byte order mark is skipped, unless it is part of a word -/
  | mark {m : Mode} {d : Delims} {s : Str} {ts : List Token} : m ∈ [.initial, .box, .shapes, .elastic, .delimspec] →
      (m ∈ [.initial, .box] → Apart s) → (m = .delimspec → ∀ c r, s = c :: r → White c) →
      Reads m d s ts → Reads m d (0xfeff :: s) ts
  /- `parent` without the name of a file -/
  | noFile {d : Delims} {s : Str} {ts : List Token} : Reads .initial d s ts → Reads .parent d ('\n'.toNat :: s) ts
  | noFile' {d : Delims} {s : Str} {ts : List Token} : Reads .initial d s ts → Reads .parent d ('\r'.toNat :: '\n'.toNat :: s) ts
  /- a sample without an end -/
  | openSample {d : Delims} {s : Str} : NoEnd s → Reads .sample d s []
  /- a sample that ends with the first line, or behind other characters on its last line: the text is lost -/
  | lostSample {d : Delims} {s : Str} {ts : List Token} (body e : Str) : EndsHere e → NoEnd body →
      (∀ b indent, body = b ++ '\n'.toNat :: indent → ∃ c ∈ indent, c ≠ ' '.toNat ∧ c ≠ '\t'.toNat) →
      Reads .box d ('\n'.toNat :: s) ts → Reads .sample d (body ++ e ++ '\n'.toNat :: s) (.endSample :: ts)
  /- what makes no sense -/
  | senseless {m : Mode} {d : Delims} {s : Str} {ts : List Token} (c : Nat) : Senseless m d c s →
      Reads m d s ts → Reads m d (c :: s) (.unrec :: ts)
  | openString {m : Mode} {d : Delims} {s : Str} {ts : List Token} (line : Str) : m ∈ [.box, .shapes] → '\n'.toNat ∉ line →
      (∀ raw text rest, Quoted d.sesc d.sdel raw text → line ≠ raw ++ d.sdel :: rest) →
      Reads m d ('\n'.toNat :: s) ts → Reads m d (d.sdel :: (line ++ '\n'.toNat :: s)) (.unrec :: ts)
  | wrongDelims {d : Delims} {s : Str} {ts : List Token} (w : Str) : w ≠ [] → w ≠ [0xfeff] → (∀ c ∈ w, ¬ White c) →
      (∀ d', ValidDelims d' → w ≠ [d'.sesc, d'.sdel]) → (∀ c r, s = c :: r → White c) →
      Reads .box d s ts → Reads .delimspec d (w ++ s) (.unrec :: ts)

/-! ## Grammar -/

/-- the tokens of the entries of a list in parentheses, behind the first one -/
def moreOf {α : Type} (tok : α → Token) : List α → List Token
  | [] => [.sym ')'.toNat]
  | a :: rest => .sym ','.toNat :: tok a :: moreOf tok rest

/-- the tokens of a list in parentheses, which is not empty -/
inductive InParens {α : Type} (tok : α → Token) : List α → List Token → Prop
  | mk (a : α) (rest : List α) : InParens tok (a :: rest) (.sym '('.toNat :: tok a :: moreOf tok rest)

/-- the tokens of one shape -/
inductive ShapeTokens : ShapeName × List Str → List Token → Prop
  | none (n : ShapeName) : ShapeTokens (n, []) [.shape n, .sym '('.toNat, .sym ')'.toNat]
  | some (n : ShapeName) (ls : List Str) (ts : List Token) : InParens .string ls ts → ShapeTokens (n, ls) (.shape n :: ts)

/-- the tokens of a list of shapes -/
inductive ShapeListTokens : List (ShapeName × List Str) → List Token → Prop
  | nil : ShapeListTokens [] []
  | cons {d : ShapeName × List Str} {ds : List (ShapeName × List Str)} {t ts : List Token} : ShapeTokens d t → ShapeListTokens ds ts →
      ShapeListTokens (d :: ds) (t ++ ts)

/-- the tokens of an entry or block of a design -/
inductive ItemTokens : Item → List Token → Prop
  | keyword (k v : Str) : ItemTokens (.keyword k v) [.keyword k, .string v]
  | delims : ItemTokens .other [.chgDel, .delimSpec]
  | word (w v : Str) : ItemTokens .other [.asciiId w, .string v]
  | foreign (w v : Str) : ItemTokens .other [.bxWord w, .string v]
  | tag (v : Str) : ItemTokens (.tags [v]) [.tags, .string v]
  | tags {vs : List Str} {ts : List Token} : InParens .string vs ts → ItemTokens (.tags vs) (.tags :: ts)
  | sample (t : Str) : ItemTokens (.sample t) [.sample, .sampleText t, .endSample]
  | shapes {ds : List (ShapeName × List Str)} {ts : List Token} : ds ≠ [] → ShapeListTokens ds ts →
      ItemTokens (.shapes ds) (.shapes :: .sym '{'.toNat :: (ts ++ [.sym '}'.toNat]))
  | elastic {ns : List ShapeName} {ts : List Token} : InParens .shape ns ts → ItemTokens (.elastic ns) (.elastic :: ts)
  | replace (f : Option Char) (s r : Str) :
      ItemTokens (.replace f s r) (.replace :: (f.map Token.flag).toList ++ [.string s, .with, .string r])
  | reverse (f : Option Char) (s r : Str) :
      ItemTokens (.reverse f s r) (.reverse :: (f.map Token.flag).toList ++ [.string s, .to, .string r])
  | padding {es : List (Str × Int)} : es ≠ [] →
      ItemTokens (.padding es) (.padding :: .sym '{'.toNat :: (es.flatMap (fun e => [.asciiId e.1, .number e.2]) ++ [.sym '}'.toNat]))

/-- the tokens of the entries and blocks of a design -/
inductive LayoutTokens : List Item → List Token → Prop
  | nil : LayoutTokens [] []
  | cons {i : Item} {is : List Item} {t ts : List Token} : ItemTokens i t → LayoutTokens is ts → LayoutTokens (i :: is) (t ++ ts)

/-- the tokens of a design -/
inductive DesignTokens : Str → List Str → List Item → Str → List Token → Prop
  | mk (n : Str) (as : List Str) {is : List Item} (n' : Str) {ts : List Token} : is ≠ [] → LayoutTokens is ts →
      DesignTokens n as is n' (.box :: .asciiId n :: (as.flatMap (fun a => [.sym ','.toNat, .asciiId a]) ++ ts ++ [.endBox, .asciiId n']))

/-- Neither an entry or block of a design begins here nor is this the end of the design. -/
def NoEntry (ts : List Token) : Prop :=
  (∀ i t r, ItemTokens i t → ts ≠ t ++ r) ∧ ∀ n r, ts ≠ .endBox :: .asciiId n :: r

/-- the tokens of the aliases of a design -/
def aliasTokens (as : List Str) : List Token := as.flatMap (fun a => [.sym ','.toNat, .asciiId a])

/-- The tokens of a configuration file.  Tokens that neither begin a design nor name a parent are skipped.  In a design with a syntax
error, `bad` is the last item; what follows is skipped up to the next design or parent. -/
inductive FileTokens : List Decl → List Token → Prop
  | nil : FileTokens [] []
  | parent (p : Str) {ds : List Decl} {ts : List Token} : FileTokens ds ts → FileTokens (.parent p :: ds) (.parent :: .filename p :: ts)
  | design {n : Str} {as : List Str} {is : List Item} {n' : Str} {ds : List Decl} {t ts : List Token} : DesignTokens n as is n' t →
      FileTokens ds ts → FileTokens (.box n as is n' :: ds) (t ++ ts)
  | junk (t : Token) {ds : List Decl} {ts : List Token} : (t = .box → ∀ n r, ts ≠ .asciiId n :: r) →
      (t = .parent → ∀ p r, ts ≠ .filename p :: r) → FileTokens ds ts → FileTokens ds (t :: ts)
  | flawed (n : Str) (as : List Str) {is : List Item} {ds : List Decl} {t ts : List Token} : LayoutTokens is t → NoEntry ts →
      (∀ r, t ++ ts ≠ .sym ','.toNat :: r) → FileTokens ds ts →
      FileTokens (.box n as (is ++ [.bad]) [] :: ds) (.box :: .asciiId n :: (aliasTokens as ++ t ++ ts))
  | nothing (n : Str) (as : List Str) (n' : Str) {ds : List Decl} {ts : List Token} : FileTokens ds ts →
      FileTokens (.box n as [.bad] n' :: ds) (.box :: .asciiId n :: (aliasTokens as ++ .endBox :: .asciiId n' :: ts))
  | noAlias (n : Str) (as : List Str) {ds : List Decl} {ts : List Token} : (∀ a r, ts ≠ .asciiId a :: r) →
      FileTokens ds (aliasTokens as ++ .sym ','.toNat :: ts) →
      FileTokens (.box n [] [.bad] n :: ds) (.box :: .asciiId n :: (aliasTokens as ++ .sym ','.toNat :: ts))

end Boxes.Spec
