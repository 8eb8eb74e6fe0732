import Verif.Model.Lexer

/-!
# Model of the scanner `src/lexer.l` and of the grammar in `src/parser.y`

The scanner works on bytes in UTF-8; the model works on the characters of a valid UTF-8 file without NUL characters.  (A
character that makes no sense where it occurs is one token here and one per byte in the C code.)  In each mode, flex takes the
rule with the longest match, and the first one if there are several of the same length.
-/
namespace Boxes
open ShapeName

/-- src/lexer.l:97-103: the start conditions; `initial` is flex's INITIAL -/
inductive Mode where
  | initial | box | sample | shapes | elastic | delimspec | parent
deriving DecidableEq, Repr

/-- src/parser.y:128-138: the tokens.  `sampleText` is the STRING that is the text of a sample block.  The texts of STRING,
FILENAME and `sampleText` are given as characters, before they are analysed.  A single character is `sym`. -/
inductive Token where
  | parent | box | endBox | shapes | elastic | padding | sample | endSample | replace | reverse | to | with | chgDel | delimSpec | tags
  | unrec
  | filename (s : Str)
  | sampleText (s : Str)
  | keyword (s : Str)
  | bxWord (s : Str)
  | asciiId (s : Str)
  | string (s : Str)
  | shape (n : ShapeName)
  | number (n : Int)
  | flag (c : Char)
  | sym (c : Nat)
deriving DecidableEq, Repr

/-- the state of the scanner between two tokens -/
structure Scanner where
  mode : Mode := .initial
  delims : Delims := defaultDelims
deriving DecidableEq, Repr

/-- src/lexer.l:122 `PWHITE` -/
def isPwhite (c : Nat) : Bool := c == chSpace || c == chTab || c == chCr || c == chNl
/-- `[a-zA-Z]` -/
def isLetter (c : Nat) : Bool := (0x41 ≤ c && c ≤ 0x5a) || (0x61 ≤ c && c ≤ 0x7a)
/-- first character of `PWORD`, src/lexer.l:120 -/
def isWordStart (c : Nat) : Bool := isLetter c || 0x80 ≤ c
/-- further characters of `PWORD`, src/lexer.l:120 -/
def isWordChar (c : Nat) : Bool := isLetter c || isDigit c || c == 0x5f || c == 0x2d || 0x80 ≤ c
/-- src/lexer.l:110 `PBOM` -/
def chBom : Nat := 0xfeff
/-- `'#'` -/
def chHash : Nat := 0x23

/-- the rest of the line up to the newline (`.*$`); `none` if there is no newline: `$` does not match at the end of the file -/
def lineRest (s : Str) : Option Str := if s.contains chNl then some (s.takeWhile (fun c => c != chNl)) else none

/-- src/shape.c:35-37 `shape_name`, in lower case -/
def shapeWord : ShapeName → Str
  | NW => lit "nw" | NNW => lit "nnw" | N => lit "n" | NNE => lit "nne" | NE => lit "ne" | ENE => lit "ene" | E => lit "e"
  | ESE => lit "ese" | SE => lit "se" | SSE => lit "sse" | S => lit "s" | SSW => lit "ssw" | SW => lit "sw" | WSW => lit "wsw"
  | W => lit "w" | WNW => lit "wnw"

/-- src/lexer.l:334-349: the shape with this name, in any case -/
def shapeNamed (w : Str) : Option ShapeName := allShapes.find? (fun n => strCaseEq w (shapeWord n))

/-- src/lexer.l:334-349: the longest shape name at the beginning of the text, and its length -/
def shapeToken (text : Str) : Option (ShapeName × Nat) :=
  match shapeNamed (text.take 3) with
  | some n => some (n, 3)
  | none =>
    match shapeNamed (text.take 2) with
    | some n => some (n, 2)
    | none => (shapeNamed (text.take 1)).map (fun n => (n, 1))

/-- src/lexer.l:230-234, 294-309, 319-331, 364-398: a word of ASCII characters in mode BOX: the token, the mode, and the delimiters
if they change -/
def boxWord (dl : Delims) (w : Str) : Token × Scanner :=
  if strCaseEq w (lit "sample") then (.sample, ⟨.sample, dl⟩)
  else if strCaseEq w (lit "tags") then (.tags, ⟨.box, dl⟩)
  else if strCaseEq w (lit "elastic") then (.elastic, ⟨.elastic, dl⟩)
  else if strCaseEq w (lit "shapes") then (.shapes, ⟨.shapes, dl⟩)
  else if strCaseEq w (lit "replace") then (.replace, ⟨.box, dl⟩)
  else if strCaseEq w (lit "reverse") then (.reverse, ⟨.box, dl⟩)
  else if strCaseEq w (lit "padding") then (.padding, ⟨.box, dl⟩)
  else if strCaseEq w (lit "to") then (.to, ⟨.box, dl⟩)
  else if strCaseEq w (lit "with") then (.with, ⟨.box, dl⟩)
  else if strCaseEq w (lit "global") then (.flag 'g', ⟨.box, dl⟩)
  else if strCaseEq w (lit "once") then (.flag 'o', ⟨.box, dl⟩)
  else if strCaseEq w (lit "end") then (.endBox, ⟨.initial, defaultDelims⟩)
  else if strCaseEq w (lit "author") || strCaseEq w (lit "designer") || strCaseEq w (lit "indent") then (.keyword w, ⟨.box, dl⟩)
  else if strCaseEq w (lit "delimiter") || strCaseEq w (lit "delim") then (.chgDel, ⟨.delimspec, dl⟩)
  else (.asciiId w, ⟨.box, dl⟩)

/-- src/lexer.l:204-208, 311-317: a word of ASCII characters in mode INITIAL -/
def initialWord (dl : Delims) (w : Str) : Token × Scanner :=
  if strCaseEq w (lit "parent") then (.parent, ⟨.parent, dl⟩)
  else if strCaseEq w (lit "box") then (.box, ⟨.box, defaultDelims⟩)
  else (.asciiId w, ⟨.initial, dl⟩)

/-- One token or the skipping of a character or comment: the token if there is one, the new state, and the remaining text -/
abbrev Step := Option Token × Scanner × Str

/-- src/lexer.l:137, 204-208, 294-331, 364-418: a word in mode INITIAL or BOX.  `{PWORD}` is longer than the keywords and `{PASCII_ID}` if there are
other characters than ASCII in it; a byte order mark that stands alone is skipped. -/
def scanWord (sc : Scanner) (text : Str) : Step :=
  let w := text.takeWhile isWordChar
  let rest := text.dropWhile isWordChar
  if w = [chBom] then (none, sc, rest)
  else if w.all (fun c => c < 0x80) then
    let (t, sc') := if sc.mode = .initial then initialWord sc.delims w else boxWord sc.delims w
    (some t, sc', rest)
  else (some (.bxWord w), sc, rest)

/-- src/lexer.l:433-436: a comment -/
def scanComment (sc : Scanner) (rest : Str) : Step :=
  match lineRest rest with
  | some l => (none, sc, rest.drop l.length)
  | none => (some .unrec, sc, rest)

/-- src/lexer.l:154-201: a string in mode BOX or SHAPES; `text` begins with one of the characters of `SDELIM` -/
def scanString (sc : Scanner) (text : Str) : Step :=
  match lineRest text with
  | none => (some .unrec, sc, text.drop 1)
  | some line =>
    match stringToken sc.delims line with
    | .reject => (some .unrec, sc, text.drop 1)
    | .unterminated => (some .unrec, sc, text.drop line.length)
    | .token t r => (some (.string t), sc, r ++ text.drop line.length)

/-- `atoi` of `[\+-]?[0-9]+`; overflow is not modelled -/
def decimalValue (s : Str) : Nat := s.foldl (fun v c => v * 10 + (c - 0x30)) 0

/-- src/lexer.l:420-424: a number in mode BOX; `c` is a digit or a sign -/
def scanNumber (sc : Scanner) (c : Nat) (rest : Str) : Step :=
  if isDigit c then (some (.number (decimalValue ((c :: rest).takeWhile isDigit))), sc, (c :: rest).dropWhile isDigit)
  else
    let ds := rest.takeWhile isDigit
    if ds = [] then (some .unrec, sc, rest)
    else (some (.number (if c = '-'.toNat then - (decimalValue ds : Int) else decimalValue ds)), sc, rest.dropWhile isDigit)

/-- mode INITIAL -/
def scanInitial (sc : Scanner) (c : Nat) (rest : Str) : Step :=
  if isPwhite c then (none, sc, rest)
  else if isWordStart c then scanWord sc (c :: rest)
  else if c = chHash then scanComment sc rest
  else (some .unrec, sc, rest)

/-- src/lexer.l:427 `[,(){}]` -/
def isSymbol (c : Nat) : Bool := (lit ",(){}").contains c

/-- mode BOX -/
def scanBox (sc : Scanner) (c : Nat) (rest : Str) : Step :=
  if isPwhite c then (none, sc, rest)
  else if lexSdelim.contains c then scanString sc (c :: rest)
  else if isWordStart c then scanWord sc (c :: rest)
  else if isDigit c || c == '+'.toNat || c == '-'.toNat then scanNumber sc c rest
  else if isSymbol c then (some (.sym c), sc, rest)
  else if c = chHash then scanComment sc rest
  else (some .unrec, sc, rest)

/-- modes SHAPES and ELASTIC: there are no strings in ELASTIC.  `}` ends SHAPES, `)` ends ELASTIC (src/lexer.l:351-361). -/
def scanShapes (sc : Scanner) (c : Nat) (rest : Str) : Step :=
  if isPwhite c || c == chBom then (none, sc, rest)
  else if sc.mode = .shapes && lexSdelim.contains c then scanString sc (c :: rest)
  else
    match shapeToken (c :: rest) with
    | some (n, len) => (some (.shape n), sc, (c :: rest).drop len)
    | none =>
      if isSymbol c then
        let closes := if sc.mode = .shapes then c = '}'.toNat else c = ')'.toNat
        (some (.sym c), if closes then { sc with mode := .box } else sc, rest)
      else if c = chHash then scanComment sc rest
      else (some .unrec, sc, rest)

/-- src/lexer.l:137-151: mode DELIMSPEC -/
def scanDelimspec (sc : Scanner) (c : Nat) (rest : Str) : Step :=
  if isPwhite c then (none, sc, rest)
  else
    let w := (c :: rest).takeWhile (fun c => !isPwhite c)
    let rest' := (c :: rest).dropWhile (fun c => !isPwhite c)
    if w = [chBom] then (none, sc, rest')
    else
      match changeStringDelimiters w with
      | some dl => (some .delimSpec, ⟨.box, dl⟩, rest')
      | none => (some .unrec, { sc with mode := .box }, rest')

/-- src/lexer.l:210-227: mode PARENT; `none`: no rule matches and the scanner exits -/
def scanParent (sc : Scanner) (c : Nat) (rest : Str) : Option Step :=
  let eol := fun c => c == chCr || c == chNl
  if eol c then
    if c = chNl then some (none, { sc with mode := .initial }, rest)
    else if rest.head? = some chNl then some (none, { sc with mode := .initial }, rest.drop 1)
    else none
  else some (some (.filename ((c :: rest).takeWhile (fun c => !eol c))), { sc with mode := .initial }, (c :: rest).dropWhile (fun c => !eol c))

/-- `ends[ \t\r]*$`: the rest of the text, beginning with the newline -/
def matchEnds (text : Str) : Option Str :=
  if strCaseEq (text.take 4) (lit "ends") then
    let r := (text.drop 4).dropWhile (fun c => isSpTab c || c == chCr)
    if r.head? = some chNl then some r else none
  else none

/-- src/lexer.l:236-291: mode SAMPLE.  `acc` is the text collected by `yymore`, `bol` says whether the last character was a newline.
A newline that is the first character is dropped.  The result is the tokens that are found and the rest of the text, in
mode BOX; `none` if the end of the file is reached. -/
def scanSample (bol : Bool) (acc : Str) : Str → Option (List Token × Str)
  | [] => none
  | c :: rest =>
    let blanks := (c :: rest).takeWhile isSpTab
    match (if bol then matchEnds ((c :: rest).drop blanks.length) else none) with
    | some r => some ([.sampleText (acc ++ blanks), .endSample], r)
    | none =>
      match matchEnds (c :: rest) with
      | some r => some ([.endSample], r)
      | none =>
        if c = chNl then scanSample true (if acc = [] then [] else acc ++ [chNl]) rest
        else scanSample false (acc ++ [c]) rest

/-- one step of the scanner in any mode but SAMPLE -/
def scanStep (sc : Scanner) (c : Nat) (rest : Str) : Option Step :=
  match sc.mode with
  | .initial => some (scanInitial sc c rest)
  | .box => some (scanBox sc c rest)
  | .shapes => some (scanShapes sc c rest)
  | .elastic => some (scanShapes sc c rest)
  | .delimspec => some (scanDelimspec sc c rest)
  | .parent => scanParent sc c rest
  | .sample => none

/-- All tokens of a text; `none`: the scanner exits.  `fuel` is a bound for the number of steps; each consumes a character. -/
def scan : Nat → Scanner → Str → Option (List Token)
  | 0, _, _ => some []
  | _ + 1, _, [] => some []
  | fuel + 1, sc, c :: rest =>
    if sc.mode = .sample then
      match scanSample false [] (c :: rest) with
      | none => some []
      | some (ts, rest') => (scan fuel { sc with mode := .box } rest').map (ts ++ ·)
    else
      match scanStep sc c rest with
      | none => none
      | some (t, sc', rest') => (scan fuel sc' rest').map (t.toList ++ ·)

/-! ## Grammar -/

/-- src/parser.y:252 `tag_list`, behind the first entry: up to the closing parenthesis -/
def tagsTail : List Token → Option (List Str × List Token)
  | .sym c :: rest =>
    if c = ')'.toNat then some ([], rest)
    else if c = ','.toNat then
      match rest with
      | .string s :: rest' => (tagsTail rest').map (fun p => (s :: p.1, p.2))
      | _ => none
    else none
  | _ => none

/-- src/parser.y:344 `elist`, behind the first entry -/
def elasticTail : List Token → Option (List ShapeName × List Token)
  | .sym c :: rest =>
    if c = ')'.toNat then some ([], rest)
    else if c = ','.toNat then
      match rest with
      | .shape n :: rest' => (elasticTail rest').map (fun p => (n :: p.1, p.2))
      | _ => none
    else none
  | _ => none

/-- src/parser.y:355-406 `slist` with `shape_def` and `shape_lines`, behind the first entry.  The first argument is fuel. -/
def shapesTail : Nat → List Token → Option (List (ShapeName × List Str) × List Token)
  | 0, _ => none
  | fuel + 1, .shape n :: .sym o :: rest =>
    if o ≠ '('.toNat then none
    else
      match rest with
      | .sym c :: rest' => if c = ')'.toNat then (shapesTail fuel rest').map (fun p => ((n, []) :: p.1, p.2)) else none
      | .string s :: rest' =>
        (tagsTail rest').bind (fun q => (shapesTail fuel q.2).map (fun p => ((n, s :: q.1) :: p.1, p.2)))
      | _ => none
  | _ + 1, .sym c :: rest => if c = '}'.toNat then some ([], rest) else none
  | _ + 1, _ => none

/-- src/parser.y:409-415 `wlist` -/
def paddingTail : List Token → Option (List (Str × Int) × List Token)
  | .asciiId a :: .number n :: rest => (paddingTail rest).map (fun p => ((a, n) :: p.1, p.2))
  | .sym c :: rest => if c = '}'.toNat then some ([], rest) else none
  | _ => none

/-- src/parser.y:333-341 `rflag` -/
def ruleFlag : List Token → Option Char × List Token
  | .flag c :: rest => (some c, rest)
  | rest => (none, rest)

/-- src/parser.y:255-330 `entry` and `block`: the first item and the remaining tokens; `none` is a syntax error.  (PARENT does not
occur in a design, as the scanner does not know it there.) -/
def firstItem : List Token → Option (Item × List Token)
  | .keyword k :: .string v :: rest => some (.keyword k v, rest)
  | .chgDel :: .delimSpec :: rest => some (.other, rest)
  | .tags :: .string s :: rest => some (.tags [s], rest)
  | .tags :: .sym c :: .string s :: rest =>
    if c = '('.toNat then (tagsTail rest).map (fun p => (.tags (s :: p.1), p.2)) else none
  | .bxWord _ :: .string _ :: rest => some (.other, rest)
  | .asciiId _ :: .string _ :: rest => some (.other, rest)
  | .sample :: .sampleText s :: .endSample :: rest => some (.sample s, rest)
  | .shapes :: .sym c :: .shape n :: rest =>
    if c = '{'.toNat then (shapesTail (rest.length + 2) (.shape n :: rest)).map (fun p => (.shapes p.1, p.2)) else none
  | .elastic :: .sym c :: .shape n :: rest =>
    if c = '('.toNat then (elasticTail rest).map (fun p => (.elastic (n :: p.1), p.2)) else none
  | .replace :: rest =>
    match ruleFlag rest with
    | (f, .string s :: .with :: .string r :: rest') => some (.replace f s r, rest')
    | _ => none
  | .reverse :: rest =>
    match ruleFlag rest with
    | (f, .string s :: .to :: .string r :: rest') => some (.reverse f s r, rest')
    | _ => none
  | .padding :: .sym c :: .asciiId a :: rest =>
    if c = '{'.toNat then (paddingTail (.asciiId a :: rest)).map (fun p => (.padding p.1, p.2)) else none
  | _ => none

/-- src/parser.y:244 `layout` and the end of the design: the items, the name behind END, and the remaining tokens.  In case of
a syntax error, `bad` is the last item. -/
def layoutItems : Nat → List Token → List Item × Str × List Token
  | 0, toks => ([.bad], [], toks)
  | fuel + 1, toks =>
    match toks with
    | .endBox :: .asciiId n :: rest => ([], n, rest)
    | _ =>
      match firstItem toks with
      | some (i, rest) =>
        let (is, n, rest') := layoutItems fuel rest
        (i :: is, n, rest')
      | none => ([.bad], [], toks)

/-- src/parser.y:217-231 `design_id`, behind the name: the aliases; `none` is a syntax error -/
def aliasNames : List Token → Option (List Str × List Token)
  | .sym c :: .asciiId a :: rest =>
    if c = ','.toNat then (aliasNames rest).map (fun p => (a :: p.1, p.2)) else some ([], .sym c :: .asciiId a :: rest)
  | .sym c :: rest => if c = ','.toNat then none else some ([], .sym c :: rest)
  | rest => some ([], rest)

/-- src/parser.y:197 `config_file`.  A design with a syntax error has the item `bad`; the actions for the part of an item that
comes before a syntax error are not modelled.  After an error, tokens are discarded up to the next BOX or PARENT. -/
def declarations : Nat → List Token → List Decl
  | 0, _ => []
  | fuel + 1, toks =>
    match toks with
    | [] => []
    | .parent :: .filename p :: rest => .parent p :: declarations fuel rest
    | .box :: .asciiId n :: rest =>
      match aliasNames rest with
      | none => .box n [] [.bad] n :: declarations fuel rest
      | some (as, rest') =>
        let (is, n', rest'') := layoutItems (rest'.length + 1) rest'
        .box n as (if is = [] then [.bad] else is) n' :: declarations fuel rest''
    | _ :: rest => declarations fuel rest

/-- what the scanner and the grammar make of the text of a configuration file; `none`: the scanner exits -/
def readDecls (text : Str) : Option (List Decl) :=
  (scan (text.length + 1) {} text).map (fun toks => declarations (toks.length + 1) toks)

end Boxes
