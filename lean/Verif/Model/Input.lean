import Verif.Model.Types
import Verif.Model.Tools

/-!
# Model of `src/input.c`
-/
namespace Boxes

/-- src/input.c:224 `fgets(buf, LINE_MAX_BYTES + 2, ...)`: at most `limit` bytes, up to and including a newline -/
def fgets (limit : Nat) : Str → Str × Str
  | [] => ([], [])
  | c :: r =>
    if limit = 0 then ([], c :: r)
    else if c = chNl then ([c], r)
    else
      let q := fgets (limit - 1) r
      (c :: q.1, q.2)

/-- src/input.c:224: all the pieces the reading loop sees (the first argument bounds the number of pieces) -/
def fgetsAll (limit : Nat) : Nat → Str → List Str
  | 0, _ => []
  | _ + 1, [] => []
  | fuel + 1, c :: r =>
    let q := fgets limit (c :: r)
    q.1 :: fgetsAll limit fuel q.2

/-- src/input.c:224 with the buffer size of line 218; `LINE_MAX_BYTES + 1` bytes fit in front of the terminator -/
def inputPieces (bytes : Str) : List Str := fgetsAll (lineMaxBytes + 1) bytes.length bytes

/-- src/input.c:43-52 `has_linebreak` -/
def hasLinebreak (s : Str) : Bool :=
  match s.getLast? with
  | some c => c == chCr || c == chNl
  | none => false

/-- src/input.c:199-202 and 203-206: remove `c` from the end of the text if it is there.  On an empty text the code reads
the memory in front of the buffer, of which `junk` is the content. -/
def stripLast (junk c : Nat) (s : Str) : Res Str :=
  match s.getLast? with
  | some d => if d = c then .ok s.dropLast else .ok s
  | none => if junk = c then .ub else .ok s

/-- src/input.c:195-212 `trim_trailing_ws_carefully` -/
def trimCarefully (db : CharDb) (opt : Opt) (junk : Nat) (s : Str) : Res Str :=
  if opt.r then do
    let t ← stripLast junk chNl s
    stripLast junk chCr t
  else .ok (btrim32 db s)

/-- src/input.c:238-261: one iteration of the reading loop, on the text of one piece in UTF-32 -/
def readLine (db : CharDb) (opt : Opt) (junk : Nat) (s : Str) : Res Line := do
  let t ← trimCarefully db opt junk s
  if t.length > 0 then
    let e := expandTabs (opt.tabexp = 'k') opt.tabstop t
    if e.1.length = 0 then .fail 1
    else .ok { text := fromUnicode db e.1, tabpos := e.2 }
  else .ok { text := some emptyBxs }

/-- src/input.c:224-264: the reading loop -/
def readLines (db : CharDb) (opt : Opt) (junk : Nat) : List Str → Res (List Line)
  | [] => .ok []
  | s :: r => do
    let l ← readLine db opt junk s
    let ls ← readLines db opt junk r
    .ok (l :: ls)

/-- src/input.c:216-272 `read_all_input` on the pieces read, converted to UTF-32 (the conversion is iconv's).
The check of `ferror(stdin)` is not modelled. -/
def readAllInput (db : CharDb) (opt : Opt) (junk : Nat) (pieces : List Str) : Res Input := do
  let ls ← readLines db opt junk pieces
  .ok { lines := ls, maxline := 0, indent := lineMaxBytes,
        finalNewline := match pieces.getLast? with
          | some s => hasLinebreak s
          | none => false }

/-- src/input.c:75-83: loop of `get_indent`, with `res` and `nonblank`; a NULL text is dereferenced -/
def getIndentLoop : List Line → Nat → Bool → Res (Nat × Bool)
  | [], res, nonblank => .ok (res, nonblank)
  | l :: r, res, nonblank => do
    let t ← Res.get l.text
    if t.cols > 0 then getIndentLoop r (if t.indent < res then t.indent else res) true
    else getIndentLoop r res nonblank

/-- src/input.c:62-91 `get_indent` -/
def getIndent (lines : List Line) : Res Nat :=
  if lines.length = 0 then .ok 0
  else do
    let q ← getIndentLoop lines lineMaxBytes false
    if q.2 then .ok q.1 else .ok 0

/-- src/tools.c:590-595 `analyze_line_ascii` on all lines, src/input.c:284-286 -/
def maxCols : List Line → Nat → Res Nat
  | [], m => .ok m
  | l :: r, m => do
    let t ← Res.get l.text
    maxCols r (if t.cols > m then t.cols else m)

/-- src/input.c:312-320: one line of the unindenting loop -/
def unindentLine (db : CharDb) (indent : Nat) (l : Line) : Res Line := do
  let t ← Res.get l.text
  if t.cols ≥ indent then .ok { l with text := t.cutFront db indent } else .ok l

/-- src/input.c:311-330: the unindenting loop -/
def unindentLines (db : CharDb) (indent : Nat) : List Line → Res (List Line)
  | [] => .ok []
  | l :: r => do
    let l' ← unindentLine db indent l
    let r' ← unindentLines db indent r
    .ok (l' :: r')

/-- A compiled replacement rule: `u32_regex_replace` as a black box; `none` is its NULL return. -/
abbrev Subst := Str → Option Str

/-- src/input.c:139-171: all rules applied to one line; second component: `maxline` -/
def substLine (db : CharDb) : List Subst → Line → Nat → Res (Line × Nat)
  | [], l, m => .ok (l, m)
  | f :: fs, l, m => do
    let t ← Res.get l.text
    match f t.memory with
    | none => .fail 1
    | some s => do
      let t' ← Res.get (fromUnicode db s)
      substLine db fs { l with text := some t' } (if t'.cols > m then t'.cols else m)

/-- src/input.c:138-172: loop over the lines -/
def substLines (db : CharDb) (rules : List Subst) : List Line → Nat → Res (List Line × Nat)
  | [], m => .ok ([], m)
  | l :: r, m => do
    let q ← substLine db rules l m
    let q' ← substLines db rules r q.2
    .ok (q.1 :: q'.1, q'.2)

/-- src/input.c:95-191 `apply_substitutions` once the patterns are compiled -/
def applySubstitutions (db : CharDb) (d : Design) (rules : List Subst) (i : Input) : Res Input := do
  let q ← substLines db rules i.lines i.maxline
  if d.indentmode = 't' then
    let n ← getIndent q.1
    .ok { i with lines := q.1, maxline := q.2, indent := n }
  else .ok { i with lines := q.1, maxline := q.2 }

/-- src/input.c:276-344 `analyze_input` -/
def analyzeInput (db : CharDb) (opt : Opt) (d : Design) (rules : List Subst) (i : Input) : Res Input := do
  let m ← maxCols i.lines 0
  if i.lines = [] then .ok { i with maxline := m, indent := lineMaxBytes }
  else
    let n ← getIndent i.lines
    let j ← (if d.indentmode ≠ 't' ∧ opt.r = false then do
        let ls ← unindentLines db n i.lines
        let m' ← Res.sub m n
        .ok { i with lines := ls, maxline := m', indent := n }
      else .ok { i with maxline := m, indent := n } : Res Input)
    if opt.r = false then applySubstitutions db d rules j else .ok j

end Boxes
