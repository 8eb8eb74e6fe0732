import Verif.Model.Unicode

/-!
# Model of `src/tools.c` and of string search in `src/unicode.c`
-/
namespace Boxes

/-- LINE_MAX_BYTES, src/boxes.in.h:50 (default value) -/
abbrev lineMaxBytes : Nat := 16382

/-! ## C library comparison functions -/

/-- C library `tolower` in the "C" locale -/
def toLower (c : Nat) : Nat := if 0x41 ≤ c ∧ c ≤ 0x5a then c + 32 else c

/-- `strncmp(a, b, n) == 0` on strings without embedded NUL; the end of a list is the terminator. -/
def strnEq : Nat → Str → Str → Bool
  | 0, _, _ => true
  | _ + 1, [], [] => true
  | n + 1, a :: as, b :: bs => a == b && strnEq n as bs
  | _ + 1, _, _ => false

/-- `strncasecmp(a, b, n) == 0` -/
def strnCaseEq (n : Nat) (a b : Str) : Bool := strnEq n (a.map toLower) (b.map toLower)

/-- `strcasecmp(a, b) == 0` -/
def strCaseEq (a b : Str) : Bool := a.map toLower == b.map toLower

/-- a string literal as list of character codes -/
def lit (s : String) : Str := s.toList.map Char.toNat

/-- src/tools.c:76-110 `strisyes` for a non-NULL string -/
def strIsYes (s : Str) : Bool :=
  if strnCaseEq 3 (lit "on") s then true
  else if strnCaseEq 4 (lit "yes") s then true
  else if strnCaseEq 5 (lit "true") s then true
  else if strnEq 2 (lit "1") s then true
  else if strnCaseEq 2 (lit "t") s then true
  else false

/-- src/tools.c:114-148 `strisno` for a non-NULL string -/
def strIsNo (s : Str) : Bool :=
  if strnCaseEq 4 (lit "off") s then true
  else if strnCaseEq 3 (lit "no") s then true
  else if strnCaseEq 6 (lit "false") s then true
  else if strnEq 2 (lit "0") s then true
  else if strnCaseEq 2 (lit "f") s then true
  else false

/-! ## string helpers -/

/-- A C buffer of `cap` characters together with the part written so far.  `strcpy` and `memcpy` to the end of that part
are modelled by `Buf.put`, which is undefined (`none`) when the data plus terminator do not fit. -/
structure Buf where
  cap : Nat
  data : Str
deriving DecidableEq

/-- write `s` behind the data written so far; one more place must remain for the terminator -/
def Buf.put (b : Buf) (s : Str) : Option Buf :=
  if b.data.length + s.length + 1 ≤ b.cap then some { b with data := b.data ++ s } else none

/-- src/tools.c:162-169: total length of the non-NULL arguments -/
def totalLen : List (Option Str) → Nat
  | [] => 0
  | none :: r => totalLen r
  | some s :: r => s.length + totalLen r

/-- src/tools.c:175-181: copying loop of `concat_strings_alloc` -/
def concatLoop : List (Option Str) → Buf → Option Buf
  | [], b => some b
  | none :: r, b => concatLoop r b
  | some s :: r, b => if s.length = 0 then concatLoop r b else do concatLoop r (← b.put s)

/-- src/tools.c:152-186 `concat_strings_alloc`; `none` inside the list is a NULL argument, result `none` a buffer overrun -/
def concatStringsAlloc (l : List (Option Str)) : Option Buf :=
  if l.length < 1 then some ⟨1, []⟩ else concatLoop l ⟨totalLen l + 1, []⟩

/-- src/tools.c:200-203: loop of `repeat` -/
def repeatLoop (s : Str) : Nat → Buf → Option Buf
  | 0, b => some b
  | n + 1, b => do repeatLoop s n (← b.put s)

/-- src/tools.c:190-207 `repeat` for a non-NULL string -/
def repeatStr (s : Str) (count : Nat) : Option Buf := repeatLoop s count ⟨count * s.length + 1, []⟩

/-- src/tools.c:679-697 `bx_strndup` for a non-NULL string -/
def bxStrndup (s : Str) (n : Nat) : Option Buf :=
  let len := if n < s.length then n else s.length
  Buf.put ⟨len + 1, []⟩ (s.take len)

/-- `*s == ' ' || *s == '\t'` in src/tools.c:649,652 -/
def isSpTab (c : Nat) : Bool := c == chSpace || c == chTab

/-- src/tools.c:649-651: advance `s` while it is not behind `e` and points to a blank.  Indices into the string; `e` is an
`Int` because the caller's end pointer may lie before the string's first character. -/
def trimFwd (str : Str) : Nat → Nat → Int → Nat
  | 0, s, _ => s
  | fuel + 1, s, e =>
    if (s : Int) ≤ e ∧ (str[s]?.elim false isSpTab) = true then trimFwd str fuel (s + 1) e else s

/-- src/tools.c:652-654: move `e` back while it is behind `s` and points to a blank -/
def trimBack (str : Str) (s : Nat) : Nat → Int → Int
  | 0, e => e
  | fuel + 1, e =>
    if e > (s : Int) ∧ (str[e.toNat]?.elim false isSpTab) = true then trimBack str s fuel (e - 1) else e

/-- src/tools.c:644-656 `trimdup`: `s` and `e` are indices of the first and last character of the range.  The terminator is
not blank, so reading it ends both loops. -/
def trimdup (str : Str) (s : Nat) (e : Int) : Option Buf :=
  if (s : Int) > e ∨ ((s : Int) = e ∧ str[s]? = none) then some ⟨1, []⟩
  else
    let s' := trimFwd str (str.length + 1) s e
    let e' := trimBack str s' (str.length + 1) e
    bxStrndup (str.drop s') (e' - s' + 1).toNat

/-- src/tools.c:343-359 `my_strrspn`: loop from the last character backwards over the reversed string -/
def strrspnLoop (accept : Str) : Str → Nat
  | [] => 0
  | c :: r => if accept.contains c then 1 + strrspnLoop accept r else 0

/-- src/tools.c:343-359 `my_strrspn` for non-NULL arguments -/
def myStrrspn (s accept : Str) : Nat :=
  if s.length = 0 then 0 else if accept.length = 0 then 0 else strrspnLoop accept s.reverse

/-- src/tools.c:599-611 `array_contains0` -/
def arrayContains0 (a : List Str) (s : Str) : Bool := a.any (strCaseEq · s)

/-! ## tabs -/

/-- src/tools.c:255-269: main loop of `expand_tabs_into`.  `out` is the work string so far (its length is `io`), `tabs` the
tab positions recorded so far.  Result: work string and recorded positions. -/
def expandLoop (tabstop : Nat) : Str → Str → List Nat → Str × List Nat
  | [], out, tabs => (out, tabs)
  | c :: rest, out, tabs =>
    if out.length < lineMaxBytes - 12 then
      if c = chTab then
        expandLoop tabstop rest (out ++ nspaces (tabstop - out.length % tabstop)) (tabs ++ [out.length])
      else expandLoop tabstop rest (out ++ [c]) tabs
    else (out, tabs)

/-- src/tools.c:221-276 `expand_tabs_into`.  `keep` is `opt.tabexp == 'k'`.  Result: the text, and `tabpos` as an array of
`tabpos_len` entries; entries that were not reached keep the 0 written by `calloc`. -/
def expandTabs (keep : Bool) (tabstop : Nat) (s : Str) : Str × List Nat :=
  let r := expandLoop tabstop s [] []
  let tabposLen := if keep then s.count chTab else 0
  (r.1, if tabposLen > 0 then r.2 ++ List.replicate (tabposLen - r.2.length) 0 else [])

/-- src/tools.c:386-396: loop of `tabbify_indent`.  `buf` is the buffer `result` (fixed size), `len` is `result_len`.
`none`: size_t underflow of `result_len` or an index outside of the buffer. -/
def tabbifyLoop (tabstop inputIndent indentLen : Nat) : List Nat → Str → Nat → Option Str
  | [], buf, _ => some buf
  | tpos :: more, buf, len =>
    if tpos < indentLen then
      let nspc := tabstop - tpos % tabstop
      if tpos + nspc > inputIndent then some buf
      else if nspc - 1 > len then none
      else
        let len' := len - (nspc - 1)
        if tpos < buf.length ∧ len' < buf.length then
          tabbifyLoop tabstop inputIndent indentLen more ((buf.set tpos chTab).set len' 0) len'
        else none
    else some buf

/-- a NUL-terminated string inside a buffer -/
def cstr (buf : Str) : Str := buf.takeWhile (· != 0)

/-- src/tools.c:363-400 `tabbify_indent` in mode 'k' for a valid line number: `tabpos` are the recorded tab positions of the
line, `inputIndent` is `input.indent`.  (In other modes the function returns `indentspc` unchanged, lines 369-371.) -/
def tabbifyIndent (tabstop inputIndent : Nat) (tabpos : List Nat) (indentLen : Nat) : Option Str :=
  if indentLen = 0 then some []
  else (tabbifyLoop tabstop inputIndent indentLen tabpos (nspaces indentLen ++ [0]) indentLen).map cstr

/-- src/generate.c:888-910 and src/remove.c:1191-1203: indentation in mode 'u' (unexpand) -/
def unexpandIndent (tabstop indent : Nat) : Str :=
  List.replicate (indent / tabstop) chTab ++ List.replicate (indent % tabstop) chSpace

/-! ## trailing white space -/

/-- src/tools.c:289-291: `'\n'`, `'\r'`, `'\t'`, `' '` -/
def isTrimWs (c : Nat) : Bool := c == chNl || c == chCr || c == chTab || c == chSpace

/-- src/tools.c:280-294 `btrim` (the text is a NUL-terminated string of length `*len`) -/
def btrim (s : Str) : Str := (s.reverse.dropWhile isTrimWs).reverse

/-- src/tools.c:318-325: loop of `btrim32`, on the rest of the text beginning at position `pos`; `last` is `last_char_pos + 1`
(0 for none) -/
def btrim32Loop (db : CharDb) : Nat → Nat → Str → Nat → Nat
  | 0, _, _, last => last
  | _ + 1, _, [], last => last
  | fuel + 1, pos, c :: r, last =>
    let last' := if c ≠ chEsc ∧ !db.white c then pos + 1 else last
    let rest := (advanceNext (c :: r)).1
    btrim32Loop db fuel (pos + ((c :: r).length - rest.length)) rest last'

/-- src/tools.c:298-339 `btrim32`: removes trailing white space; one escape sequence behind the last character is kept -/
def btrim32 (db : CharDb) (s : Str) : Str :=
  let last := btrim32Loop db s.length 0 s 0
  if last > 0 then
    match s.drop last with
    | [] => s.take last
    | c :: r => if c = chEsc then s.take (last + (advanceNext (c :: r)).2) else s.take last
  else []

/-! ## search -/

/-- `u32_strrchr`: position of the last occurrence of a character -/
def strrchr (s : Str) (c : Nat) : Option Nat :=
  (List.range s.length).reverse.find? fun i => s[i]? == some c

/-- src/unicode.c:332-337: from position `p` downwards -/
def strnrstrLoop (haystack needle : Str) (n : Nat) : Nat → Option Nat
  | 0 => if strnEq n haystack needle then some 0 else none
  | p + 1 => if strnEq n (haystack.drop (p + 1)) needle then some (p + 1) else strnrstrLoop haystack needle n p

/-- src/unicode.c:318-340 `u32_strnrstr`: position of the last occurrence of the first `n` characters of `needle` -/
def strnrstr (haystack needle : Str) (n : Nat) : Option Nat :=
  match needle with
  | [] => some 0
  | c :: _ =>
    if haystack.length = 0 then none
    else match strrchr haystack c with
      | none => none
      | some p => strnrstrLoop haystack needle n p

/-! ## regular expressions for identifiers -/

/-- The part of PCRE2 syntax used in src/tools.c:61,67.  `cls`: one character of a class; `star`: any number of them;
`eol`: `$` without PCRE2_MULTILINE and PCRE2_DOLLAR_ENDONLY (end, or before a newline at the end);
`notAhead r`: `(?!r)`; `notBehind p`: `(?<!p)` for one character. -/
inductive Re where
  | bol | eol
  | cls (p : Nat → Bool)
  | star (p : Nat → Bool)
  | seq (a b : Re)
  | alt (a b : Re)
  | notAhead (a : Re)
  | notBehind (p : Nat → Bool)

/-- all ways in which `p*` can consume characters: pairs of what is before (reversed) and after the end of the match -/
def runStar (p : Nat → Bool) : Str → Str → List (Str × Str)
  | pre, [] => [(pre, [])]
  | pre, c :: r => (pre, c :: r) :: (if p c then runStar p (c :: pre) r else [])

/-- All matches of an expression at a position, the position being given by the text before it (reversed) and after it. -/
def Re.run : Re → Str → Str → List (Str × Str)
  | .bol, pre, post => if pre.isEmpty then [(pre, post)] else []
  | .eol, pre, post => if post.isEmpty || post == [chNl] then [(pre, post)] else []
  | .cls p, pre, post => match post with
    | [] => []
    | c :: r => if p c then [(c :: pre, r)] else []
  | .star p, pre, post => runStar p pre post
  | .seq a b, pre, post => (a.run pre post).flatMap fun q => b.run q.1 q.2
  | .alt a b, pre, post => a.run pre post ++ b.run pre post
  | .notAhead a, pre, post => if (a.run pre post).isEmpty then [(pre, post)] else []
  | .notBehind p, pre, post => match pre with
    | [] => [(pre, post)]
    | c :: _ => if p c then [] else [(pre, post)]

/-- src/regulex.c:83-89 `u32_regex_match`, for an expression that starts with `^` (so only position 0 can match) -/
def Re.matches (r : Re) (s : Str) : Bool := !(r.run [] s).isEmpty

/-- a sequence of characters -/
def Re.word : Str → Re
  | [] => .star (fun _ => false)
  | c :: r => .seq (.cls (· == c)) (Re.word r)

/-- `.` without PCRE2_DOTALL -/
def reDot (c : Nat) : Bool := c != chNl
/-- `[a-z]` -/
def isLowerLetter (c : Nat) : Bool := 0x61 ≤ c && c ≤ 0x7a
/-- `[A-Z]` -/
def isUpperLetter (c : Nat) : Bool := 0x41 ≤ c && c ≤ 0x5a
/-- `[0-9]` -/
def isDigit (c : Nat) : Bool := 0x30 ≤ c && c ≤ 0x39
/-- `-` -/
def isDash (c : Nat) : Bool := c == 0x2d
/-- `[-_]` -/
def isDashUnder (c : Nat) : Bool := c == 0x2d || c == 0x5f

/-- src/tools.c:61: `^(?!.*?--|none)[a-z][a-z0-9-]*(?<!-)$` -/
def reAsciiIdStrict : Re :=
  .seq .bol (.seq (.notAhead (.alt (.seq (.star reDot) (.seq (.cls isDash) (.cls isDash))) (Re.word (lit "none"))))
    (.seq (.cls isLowerLetter) (.seq (.star fun c => isLowerLetter c || isDigit c || isDash c)
      (.seq (.notBehind isDash) .eol))))

/-- src/tools.c:67: `^(?!.*?[-_]{2,}|none)[a-zA-Z][a-zA-Z0-9_-]*(?<![-_])$`; `[-_]{2,}` is two of them and then any number -/
def reAsciiId : Re :=
  .seq .bol (.seq (.notAhead (.alt
      (.seq (.star reDot) (.seq (.cls isDashUnder) (.seq (.cls isDashUnder) (.star isDashUnder)))) (Re.word (lit "none"))))
    (.seq (.cls fun c => isLowerLetter c || isUpperLetter c)
      (.seq (.star fun c => isLowerLetter c || isUpperLetter c || isDigit c || isDashUnder c)
        (.seq (.notBehind isDashUnder) .eol))))

/-- src/tools.c:660-664 `tag_is_valid` (after conversion from ASCII, which turns other bytes into `?`) -/
def tagIsValid (tag : Str) : Bool := reAsciiIdStrict.matches tag

/-- src/tools.c:668-675 `is_ascii_id` for a non-NULL string with characters `s` -/
def isAsciiId (s : Str) (strict : Bool) : Bool :=
  if s.length = 0 then false
  else if strict then reAsciiIdStrict.matches s else reAsciiId.matches s

end Boxes
