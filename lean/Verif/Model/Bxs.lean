import Verif.Model.Unicode

/-!
# Model of `src/bxstring.c`
-/
namespace Boxes

/-- src/bxstring.h:30-76 `bxstr_t`.  `memory` and `ascii` without their terminators. -/
structure Bxs where
  memory : Str
  ascii : Str
  indent : Nat
  cols : Nat
  numChars : Nat
  vis : Nat
  invis : Nat
  trailing : Nat
  firstChar : List Nat
  visChar : List Nat
deriving DecidableEq, Repr

/-- The local variables of `bxs_from_unicode` (src/bxstring.c:90-106) that change in its loop.
`firstCand = none` is `first_candidate == -1`.  `ascii` is the text written through `ascii_ptr` so far.
The two maps grow by one entry per visible character; the C code writes entry `num_chars_visible`, which it increments
exactly if the character was visible, so that appending is the same. -/
structure FuState where
  ascii : Str
  indent : Nat
  cols : Nat
  vis : Nat
  invis : Nat
  firstChar : List Nat
  visChar : List Nat
  indentActive : Bool
  streak : Nat
  firstCand : Option Nat
  nonBlank : Bool
  idx : Nat

/-- src/bxstring.c:90-106: initial values -/
def FuState.init : FuState :=
  { ascii := [], indent := 0, cols := 0, vis := 0, invis := 0, firstChar := [], visChar := [],
    indentActive := true, streak := 0, firstCand := none, nonBlank := false, idx := 0 }

/-- `BMAX(0, uc_width(c, encoding))`, src/bxstring.c:139 -/
def CharDb.cols (db : CharDb) (c : Nat) : Nat := (db.width c).toNat

/-- src/bxstring.c:129-144: columns of a character other than ESC -/
def charCols (db : CharDb) (c : Nat) : Nat :=
  if isAsciiPrintable c then 1 else if c = chTab then 1 else db.cols c

/-- src/bxstring.c:130-144: text written to `ascii` for a character other than ESC -/
def charAscii (db : CharDb) (c : Nat) : Str :=
  if isAsciiPrintable c then [c]
  else if c = chTab then [chSpace]
  else List.replicate (db.cols c) (if db.ucBlank c then chSpace else 0x78)

/-- src/bxstring.c:120-155: first part of the loop body (`rest` starts with `c`) -/
def fuChar (db : CharDb) (st : FuState) (c : Nat) (rest : Str) : FuState :=
  if c = chEsc then
    { st with firstCand := if isCsiReset rest then none else some st.idx }
  else
    let cols := charCols db c
    { st with
      ascii := st.ascii ++ charAscii db c
      indent := if isBlank db c && st.indentActive then st.indent + cols else st.indent
      streak := if isBlank db c then st.streak + 1 else st.streak
      cols := st.cols + cols
      visChar := st.visChar ++ [st.idx]
      firstChar := st.firstChar ++ [st.firstCand.getD st.idx]
      firstCand := none }

/-- src/bxstring.c:157-161: second part of the loop body -/
def fuBlank (db : CharDb) (st : FuState) (c : Nat) : FuState :=
  if !isBlank db c && c != chEsc then
    { st with indentActive := false, streak := 0, nonBlank := true }
  else st

/-- src/bxstring.c:165-172: third part of the loop body -/
def fuStep (st : FuState) (stepInvis : Nat) : FuState :=
  if stepInvis = 0 then { st with vis := st.vis + 1, idx := st.idx + 1 }
  else { st with invis := st.invis + stepInvis, idx := st.idx + stepInvis }

/-- src/bxstring.c:108-173: the loop of `bxs_from_unicode`.  The first argument bounds the number of iterations; it is
always given as the length of the string, of which every iteration consumes at least one character.
`none` is the error return for an illegal character (lines 115-119). -/
def fuLoop (db : CharDb) : Nat → FuState → Str → Option FuState
  | _, st, [] => some st
  | 0, _, _ :: _ => none
  | fuel + 1, st, c :: rest =>
    if !isAllowedAnywhere db c then none
    else
      let st1 := fuBlank db (fuChar db st c (c :: rest)) c
      let (rest', stepInvis) := advanceNext (c :: rest)
      fuLoop db fuel (fuStep st1 stepInvis) rest'

/-- src/bxstring.c:83-180 `bxs_from_unicode` (`none`: NULL because of an illegal character).
The sizes of the maps and of the `ascii` buffer (lines 93-97, 109-113) are in `Verif.Model.Capacity`. -/
def fromUnicode (db : CharDb) (s : Str) : Option Bxs :=
  (fuLoop db s.length FuState.init s).map fun st =>
    { memory := s
      ascii := st.ascii
      indent := st.indent
      cols := st.cols
      numChars := s.length
      vis := st.vis
      invis := st.invis
      trailing := if st.nonBlank then st.streak else 0
      firstChar := st.firstChar ++ [st.idx]
      visChar := st.visChar ++ [st.idx] }

/-- src/bxstring.c:184-187 `bxs_new_empty_string`, i.e. `bxs_from_ascii("")` -/
def emptyBxs : Bxs :=
  { memory := [], ascii := [], indent := 0, cols := 0, numChars := 0, vis := 0, invis := 0, trailing := 0,
    firstChar := [0], visChar := [0] }

/-- src/tools.c:343-359 `my_strrspn(s, " ")` -/
def strrspnSpace (s : Str) : Nat := (s.reverse.takeWhile (· == chSpace)).length

/-- src/bxstring.c:35-79 `bxs_from_ascii` for strings of printable ASCII characters, which is what the code passes
(blanks generated by `genshape`, literals, names).  For such strings `count_invisible_chars` is zero. -/
def fromAscii (s : Str) : Bxs :=
  { memory := s, ascii := s, indent := (s.takeWhile (· == chSpace)).length, cols := s.length, numChars := s.length,
    vis := s.length, invis := 0, trailing := strrspnSpace s,
    firstChar := List.range (s.length + 1), visChar := List.range (s.length + 1) }

/-- src/bxstring.c:257-278 `bxs_substr`; `none` is the NULL return (end before start, or illegal character). -/
def Bxs.substr (db : CharDb) (b : Bxs) (startIdx endIdx : Nat) : Option Bxs :=
  let s := if startIdx > b.numChars then b.numChars else startIdx
  let e := if endIdx > b.numChars then b.numChars else endIdx
  if e < s then none else fromUnicode db ((b.memory.take e).drop s)

/-- src/bxstring.c:235-237: first trimming loop of `bxs_trimdup`; `none`: index out of bounds -/
def trimdupFront (db : CharDb) (b : Bxs) : Nat → Nat → Nat → Option Nat
  | 0, s, _ => some s
  | fuel + 1, s, e =>
    if s < e then do
      let c ← b.memory[(← b.visChar[s]?)]?
      if db.ucBlank c then trimdupFront db b fuel (s + 1) e else some s
    else some s

/-- src/bxstring.c:238-240: second trimming loop of `bxs_trimdup`; `none`: index out of bounds -/
def trimdupBack (db : CharDb) (b : Bxs) (s : Nat) : Nat → Option Nat
  | 0 => some 0
  | e + 1 =>
    if s < e + 1 then do
      let c ← b.memory[(← b.visChar[e]?)]?
      if db.ucBlank c then trimdupBack db b s e else some (e + 1)
    else some (e + 1)

/-- src/bxstring.c:216-253 `bxs_trimdup`; `none`: NULL return (index out of bounds, illegal character). -/
def Bxs.trimdup (db : CharDb) (b : Bxs) (startIdx endIdx : Nat) : Option Bxs :=
  if startIdx > b.vis then none
  else if endIdx > b.vis then none
  else if endIdx < startIdx then none
  else do
    let s ← trimdupFront db b (endIdx - startIdx) startIdx endIdx
    let e ← trimdupBack db b s endIdx
    let p ← b.firstChar[s]?
    if e < b.vis then
      let q ← b.firstChar[e]?
      fromUnicode db ((b.memory.take q).drop p)
    else
      fromUnicode db (b.memory.drop p)

/-- src/bxstring.c:282-304 `bxs_strcat` for non-NULL arguments -/
def Bxs.strcat (db : CharDb) (b : Bxs) (toAppend : Str) : Option Bxs :=
  if toAppend.length = 0 then some b
  else if b.numChars = 0 then fromUnicode db toAppend
  else fromUnicode db (b.memory.take b.numChars ++ toAppend)

/-- src/bxstring.c:308-340 `bxs_concat`; a NULL argument (`none`) is printed as "(NULL)" by `u32_vsnprintf`. -/
def bxsConcat (db : CharDb) (parts : List (Option Str)) : Option Bxs :=
  if parts.length < 1 then some emptyBxs
  else fromUnicode db (parts.flatMap fun p => p.getD [0x28, 0x4e, 0x55, 0x4c, 0x4c, 0x29])

/-- src/bxstring.c:364-377 `bxs_cut_front` -/
def Bxs.cutFront (db : CharDb) (b : Bxs) (n : Nat) : Option Bxs :=
  if n ≥ b.vis then some emptyBxs
  else if n = 0 then some b
  else do fromUnicode db (b.memory.drop (← b.firstChar[n]?))

/-- src/bxstring.c:414-432 `bxs_trim`; `none`: index out of bounds, unsigned underflow or illegal character.
The NUL written at `first_char[vis - trailing]` ends the string there, unless the start lies behind it. -/
def Bxs.trim (db : CharDb) (b : Bxs) : Option Bxs :=
  if b.indent = 0 ∧ b.trailing = 0 then some b
  else if b.indent + b.trailing = b.vis then some emptyBxs
  else if b.trailing > b.vis then none
  else do
    let e ← b.firstChar[b.vis - b.trailing]?
    let s ← b.firstChar[b.indent]?
    if s ≤ e then fromUnicode db ((b.memory.take e).drop s)
    else fromUnicode db (b.memory.drop s)

/-- src/bxstring.c:443-448: loop of `bxs_ltrim` from index `i` on, `max - i` iterations left.
`none`: index into `visible_char` out of bounds.  The entry of the terminator reads as NUL, which is not blank. -/
def ltrimLoop (db : CharDb) (b : Bxs) : Nat → Nat → Nat → Option Nat
  | 0, _, dflt => some dflt
  | k + 1, i, dflt => do
    let p ← b.visChar[i]?
    let c := b.memory.getD p 0
    if p > b.memory.length then none
    else if !isBlank db c then some i
    else ltrimLoop db b k (i + 1) dflt

/-- src/bxstring.c:436-450 `bxs_ltrim` -/
def Bxs.ltrim (db : CharDb) (b : Bxs) (max : Nat) : Option Str := do
  let n ← ltrimLoop db b max 0 (min max b.vis)
  let p ← b.firstChar[n]?
  some (b.memory.drop p)

/-- src/bxstring.c:454-468 `bxs_rtrim`; `none`: unsigned underflow, index out of bounds or illegal character -/
def Bxs.rtrim (db : CharDb) (b : Bxs) : Option Bxs :=
  if b.trailing = 0 then some b
  else if b.trailing > b.vis then none
  else do fromUnicode db (b.memory.take (← b.firstChar[b.vis - b.trailing]?))

/-- src/bxstring.c:472-516 `bxs_prepend_spaces` for a non-NULL string -/
def Bxs.prependSpaces (b : Bxs) (n : Nat) : Bxs :=
  if n = 0 then b
  else
    { memory := nspaces n ++ b.memory.take b.numChars
      ascii := List.replicate n chSpace ++ b.ascii
      indent := b.indent + n
      cols := b.cols + n
      numChars := b.numChars + n
      vis := b.vis + n
      invis := b.invis
      trailing := b.trailing
      firstChar := List.range n ++ (b.firstChar.take (b.vis + 1)).map (· + n)
      visChar := List.range n ++ (b.visChar.take (b.vis + 1)).map (· + n) }

/-- src/bxstring.c:520-547 `bxs_append_spaces` (modifies its argument; modelled as returning the new value) -/
def Bxs.appendSpaces (b : Bxs) (n : Nat) : Bxs :=
  if n = 0 then b
  else
    { memory := b.memory.take b.numChars ++ nspaces n
      ascii := b.ascii.take b.cols ++ List.replicate n chSpace
      indent := b.indent
      cols := b.cols + n
      numChars := b.numChars + n
      vis := b.vis + n
      invis := b.invis
      trailing := b.trailing + n
      firstChar := b.firstChar.take b.vis ++ (List.range (n + 1)).map (b.numChars + ·)
      visChar := b.visChar.take b.vis ++ (List.range (n + 1)).map (b.numChars + ·) }

/-- src/bxstring.c:569-575 `bxs_is_empty` -/
def Bxs.isEmpty (b : Bxs) : Bool := !(b.numChars > 0)

/-- src/bxstring.c:579-591 `bxs_is_blank`; an out-of-bounds index would count as non-blank here, but the maps of every
analysed string are in bounds (`Verif.Props.Text`). -/
def Bxs.isBlankStr (db : CharDb) (b : Bxs) : Bool :=
  if b.isEmpty then true
  else (List.range b.vis).all fun i =>
    match (b.visChar[i]?).bind (b.memory[·]?) with
    | some c => c == chTab || c == chCr || db.ucBlank c
    | none => false

/-- src/bxstring.c:595-610 `bxs_is_visible_char` -/
def Bxs.isVisibleChar (b : Bxs) (idx : Nat) : Bool :=
  let rec go : Nat → Nat → Bool
    | 0, _ => false
    | k + 1, i =>
      if i ≤ idx ∧ i < b.vis then
        match b.visChar[i]? with
        | none => false
        | some p => if p = idx then true else if p > idx then false else go k (i + 1)
      else false
  go b.vis 0

/-- src/bxstring.c:614-630 `bxs_filter_visible`; `none`: index out of bounds -/
def Bxs.filterVisible (b : Bxs) : Option Str :=
  if b.invis = 0 then some b.memory
  else (List.range b.vis).mapM fun i => do b.memory[(← b.visChar[i]?)]?

/-- src/bxstring.c:551-565 `bxs_to_output` before conversion to the output encoding -/
def Bxs.toOutput (b : Bxs) (color : Bool) : Option Str :=
  if color then some b.memory else b.filterVisible

/-- src/bxstring.c:344-360 `bxs_strchr`; the result is the visible index of the character found at or after
`start` (the C function returns a pointer and stores this index in `*cursor`). -/
def Bxs.strchr (b : Bxs) (c : Nat) (start : Nat) : Option Nat :=
  (List.range' start (b.vis - start)).find? fun i => (b.visChar[i]?).bind (b.memory[·]?) == some c

end Boxes
