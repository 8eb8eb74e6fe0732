import Verif.Model.Tools
import Verif.Model.Bxs
import Verif.Model.Types
import Verif.Model.Lexer
import Verif.Model.Input

/-!
# Model of the sizes of the buffers in `src/bxstring.c`, `src/tools.c`, `src/input.c` and `src/list.c`

The functions of `Verif.Model.Bxs` and `Verif.Model.Tools` build lists.  Here the same functions are modelled together with the size of
the memory they write to; writing behind its end is the outcome `ub`.
-/
namespace Boxes

/-- libunistring's `u32_strwidth(s, encoding)`: the widths of all characters, where those of negative width (control characters) do
not count -/
def strWidth (db : CharDb) (s : Str) : Nat := (s.map db.cols).sum

/-- src/bxstring.c:109-113: the size of the two maps, before the next character is looked at -/
def growMap (vis mapSize : Nat) : Nat := if vis ≥ mapSize - 2 then mapSize * 2 + 1 else mapSize

/-- src/bxstring.c:108-173: the loop of `bxs_from_unicode` with the sizes of `ascii` (`asciiCap`, constant) and of the maps
(`mapSize`).  The loop itself is that of `fuLoop`; `ub` when characters are written behind the end of `ascii` (lines 131-143) or
entries behind the end of the maps (lines 153, 154).  The result contains the last size of the maps. -/
def fuLoopMem (db : CharDb) (asciiCap : Nat) : Nat → Nat → FuState → Str → Res (FuState × Nat)
  | _, mapSize, st, [] => .ok (st, mapSize)
  | 0, _, _, _ :: _ => .fail 1
  | fuel + 1, mapSize, st, c :: rest =>
    let mapSize := growMap st.vis mapSize
    if !isAllowedAnywhere db c then .fail 1
    else if c ≠ chEsc ∧ (st.ascii.length + (charAscii db c).length > asciiCap ∨ ¬ st.vis < mapSize) then .ub
    else
      let st1 := fuBlank db (fuChar db st c (c :: rest)) c
      let (rest', stepInvis) := advanceNext (c :: rest)
      fuLoopMem db asciiCap fuel mapSize (fuStep st1 stepInvis) rest'

/-- src/bxstring.c:83-180 `bxs_from_unicode` with the sizes of its buffers (lines 93-97); `fail`: NULL because of an illegal
character.  Lines 175-177 write the terminator of `ascii` and the last entries of the maps. -/
def fromUnicodeMem (db : CharDb) (s : Str) : Res Bxs := do
  let asciiLen := strWidth db s + 1
  let (st, mapSize) ← fuLoopMem db asciiLen s.length 5 FuState.init s
  if st.ascii.length < asciiLen ∧ st.vis < mapSize then
    .ok { memory := s
          ascii := st.ascii
          indent := st.indent
          cols := st.cols
          numChars := s.length
          vis := st.vis
          invis := st.invis
          trailing := if st.nonBlank then st.streak else 0
          firstChar := st.firstChar ++ [st.idx]
          visChar := st.visChar ++ [st.idx] }
  else .ub

/-- writing `data` from index `i` on into memory with `cap` places -/
def writeAt (cap i : Nat) (data : Str) : Res Str := if i + data.length ≤ cap then .ok data else .ub

/-- reading the first `n` entries of an array -/
def readFirst (a : List Nat) (n : Nat) : Res (List Nat) := if n ≤ a.length then .ok (a.take n) else .ub

/-- src/bxstring.c:484-513 `bxs_prepend_spaces` for a non-NULL string and `n > 0`, with the sizes of the four buffers.  `memory` and
`ascii` are terminated, so that one more place is needed. -/
def prependSpacesMem (b : Bxs) (n : Nat) : Res Bxs := do
  let memCap := b.numChars + n + 1
  let m0 ← writeAt memCap 0 (nspaces n)
  let org ← readFirst b.memory b.numChars
  let m1 ← writeAt memCap n org
  let _ ← writeAt memCap (b.numChars + n) [0]
  let asciiCap := b.cols + n + 1
  let a0 ← writeAt asciiCap 0 (List.replicate n chSpace)
  let a1 ← writeAt asciiCap n (b.ascii ++ [0])
  let mapCap := b.vis + n + 1
  let i0 ← writeAt mapCap 0 (List.range n)
  let fs ← readFirst b.firstChar (b.vis + 1)
  let f1 ← writeAt mapCap n (fs.map (· + n))
  let vs ← readFirst b.visChar (b.vis + 1)
  let v1 ← writeAt mapCap n (vs.map (· + n))
  .ok { memory := m0 ++ m1
        ascii := a0 ++ a1.dropLast
        indent := b.indent + n
        cols := b.cols + n
        numChars := b.numChars + n
        vis := b.vis + n
        invis := b.invis
        trailing := b.trailing
        firstChar := i0 ++ f1
        visChar := i0 ++ v1 }

/-- src/bxstring.c:520-547 `bxs_append_spaces` for a non-NULL string and `n > 0`, with the sizes of the four buffers.  `realloc` keeps
what was there; places in front of the new text that were never written are flagged as `ub`. -/
def appendSpacesMem (b : Bxs) (n : Nat) : Res Bxs := do
  let memCap := b.numChars + n + 1
  let m0 ← readFirst b.memory b.numChars
  let m1 ← writeAt memCap b.numChars (nspaces n)
  let _ ← writeAt memCap (b.numChars + n) [0]
  let asciiCap := b.cols + n + 1
  let a0 ← readFirst b.ascii b.cols
  let a1 ← writeAt asciiCap b.cols (List.replicate n chSpace)
  let _ ← writeAt asciiCap (b.cols + n) [0]
  let mapCap := b.vis + n + 1
  let f0 ← readFirst b.firstChar b.vis
  let f1 ← writeAt mapCap b.vis ((List.range (n + 1)).map (b.numChars + ·))
  let v0 ← readFirst b.visChar b.vis
  let v1 ← writeAt mapCap b.vis ((List.range (n + 1)).map (b.numChars + ·))
  .ok { memory := m0 ++ m1
        ascii := a0 ++ a1
        indent := b.indent
        cols := b.cols + n
        numChars := b.numChars + n
        vis := b.vis + n
        invis := b.invis
        trailing := b.trailing + n
        firstChar := f0 ++ f1
        visChar := v0 ++ v1 }

/-- The variables of `count_invisible_chars` (src/tools.c:489-507): the text written through `p`, the entries of `map` written so far,
`map_size`, `*num_esc`, `invis`, `mb_idx` -/
structure CiState where
  ascii : Str
  map : List Nat
  mapSize : Nat
  numEsc : Nat
  invis : Nat
  mbIdx : Nat
deriving DecidableEq, Repr

/-- src/tools.c:498-507: the values at the beginning of the loop -/
def CiState.init (buflen : Nat) : CiState :=
  { ascii := [], map := [], mapSize := max 5 buflen, numEsc := 0, invis := 0, mbIdx := 0 }

/-- src/tools.c:510-513: make the map larger -/
def CiState.grow (st : CiState) : CiState :=
  if st.map.length ≥ st.mapSize - 4 then { st with mapSize := st.mapSize * 2 + 1 } else st

/-- src/tools.c:519-521 and 524-530: write `data` to the ASCII form and the same number of entries to the map -/
def CiState.put (buflen : Nat) (st : CiState) (data : Str) : Res CiState :=
  if st.ascii.length + data.length > buflen ∨ st.map.length + data.length > st.mapSize then .ub
  else .ok { st with ascii := st.ascii ++ data, map := st.map ++ List.replicate data.length st.mbIdx }

/-- src/tools.c:509-538: the loop of `count_invisible_chars`; the first argument bounds the number of iterations -/
def ciLoop (db : CharDb) (buflen : Nat) : Nat → CiState → Str → Res CiState
  | _, st, [] => .ok st
  | 0, _, _ :: _ => .ub
  | fuel + 1, st, c :: rest => do
    let st := st.grow
    let st ←
      if c = chEsc then .ok { st with numEsc := st.numEsc + 1 }
      else if isAsciiPrintable c then st.put buflen [c]
      else st.put buflen (List.replicate (db.cols c) 0x78)
    let (rest', stepInvis) := advanceNext (c :: rest)
    ciLoop db buflen fuel { st with mbIdx := st.mbIdx + max 1 stepInvis, invis := st.invis + stepInvis } rest'

/-- src/tools.c:487-543 `count_invisible_chars`: number of invisible characters, number of escape sequences, ASCII form and position map
(`none`: NULL).  Line 540 writes the terminator. -/
def countInvisible (db : CharDb) (s : Str) : Res (Nat × Nat × Str × Option (List Nat)) :=
  if s = [] then .ok (0, 0, [], none)
  else do
    let buflen := strWidth db s + 1
    let st ← ciLoop db buflen s.length (CiState.init buflen) s
    if st.ascii.length < buflen then .ok (st.invis, st.numEsc, st.ascii, some st.map) else .ub

/-- src/bxstring.c:35-79 `bxs_from_ascii` for any string; `none`: NULL.  `u32_strconv_from_arg(s, "ASCII")` fails for bytes
beyond ASCII (line 43), lines 50-56 refuse control characters. -/
def fromAsciiAny (db : CharDb) (s : Str) : Res (Option Bxs) :=
  if !(s.all fun c => c < 0x80) then .ok none
  else if !(s.all (isAllowedAnywhere db)) then .ok none
  else do
    let (invis, _, _, _) ← countInvisible db s
    let vis ← Res.sub s.length invis
    .ok (some { memory := s, ascii := s, indent := (s.takeWhile (· == chSpace)).length, cols := s.length, numChars := s.length,
                vis := vis, invis := invis, trailing := strrspnSpace s,
                firstChar := List.range (vis + 1), visChar := List.range (vis + 1) })

/-- src/tools.c:253-270: the loop of `expand_tabs_into` with the size of the work string (`cap`) and of the array of tab positions
(`tabCap`, 0: there is none); `ub` for writing behind the end of one of them.  Line 270 writes the terminator. -/
def expandLoopMem (cap tabCap tabstop : Nat) : Str → Str → List Nat → Res (Str × List Nat)
  | [], out, tabs => if out.length < cap then .ok (out, tabs) else .ub
  | c :: rest, out, tabs =>
    if out.length < lineMaxBytes - 12 then
      if c = chTab then
        let n := tabstop - out.length % tabstop
        if tabstop = 0 then .ub
        else if tabCap > 0 ∧ tabs.length ≥ tabCap then .ub
        else if out.length + n > cap then .ub
        else expandLoopMem cap tabCap tabstop rest (out ++ nspaces n) (tabs ++ [out.length])
      else if out.length + 1 > cap then .ub
      else expandLoopMem cap tabCap tabstop rest (out ++ [c]) tabs
    else if out.length < cap then .ok (out, tabs) else .ub

/-- src/tools.c:221-276 `expand_tabs_into` with the sizes of lines 224 and 246 -/
def expandTabsMem (keep : Bool) (tabstop : Nat) (s : Str) : Res (Str × List Nat) := do
  let tabposLen := if keep then s.count chTab else 0
  let r ← expandLoopMem (lineMaxBytes + 100) (if tabposLen > 0 then tabposLen + 1 else 0) tabstop s [] []
  .ok (r.1, if tabposLen > 0 then r.2 ++ List.replicate (tabposLen - r.2.length) 0 else [])

/-- src/input.c:238-261: one iteration of the reading loop, with the buffers of `expand_tabs_into` and `bxs_from_unicode` -/
def readLineMem (db : CharDb) (opt : Opt) (junk : Nat) (s : Str) : Res Line := do
  let t ← trimCarefully db opt junk s
  if t.length > 0 then do
    let e ← expandTabsMem (opt.tabexp = 'k') opt.tabstop t
    if e.1.length = 0 then .fail 1
    else
      match fromUnicodeMem db e.1 with
      | .ok b => .ok { text := some b, tabpos := e.2 }
      | .fail _ => .ok { text := none, tabpos := e.2 }
      | .ub => .ub
  else .ok { text := some emptyBxs }

/-- src/input.c:224-264: the reading loop with the array of lines; `n` is `num_lines`, `size` is `input_size` -/
def readLinesMem (db : CharDb) (opt : Opt) (junk : Nat) : List Str → Nat → Nat → Res (List Line)
  | [], _, _ => .ok []
  | s :: r, n, size =>
    let size := if n % 100 = 0 then size + 100 else size
    if n < size then do
      let l ← readLineMem db opt junk s
      let ls ← readLinesMem db opt junk r (n + 1) size
      .ok (l :: ls)
    else .ub

/-- src/list.c:175-185: `escape` with the size of `temp`; line 185 writes the terminator -/
def escapeMem (org : Bxs) : Res Str := writeAt (2 * org.numChars + 1) 0 (escapeText org org.memory 0 ++ [0])

end Boxes
