import Verif.Model.Query

/-!
# Model of src/cmdline.c

`getopt_long` is not modelled: the model starts with the options it reports, in the order in which it reports them, and with the
arguments that remain.  Strings are lists of bytes, their end is the terminator.  Texts on stderr are not modelled.
Memory exhaustion is not modelled.  `long` has 64 bits, `int` has 32.
-/
namespace Boxes

/-- what the C library's `strtol (s, &end, 10)` yields: the value, the rest of the text at `end`, and if errno became ERANGE -/
structure Strtol where
  value : Int
  rest : Str
  range : Bool
deriving DecidableEq, Repr

/-- `isspace` in the C locale -/
def isSpaceC (c : Nat) : Bool := c == 0x20 || (0x09 ≤ c && c ≤ 0x0d)

/-- the value of a sequence of digits -/
def digitsValue (ds : Str) : Nat := ds.foldl (fun acc c => acc * 10 + (c - 0x30)) 0

/-- LONG_MAX -/
def longMax : Int := 9223372036854775807

/-- the C library's `strtol` with base 10 -/
def strtol (s : Str) : Strtol :=
  let s1 := s.dropWhile isSpaceC
  let neg := s1.head? == some chMinus
  let s2 := if s1.head? = some chMinus ∨ s1.head? = some chPlus then s1.drop 1 else s1
  let ds := s2.takeWhile isDigit
  if ds.isEmpty then ⟨0, s, false⟩
  else
    let v : Int := if neg then - (digitsValue ds : Int) else digitsValue ds
    let rest := s2.dropWhile isDigit
    if v > longMax then ⟨longMax, rest, true⟩
    else if v < -longMax - 1 then ⟨-longMax - 1, rest, true⟩
    else ⟨v, rest, false⟩

/-- the conversion `(int)` of a long -/
def toInt (v : Int) : Int := (v + 2147483648) % 4294967296 - 2147483648

/-- src/boxes.in.h:129-158 `opt_t`, everything.  `debug` has an entry for each of the log areas MAIN, REGEXP, PARSER, LEXER and
DISCOVERY; `areasActive` is the array of that name in src/logging.c, which is all zero before `activate_debug_logging` as far as
`is_debug_activated` is concerned.  `infile` and `outfile` are the names of opened files, `none` for standard input and output. -/
structure Args where
  opt : Opt := {}
  cld : Option Str := none
  color : Nat := 1
  design : Option Str := none
  byUser : Bool := false
  eolOverridden : Bool := false
  f : Option Str := none
  help : Bool := false
  l : Bool := false
  encoding : Option Str := none
  query : Option (List Str) := none
  version : Bool := false
  qundoc : Bool := false
  debug : List Bool := [false, false, false, false, false]
  areasActive : List Bool := [false, false, false, false, false]
  infile : Option Str := none
  outfile : Option Str := none

/-- src/cmdline.c:122-141 `create_new_opt` (other than Windows) -/
def createNewOpt : Args :=
  { opt := { valign := '\x00', halign := '\x00', justify := '\x00', eol := [chNl], indentmode := '\x00', killblank := -1,
             mend := 0, padding := ⟨-1, -1, -1, -1⟩, r := false, reqwidth := 0, reqheight := 0, tabstop := 8, tabexp := 'e' } }

/-- the letter of the position `p[1]` after `h` in src/cmdline.c:163-174, `none` for an error -/
def hLetter (c : Nat) : Option Char :=
  if c = 0x63 ∨ c = 0x43 then some 'c' else if c = 0x6c ∨ c = 0x4c then some 'l' else if c = 0x72 ∨ c = 0x52 then some 'r' else none

/-- the letter after `v` in src/cmdline.c:177-188 -/
def vLetter (c : Nat) : Option Char :=
  if c = 0x63 ∨ c = 0x43 then some 'c' else if c = 0x74 ∨ c = 0x54 then some 't' else if c = 0x62 ∨ c = 0x42 then some 'b' else none

/-- src/cmdline.c:156-222: the loop in `alignment`; `none` for an error.  The fuel is never used up if it is at least as large as
the length of the text. -/
def alignLoop : Nat → Opt → Str → Option Opt
  | _, o, [] => some o
  | 0, _, _ :: _ => none
  | fuel + 1, o, c :: rest =>
    if rest.isEmpty ∧ ¬ c ∈ lit "lLcCrR" then none
    else if c = 0x68 ∨ c = 0x48 then do
      let x ← hLetter (rest.headD 0)
      alignLoop fuel { o with halign := x } (rest.drop 1)
    else if c = 0x76 ∨ c = 0x56 then do
      let x ← vLetter (rest.headD 0)
      alignLoop fuel { o with valign := x } (rest.drop 1)
    else if c = 0x6a ∨ c = 0x4a then do
      let x ← hLetter (rest.headD 0)
      alignLoop fuel { o with justify := x } (rest.drop 1)
    else if c = 0x6c ∨ c = 0x4c then alignLoop fuel { o with justify := 'l', halign := 'l', valign := 'c' } rest
    else if c = 0x72 ∨ c = 0x52 then alignLoop fuel { o with justify := 'r', halign := 'r', valign := 'c' } rest
    else if c = 0x63 ∨ c = 0x43 then alignLoop fuel { o with justify := 'c', halign := 'c', valign := 'c' } rest
    else none

/-- src/cmdline.c:151-229 `alignment`; the empty text is an error -/
def alignment (o : Opt) (optarg : Str) : Option Opt :=
  if optarg.isEmpty then none else alignLoop optarg.length o optarg

/-- src/cmdline.c:239-252 `command_line_design` -/
def commandLineDesign (a : Args) (optarg : Str) : Option Args :=
  if optarg.isEmpty then none else some { a with cld := some optarg, byUser := true }

/-- src/cmdline.c:262-273 `design_choice` -/
def designChoice (a : Args) (optarg : Str) : Args := { a with design := some optarg, byUser := true }

/-- src/cmdline.c:282-299 `eol_override` -/
def eolOverride (a : Args) (optarg : Str) : Option Args :=
  if strCaseEq optarg (lit "CRLF") then some { a with eolOverridden := true, opt := { a.opt with eol := [chCr, chNl] } }
  else if strCaseEq optarg (lit "LF") then some { a with eolOverridden := true, opt := { a.opt with eol := [chNl] } }
  else if strCaseEq optarg (lit "CR") then some { a with eolOverridden := true, opt := { a.opt with eol := [chCr] } }
  else none

/-- src/cmdline.c:309-326 `indentation_mode` -/
def indentationMode (o : Opt) (optarg : Str) : Option Opt :=
  let n := optarg.length
  if n ≤ 3 ∧ strnCaseEq n (lit "box") optarg = true then some { o with indentmode := 'b' }
  else if n ≤ 4 ∧ strnCaseEq n (lit "text") optarg = true then some { o with indentmode := 't' }
  else if n ≤ 4 ∧ strnCaseEq n (lit "none") optarg = true then some { o with indentmode := 'n' }
  else none

/-- src/cmdline.c:336-351 `killblank` -/
def killblankOption (o : Opt) (optarg : Str) : Option Opt :=
  if o.killblank = -1 then
    if strIsYes optarg then some { o with killblank := 1 }
    else if strIsNo optarg then some { o with killblank := 0 }
    else none
  else some o

/-- the switch in src/cmdline.c:379-411; `none` for a letter that is not an area -/
def setArea (p : Sides Int) (c : Nat) (size : Int) : Option (Sides Int) :=
  if c = 0x61 ∨ c = 0x41 then some ⟨size, size, size, size⟩
  else if c = 0x68 ∨ c = 0x48 then some { p with left := size, right := size }
  else if c = 0x76 ∨ c = 0x56 then some { p with top := size, bottom := size }
  else if c = 0x74 ∨ c = 0x54 then some { p with top := size }
  else if c = 0x6c ∨ c = 0x4c then some { p with left := size }
  else if c = 0x62 ∨ c = 0x42 then some { p with bottom := size }
  else if c = 0x72 ∨ c = 0x52 then some { p with right := size }
  else none

/-- src/cmdline.c:366-412: the loop in `padding`; `none` for an error -/
def areaLoop : Nat → Sides Int → Str → Option (Sides Int)
  | _, p, [] => some p
  | 0, _, _ :: _ => none
  | fuel + 1, p, c :: rest =>
    if rest.isEmpty then none
    else
      let n := strtol rest
      let size := toInt n.value
      if n.range = true ∨ size < 0 then none
      else do
        let p ← setArea p c size
        areaLoop fuel p n.rest

/-- src/cmdline.c:361-419 `padding`; the empty text is an error -/
def paddingOption (o : Opt) (optarg : Str) : Option Opt :=
  if optarg.isEmpty then none
  else (areaLoop optarg.length o.padding optarg).map (fun p => { o with padding := p })

/-- the two `strchr` in src/cmdline.c:446-449: the texts before and after the first `x`, or the first `X` if there is no `x` -/
def splitAtX (optarg : Str) : Option (Str × Str) :=
  if 0x78 ∈ optarg then some (optarg.takeWhile (· != 0x78), (optarg.dropWhile (· != 0x78)).drop 1)
  else if 0x58 ∈ optarg then some (optarg.takeWhile (· != 0x58), (optarg.dropWhile (· != 0x58)).drop 1)
  else none

/-- src/cmdline.c:444-466 `size_of_box` -/
def sizeOfBox (o : Opt) (optarg : Str) : Option Opt :=
  let (w, h) := match splitAtX optarg with
    | none => (some (strtol optarg), none)
    | some (a, b) => (if a.isEmpty then none else some (strtol a), some (strtol b))
  let errno := (w.map (·.range)).getD false || (h.map (·.range)).getD false
  let reqwidth := (w.map (·.value)).getD o.reqwidth
  let reqheight := (h.map (·.value)).getD o.reqheight
  if errno = true ∨ (reqwidth = 0 ∧ reqheight = 0) ∨ reqwidth < 0 ∨ reqheight < 0 then none
  else some { o with reqwidth := reqwidth, reqheight := reqheight }

/-- src/cmdline.c:51 `MAX_TABSTOP` -/
def maxTabstop : Int := 16

/-- src/cmdline.c:524-561 `tab_handling` -/
def tabHandling (o : Opt) (optarg : Str) : Option Opt :=
  let n := strtol optarg
  let width := toInt n.value
  if width < 1 ∨ width > maxTabstop then none
  else
    let o := { o with tabstop := width.toNat }
    match n.rest with
    | [] => some o
    | [c] =>
      if c = 0x65 ∨ c = 0x45 then some { o with tabexp := 'e' }
      else if c = 0x6b ∨ c = 0x4b then some { o with tabexp := 'k' }
      else if c = 0x75 ∨ c = 0x55 then some { o with tabexp := 'u' }
      else none
    | _ => none

/-- src/logging.c:30 `log_area_names` without RESERVED and ALL -/
def logAreaNames : List Str := [lit "MAIN", lit "REGEXP", lit "PARSER", lit "LEXER", lit "DISCOVERY"]

/-- src/cmdline.c:480-512: the loop over the areas -/
def debugLoop : List Str → List Bool → Option (List Bool)
  | [], debug => some debug
  | a :: rest, debug => do
    let trimmed ← (trimdup a 0 ((a.length : Int) - 1)).map (·.data)
    if trimmed.length = 0 then debugLoop rest debug
    else if strCaseEq trimmed (lit "ALL") then debugLoop rest [true, true, true, true, true]
    else
      match logAreaNames.findIdx? (strCaseEq trimmed ·) with
      | some i => debugLoop rest (debug.set i true)
      | none => none

/-- src/cmdline.c:470-515 `debug_areas`; `none` as argument is NULL -/
def debugAreas (debug : List Bool) (optarg : Option Str) : Option (List Bool) :=
  debugLoop (strtokComma [] (optarg.getD (lit "MAIN"))) debug

/-- src/cmdline.c:580-596: the part of `undocumented_options` that is about debugging -/
def extraDebug (a : Args) (s : Str) : Option Args :=
  if strnCaseEq 5 s (lit "debug") then
    match s.drop 5 with
    | [] => (debugAreas a.debug none).map (fun d => { a with debug := d, areasActive := d })
    | c :: rest =>
      if c = 0x3a then (debugAreas a.debug (some rest)).map (fun d => { a with debug := d, areasActive := d })
      else none
  else some a

/-- src/cmdline.c:571-604 `undocumented_options` -/
def undocumentedOptions (a : Args) (optarg : Str) : Option Args :=
  (if strnEq 7 optarg (lit "(undoc)") then extraDebug { a with qundoc := true } (optarg.drop 7) else extraDebug a optarg).bind
    (fun a => if !a.qundoc && !a.areasActive.any id then none else some a)

/-- what `getopt_long` reports: the options of src/cmdline.c:751-775; `bad` is an option that does not exist or lacks its
argument -/
inductive Option' where
  | align (arg : Str)
  | create (arg : Str)
  | color
  | noColor
  | design (arg : Str)
  | eol (arg : Str)
  | config (arg : Str)
  | help
  | indent (arg : Str)
  | kill (arg : Str)
  | killBlank
  | noKillBlank
  | list
  | mend
  | encoding (arg : Str)
  | padding (arg : Str)
  | query (arg : Str)
  | remove
  | size (arg : Str)
  | tabs (arg : Str)
  | version
  | extra (arg : Str)
  | bad
deriving DecidableEq, Repr

/-- the switch in src/cmdline.c:784-922 without `help`, `version` and `bad`; `none` for an error -/
def handleOption (a : Args) : Option' → Option Args
  | .align s => (alignment a.opt s).map (fun o => { a with opt := o })
  | .create s => commandLineDesign a s
  | .color => some { a with color := 2 }
  | .noColor => some { a with color := 0 }
  | .design s => some (designChoice a s)
  | .eol s => eolOverride a s
  | .config s => some { a with f := some s }
  | .indent s => (indentationMode a.opt s).map (fun o => { a with opt := o })
  | .kill s => (killblankOption a.opt s).map (fun o => { a with opt := o })
  | .killBlank => some (if a.opt.killblank = -1 then { a with opt := { a.opt with killblank := 1 } } else a)
  | .noKillBlank => some (if a.opt.killblank = -1 then { a with opt := { a.opt with killblank := 0 } } else a)
  | .list => some { a with l := true }
  | .mend => some { a with opt := { a.opt with mend := 2, r := true, killblank := 0 } }
  | .encoding s => some { a with encoding := some s }
  | .padding s => (paddingOption a.opt s).map (fun o => { a with opt := o })
  | .query s => (parseQuery s).map (fun q => { a with query := some q })
  | .remove => some { a with opt := { a.opt with r := true } }
  | .size s => (sizeOfBox a.opt s).map (fun o => { a with opt := o })
  | .tabs s => (tabHandling a.opt s).map (fun o => { a with opt := o })
  | .extra s => undocumentedOptions a s
  | .help | .version | .bad => none

/-- the loop in src/cmdline.c:780-926; the flag tells if the function returned at once, because of `-h` or `-v` -/
def optionLoop : List Option' → Args → Option (Args × Bool)
  | [], a => some (a, false)
  | .help :: _, a => some ({ a with help := true }, true)
  | .version :: _, a => some ({ a with version := true }, true)
  | .bad :: _, _ => none
  | x :: rest, a => do
    let a ← handleOption a x
    optionLoop rest a

/-- src/cmdline.c:636-680 `input_output_files`; `canRead` and `canWrite` tell which files can be opened; `none` for an error -/
def inputOutputFiles (canRead canWrite : Str → Bool) (a : Args) (files : List Str) : Option Args :=
  match files with
  | [] => some a
  | _ :: _ :: _ :: _ => none
  | inf :: more => do
    let a ← if inf = lit "-" then some { a with infile := none }
      else if canRead inf then some { a with infile := some inf }
      else none
    match more with
    | [] => some { a with outfile := none }
    | outf :: _ =>
      if outf = lit "-" then some { a with outfile := none }
      else if canWrite outf then some { a with outfile := some outf }
      else none

/-- src/cmdline.c:732-941 `process_commandline`.  `first` is `argv[1]`, if there is one; `options` is what `getopt_long` reports,
`files` are the arguments that remain after it. -/
def processCommandline (canRead canWrite : Str → Bool) (first : Option Str) (options : List Option') (files : List Str) :
    Option Args :=
  if first = some (lit "-?") then some { createNewOpt with help := true }
  else do
    let (a, done) ← optionLoop options createNewOpt
    if done then some a else inputOutputFiles canRead canWrite a files

end Boxes
