import Verif.Model.Help

/-!
# Model of the messages on standard error about a command line

A message is a text; the empty text is for no message.  The functions have the same conditions as those that read the arguments (`Verif.Model.Cmdline`); each
tells what the C function of the same name prints before it returns an error.  What the C library prints is given: the message of `getopt_long` about an option
that does not exist, and the description of the reason why a file cannot be opened (`perror`).  The debug messages (`print_debug_info`) and the messages about
memory exhaustion are not modelled.
-/
namespace Boxes

/-- `fprintf (stderr, "%s: ...\n", PROJECT)` -/
def complain (text : Str) : Str := lit "boxes: " ++ text ++ [chNl]

/-- the conversion `%d` -/
def decimalInt (v : Int) : Str := if v < 0 then chMinus :: decimal v.natAbs else decimal v.toNat

/-- src/cmdline.c:71-75 `usage_short` -/
def usageShort : Str :=
  lit "Usage: boxes [options] [infile [outfile]]" ++ [chNl] ++ (lit "Try `boxes -h' for more information." ++ [chNl])

/-- src/cmdline.c:224-227, in `alignment` -/
def alignmentMessage (o : Opt) (optarg : Str) : Str :=
  if (alignment o optarg).isNone then complain (lit "Illegal text format -- " ++ optarg) else []

/-- src/cmdline.c:241-244, in `command_line_design` -/
def commandLineDesignMessage (optarg : Str) : Str :=
  if optarg.length = 0 then complain (lit "empty command line design definition") else []

/-- src/cmdline.c:294-297, in `eol_override` -/
def eolOverrideMessage (a : Args) (optarg : Str) : Str :=
  if (eolOverride a optarg).isNone then complain (lit "invalid eol spec -- " ++ optarg) else []

/-- src/cmdline.c:321-324, in `indentation_mode` -/
def indentationModeMessage (o : Opt) (optarg : Str) : Str :=
  if (indentationMode o optarg).isNone then complain (lit "invalid indentation mode") else []

/-- src/cmdline.c:345-348, in `killblank` -/
def killblankMessage (o : Opt) (optarg : Str) : Str :=
  if (killblankOption o optarg).isNone then complain (lit "-k: invalid parameter") else []

/-- src/cmdline.c:414-417, in `padding` -/
def paddingMessage (o : Opt) (optarg : Str) : Str :=
  if (paddingOption o optarg).isNone then complain (lit "invalid padding specification - " ++ optarg) else []

/-- src/query.c:56-95: what the loop in `parse_query` prints.  `query` is what was collected. -/
def parseQueryLoopMessage : List Str → List Str → Str
  | [], _ => []
  | q :: rest, query =>
    match (trimdup q 0 ((q.length : Int) - 1)).map (·.data) with
    | none => []
    | some trimmed =>
      if trimmed.length = 0 then parseQueryLoopMessage rest query
      else if !validateTag (rawTag trimmed) then complain (lit "not a tag -- " ++ rawTag trimmed)
      else if query.any (fun e => strCaseEq (rawTag e) (rawTag trimmed)) then complain (lit "duplicate query expression -- " ++ trimmed)
      else parseQueryLoopMessage rest (query ++ [trimmed])

/-- src/query.c:47-116: what `parse_query` prints -/
def parseQueryMessage (optarg : Str) : Str :=
  match parseQueryLoop (strtokComma [] optarg) [] false with
  | none => parseQueryLoopMessage (strtokComma [] optarg) []
  | some (query, _) => if query.length = 0 then complain (lit "empty tag query -- " ++ optarg) else []

/-- src/cmdline.c:450-459: `size_of_box` cuts its argument at the `x` or `X`, then puts an `x` there -/
def withX (optarg : Str) : Str :=
  match splitAtX optarg with
  | none => optarg
  | some (a, b) => a ++ 0x78 :: b

/-- src/cmdline.c:461-464, in `size_of_box` -/
def sizeOfBoxMessage (o : Opt) (optarg : Str) : Str :=
  if (sizeOfBox o optarg).isNone then complain (lit "invalid box size specification -- " ++ withX optarg) else []

/-- src/cmdline.c:526-560: what `tab_handling` prints -/
def tabHandlingMessage (o : Opt) (optarg : Str) : Str :=
  let width := toInt (strtol optarg).value
  if width < 1 ∨ width > maxTabstop then complain (lit "invalid tab stop distance -- " ++ decimalInt width)
  else if (tabHandling o optarg).isNone then complain (lit "invalid tab handling specification - " ++ optarg)
  else []

/-- src/cmdline.c:504-506: the names from index 1, each with what is printed after it -/
def areaList : List Str → Str
  | [] => []
  | [name] => name ++ [chNl]
  | name :: rest => name ++ lit ", " ++ areaList rest

/-- src/cmdline.c:480-512: what the loop in `debug_areas` prints -/
def debugLoopMessage : List Str → Str
  | [] => []
  | a :: rest =>
    match (trimdup a 0 ((a.length : Int) - 1)).map (·.data) with
    | none => []
    | some trimmed =>
      if trimmed.length = 0 then debugLoopMessage rest
      else if strCaseEq trimmed (lit "ALL") || logAreaNames.any (strCaseEq trimmed ·) then debugLoopMessage rest
      else lit "boxes: " ++ (lit "invalid debug area -- " ++ trimmed ++ lit ". Valid values: ") ++ areaList (lit "ALL" :: logAreaNames)

/-- src/cmdline.c:571-604: what `undocumented_options` prints -/
def undocumentedOptionsMessage (a : Args) (optarg : Str) : Str :=
  let s := if strnEq 7 optarg (lit "(undoc)") then optarg.drop 7 else optarg
  let bad := complain (lit "invalid option -x " ++ optarg)
  let final := if (undocumentedOptions a optarg).isNone then bad else []
  if strnCaseEq 5 s (lit "debug") then
    match s.drop 5 with
    | [] => final
    | c :: rest =>
      if c = 0x3a then
        if (debugAreas a.debug (some rest)).isNone then debugLoopMessage (strtokComma [] rest) else final
      else bad
  else final

/-- what the function that handles an option prints (src/cmdline.c:784-922 without `help`, `version` and `bad`) -/
def optionMessage (a : Args) : Option' → Str
  | .align s => alignmentMessage a.opt s
  | .create s => commandLineDesignMessage s
  | .eol s => eolOverrideMessage a s
  | .indent s => indentationModeMessage a.opt s
  | .kill s => killblankMessage a.opt s
  | .padding s => paddingMessage a.opt s
  | .query s => parseQueryMessage s
  | .size s => sizeOfBoxMessage a.opt s
  | .tabs s => tabHandlingMessage a.opt s
  | .extra s => undocumentedOptionsMessage a s
  | _ => []

/-- the loop in src/cmdline.c:780-926; `library` is what `getopt_long` prints about an option that does not exist or lacks its argument -/
def optionLoopMessage (library : Str) : List Option' → Args → Str
  | [], _ => []
  | .help :: _, _ => []
  | .version :: _, _ => []
  | .bad :: _, _ => library ++ usageShort
  | x :: rest, a => optionMessage a x ++ (match handleOption a x with
    | none => []
    | some a => optionLoopMessage library rest a)

/-- src/cmdline.c:636-680: what `input_output_files` prints; `reason` is the text for the error number after a file could not be opened for writing -/
def inputOutputFilesMessage (canRead canWrite : Str → Bool) (reason : Str) (files : List Str) : Str :=
  match files with
  | [] => []
  | _ :: _ :: third :: _ => complain (lit "illegal parameter -- " ++ third) ++ usageShort
  | inf :: more =>
    if inf ≠ lit "-" ∧ canRead inf = false then complain (lit "Can't open input file -- " ++ inf)
    else match more with
      | [] => []
      | outf :: _ => if outf ≠ lit "-" ∧ canWrite outf = false then complain reason else []

/-- src/cmdline.c:732-941: what `process_commandline` prints on standard error -/
def commandlineMessage (canRead canWrite : Str → Bool) (library reason : Str) (first : Option Str) (options : List Option')
    (files : List Str) : Str :=
  if first = some (lit "-?") then []
  else optionLoopMessage library options createNewOpt ++ (match optionLoop options createNewOpt with
    | some (_, false) => inputOutputFilesMessage canRead canWrite reason files
    | _ => [])

end Boxes
