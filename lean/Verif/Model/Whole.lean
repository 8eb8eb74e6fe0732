import Verif.Model.Program
import Verif.Model.Merge
import Verif.Model.Build
import Verif.Model.Cmdline
import Verif.Model.Details

/-!
# Model of `main` in `src/boxes.c`: the complete program

Reading configuration files as text is in `Scanner.lean`; here the declarations in them are given.  Encodings, the messages on
standard error and the debug output are not modelled.
-/
namespace Boxes

/-- Everything that the program finds: the character data, environment and file system, what is in the configuration files (`none`
for a file that cannot be opened), whether the terminal has colours (src/boxes.c:413-437), what the regular expression library
makes of a rule, which files can be read or written, and the input (of a file, or of standard input) in the pieces that
`fgets` delivers.  `surroundings.optF` is not used. -/
structure Machine where
  db : CharDb
  junk : Nat := 0
  surroundings : Surroundings
  contents : Bxs → Option (List Decl)
  beyond : Shape := emptyShape
  terminalColors : Bool := false
  substitution : Rule → Subst := fun _ s => some s
  canRead : Str → Bool := fun _ => true
  canWrite : Str → Bool := fun _ => true
  input : Option Str → List Str

/-- The arguments: `argv[1]`, what `getopt_long` reports, and the arguments that remain -/
structure CommandLine where
  first : Option Str := none
  options : List Option' := []
  files : List Str := []

/-- What the program has done when it ends successfully: printed the help text or the version on standard output, or printed a
text to a file (`none`: to standard output).  If it ends with EXIT_FAILURE, that is `.fail`. -/
inductive Outcome where
  | usage
  | version
  | output (file : Option Str) (text : Str)
deriving DecidableEq, Repr

/-- src/boxes.c:441-453 `check_color_support`; the settings are 0 for `force_monochrome`, 1 for `color_from_terminal`, 2 for
`force_ansi_color`, src/boxes.in.h:163-165 -/
def checkColorSupport (color : Nat) (terminalColors : Bool) : Bool :=
  if color = 2 then true else if color = 1 then terminalColors else false

/-- What the parser reads from the global variable `opt`, and what `discover_config_file(1)` finds for `:global:`
(src/parsecode.c:642-648); that search has no undefined behaviour (`lookAt_eq`) -/
def parseEnv (m : Machine) (a : Args) : ParseEnv :=
  { db := m.db, eol := a.opt.eol, choice := a.design, r := a.opt.r, l := a.l, query := a.query.isSome, qundoc := a.qundoc,
    globalConfig := (discoverConfigFile m.db { m.surroundings with optF := a.f } true).bind id,
    canOpen := fun p => (m.contents p).isSome, beyond := m.beyond }

/-- The file in which the first design was found (`defined_in`, src/parsecode.c:246): the first file with a design.  Before it, the
list of designs is empty. -/
def definingFile (env : ParseEnv) (contents : Bxs → Option (List Decl)) (files : List Bxs) : Option Bxs :=
  files.find? (fun f => match parseConfigFile env contents f [] with | .ok (_ :: _, _) => true | _ => false)

/-- src/boxes.c:207-232 `handle_config_parsing` once the configuration file is known: the designs, the parent configuration files,
and `defined_in` of the first design -/
def loadDesigns (m : Machine) (a : Args) (file : Bxs) (fuel : Nat) : Option (Res (List DesignDef × List Bxs × Bxs)) :=
  match a.cld with
  | none =>
    (parseConfigFiles (parseEnv m a) m.contents fuel file).map (fun r => do
      let (ds, ps) ← r
      let f ← Res.get (definingFile (parseEnv m a) m.contents (file :: ps))
      .ok (ds, ps, f))
  | some cld => some (do
      let d ← buildDesign m.db cld
      .ok ([d], [], fromAscii (lit "(command line)")))

/-- The text that the main loop prints: boxes by `bxs_to_output` (src/generate.c:1089, src/bxstring.c:551-565), which leaves out escape sequences unless
colours are used; the lines after removal by `u32_strconv_to_output` (src/remove.c:1217-1219), which does not. -/
def renderEvents (color : Bool) : List Event → Res Str
  | [] => .ok []
  | .read :: more => renderEvents color more
  | .removed out :: more => do
    let r ← renderEvents color more
    .ok ((out.map (fun p => p.1 ++ p.2)).flatten ++ r)
  | .drawn out :: more => do
    let s ← renderBox color out
    let r ← renderEvents color more
    .ok (s ++ r)

/-- the rules of the design with the given index -/
def rulesOf (m : Machine) (rules : DesignDef → List Rule) (ds : List DesignDef) (k : Nat) : List Subst :=
  match ds[k]? with
  | none => []
  | some d => (rules d).map m.substitution

/-- src/boxes.c:515-563: `main` once the command line was read and the designs are known.  `fuel` bounds each of the loops. -/
def mainTask (m : Machine) (a : Args) (file : Bxs) (ds : List DesignDef) (ps : List Bxs) (definedIn : Bxs) (fuel : Nat) :
    Option (Res Str) :=
  let color := checkColorSupport a.color m.terminalColors
  if a.l then
    match ds with
    | [] => some .ub
    | d :: _ => some (Res.get (listDesignsOrOne m.db color a.opt.eol a.qundoc (if a.byUser then some (d, definedIn) else none) file ps ds))
  else if (a.query.getD []) ≠ [] then some (.ok (queryByTag a.opt.eol ds (a.query.getD [])))
  else
    (runProgram { db := m.db, junk := m.junk, pieces := m.input a.infile, byUser := a.byUser, rules := rulesOf m (·.reprules) ds,
                  revRules := rulesOf m (·.revrules) ds, fuel := fuel } a.opt (ds.map (·.core)) fuel).map (fun r => do
      let ev ← r
      renderEvents color ev)

/-- src/boxes.c:497-564 `main`.  The outer `none`: the program is still running when one of its loops has used up its fuel. -/
def wholeProgram (m : Machine) (c : CommandLine) (fuel : Nat) : Option (Res Outcome) :=
  match processCommandline m.canRead m.canWrite c.first c.options c.files with
  | none => some (.fail 1)
  | some a =>
    if a.help then some (.ok .usage)
    else if a.version then some (.ok .version)
    else
      match discoverConfigFile m.db { m.surroundings with optF := a.f } false with
      | none => some .ub
      | some none => some (.fail 1)
      | some (some file) =>
        match loadDesigns m a file fuel with
        | none => none
        | some (.fail _) => some (.fail 1)
        | some .ub => some .ub
        | some (.ok (ds, ps, definedIn)) =>
          match mainTask m a file ds ps definedIn fuel with
          | none => none
          | some (.fail _) => some (.fail 1)
          | some .ub => some .ub
          | some (.ok text) => some (.ok (.output a.outfile text))

end Boxes
