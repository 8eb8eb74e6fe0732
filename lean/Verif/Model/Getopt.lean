import Verif.Model.Whole

/-!
# Model of the option tables in `src/cmdline.c` and of `getopt_long`, which reads the arguments by them

`getopt_long` is that of the GNU C library, with its standard way of ordering arguments: what is no option is kept until the end.  Its result is what
`processCommandline` works on.
-/
namespace Boxes

/-- src/cmdline.h:32-35: the codes of options which have a long form only -/
def optColor : Nat := 1001
def optNoColor : Nat := 1002
def optKillblank : Nat := 1003
def optNoKillblank : Nat := 1004

/-- src/cmdline.c:776 `short_options` -/
def shortOptions : Str := lit "a:c:d:e:f:hi:k:lmn:p:q:rs:t:vx:"

/-- src/cmdline.c:752-775 `long_options`: name, whether an argument is required, and the code -/
def longOptions : List (String × Bool × Nat) := [
  ("align", true, 'a'.toNat),
  ("create", true, 'c'.toNat),
  ("color", false, optColor),
  ("no-color", false, optNoColor),
  ("design", true, 'd'.toNat),
  ("eol", true, 'e'.toNat),
  ("config", true, 'f'.toNat),
  ("help", false, 'h'.toNat),
  ("indent", true, 'i'.toNat),
  ("kill-blank", false, optKillblank),
  ("no-kill-blank", false, optNoKillblank),
  ("list", false, 'l'.toNat),
  ("mend", false, 'm'.toNat),
  ("encoding", true, 'n'.toNat),
  ("padding", true, 'p'.toNat),
  ("tag-query", true, 'q'.toNat),
  ("remove", false, 'r'.toNat),
  ("size", true, 's'.toNat),
  ("tabs", true, 't'.toNat),
  ("version", false, 'v'.toNat),
  ("extra", true, 'x'.toNat)]

/-- the cases of the switch in src/cmdline.c:782-927; `arg` is `optarg` -/
def optionOf (code : Nat) (arg : Str) : Option' :=
  if code = 'a'.toNat then .align arg
  else if code = 'c'.toNat then .create arg
  else if code = optColor then .color
  else if code = optNoColor then .noColor
  else if code = 'd'.toNat then .design arg
  else if code = 'e'.toNat then .eol arg
  else if code = 'f'.toNat then .config arg
  else if code = 'h'.toNat then .help
  else if code = 'i'.toNat then .indent arg
  else if code = 'k'.toNat then .kill arg
  else if code = optKillblank then .killBlank
  else if code = optNoKillblank then .noKillBlank
  else if code = 'l'.toNat then .list
  else if code = 'm'.toNat then .mend
  else if code = 'n'.toNat then .encoding arg
  else if code = 'p'.toNat then .padding arg
  else if code = 'q'.toNat then .query arg
  else if code = 'r'.toNat then .remove
  else if code = 's'.toNat then .size arg
  else if code = 't'.toNat then .tabs arg
  else if code = 'v'.toNat then .version
  else if code = 'x'.toNat then .extra arg
  else .bad

/-- `getopt_long`: an option character is looked up in `short_options`.  `none` if it is not there, otherwise whether it requires an argument. -/
def shortLookup (c : Nat) : Option Bool :=
  if c = ':'.toNat || c = ';'.toNat then none
  else match shortOptions.dropWhile (fun d => d != c) with
    | [] => none
    | _ :: r => some (r.head? == some ':'.toNat)

/-- `getopt_long` on the characters behind a single dash: the options, and the code of an option whose argument is the next word -/
def shortCluster : Str → List Option' × Option Nat
  | [] => ([], none)
  | c :: r =>
    match shortLookup c with
    | none => ([.bad], none)
    | some true => if r = [] then ([], some c) else ([optionOf c r], none)
    | some false =>
      let q := shortCluster r
      (optionOf c [] :: q.1, q.2)

/-- `getopt_long`: a long option is looked up: the entry of that name, or the only entry whose name begins like that -/
def longLookup (name : Str) : Option (Bool × Nat) :=
  match longOptions.find? (fun e => lit e.1 == name) with
  | some e => some e.2
  | none =>
    match longOptions.filter (fun e => name.isPrefixOf (lit e.1)) with
    | [e] => some e.2
    | _ => none

/-- `getopt_long` on the characters behind two dashes, up to the `=` and beyond -/
def longWord (w : Str) : List Option' × Option Nat :=
  let name := w.takeWhile (fun c => c != '='.toNat)
  match longLookup name, w.drop name.length with
  | none, _ => ([.bad], none)
  | some (true, code), _ :: value => ([optionOf code value], none)
  | some (true, code), [] => ([], some code)
  | some (false, _), _ :: _ => ([.bad], none)
  | some (false, code), [] => ([optionOf code []], none)

/-- All calls of `getopt_long` in the loop of src/cmdline.c:779-928: the options, and the arguments that remain.  `pending` is the code of an option
whose argument is the next word.  After `bad` the loop of the program does not call it again. -/
def getoptWords (pending : Option Nat) : List Str → List Option' × List Str
  | [] => (match pending with | none => [] | some _ => [.bad], [])
  | w :: rest =>
    match pending with
    | some code =>
      let q := getoptWords none rest
      (optionOf code w :: q.1, q.2)
    | none =>
      if w = lit "--" then ([], rest)
      else if (lit "--").isPrefixOf w then
        let o := longWord (w.drop 2)
        let q := getoptWords o.2 rest
        (o.1 ++ q.1, q.2)
      else if (lit "-").isPrefixOf w && w != lit "-" then
        let o := shortCluster (w.drop 1)
        let q := getoptWords o.2 rest
        (o.1 ++ q.1, q.2)
      else
        let q := getoptWords none rest
        (q.1, w :: q.2)

/-- the arguments as `process_commandline` sees them -/
def commandLineOf (argv : List Str) : CommandLine :=
  let q := getoptWords none argv
  { first := argv.head?, options := q.1, files := q.2 }

/-- src/boxes.c:497-564 `main`, given the arguments behind the name of the program -/
def boxesMain (m : Machine) (argv : List Str) (fuel : Nat) : Option (Res Outcome) := wholeProgram m (commandLineOf argv) fuel

end Boxes
