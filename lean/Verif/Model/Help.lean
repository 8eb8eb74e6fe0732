import Verif.Model.Getopt

/-!
# Model of the help text and of everything that is printed on standard output

The name of the character encoding (`locale_charset`) and the version number are given.
-/
namespace Boxes

/-- src/cmdline.c:87-116: the lines that `usage_long` prints, without their line ends; `EOL_DEFAULT` is that of systems other than Windows, `DEF_TABSTOP` is 8
(src/cmdline.c:50).  `config` is what is printed for the configuration file. -/
def helpLines (charset config : Str) : List Str := [
  lit "boxes - draws any kind of box around your text (or removes it)",
  lit "        Website: https://boxes.thomasjensen.com/",
  lit "Usage:  boxes [options] [infile [outfile]]",
  lit "  -a, --align <fmt>     Alignment/positioning of text inside box [default: hlvt]",
  lit "  -c, --create <str>    Use single shape box design where str is the W shape",
  lit "      --color           Force output of ANSI sequences if present",
  lit "      --no-color        Force monochrome output (no ANSI sequences)",
  lit "  -d, --design <name>   Box design [default: first one in file]",
  lit "  -e, --eol <eol>       Override line break type (experimental) [default: LF]",
  lit "  -f, --config <file>   Configuration file [default: " ++ config ++ lit "]",
  lit "  -h, --help            Print usage information",
  lit "  -i, --indent <mode>   Indentation mode [default: box]",
  lit "  -k <bool>             Leading/trailing blank line retention on removal",
  lit "      --kill-blank      Kill leading/trailing blank lines on removal (like -k true)",
  lit "      --no-kill-blank   Retain leading/trailing blank lines on removal (like -k false)",
  lit "  -l, --list            List available box designs w/ samples",
  lit "  -m, --mend            Mend (repair) box",
  lit "  -n, --encoding <enc>  Character encoding of input and output [default: " ++ charset ++ lit "]",
  lit "  -p, --padding <fmt>   Padding [default: none]",
  lit "  -q, --tag-query <qry> Query the list of designs by tag",
  lit "  -r, --remove          Remove box",
  lit "  -s, --size <wxh>      Box size (width w and/or height h)",
  lit "  -t, --tabs <str>      Tab stop distance and expansion [default: 8e]",
  lit "  -v, --version         Print version information"]

/-- src/cmdline.c:83-118 `usage_long`.  When it is called (src/boxes.c:190-193), the options have not yet been copied to the global variable `opt`, so
`discover_config_file` does not know the argument of `-f`.  `none`: undefined behaviour. -/
def usageLong (m : Machine) (charset : Str) : Option Str := do
  let found ← discoverConfigFile m.db { m.surroundings with optF := none } false
  let config ← match found with
    | none => some (lit "none")
    | some file => file.toOutput false
  some ((helpLines charset config).map (· ++ [chNl])).flatten

/-- The whole program, src/boxes.c:505-564 with src/boxes.c:182-200 `handle_command_line`: the file to which is printed (`none`: standard output), and the text -/
def printedBy (m : Machine) (charset version : Str) (argv : List Str) (fuel : Nat) : Option (Res (Option Str × Str)) :=
  match boxesMain m argv fuel with
  | none => none
  | some .ub => some .ub
  | some (.fail n) => some (.fail n)
  | some (.ok .usage) => some (do
      let t ← Res.get (usageLong m charset)
      .ok (none, t))
  | some (.ok .version) => some (.ok (none, lit "boxes version " ++ version ++ [chNl]))
  | some (.ok (.output f t)) => some (.ok (f, t))

end Boxes
