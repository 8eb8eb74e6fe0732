import Verif.Model.Getopt
import Verif.Model.Scanner
import Verif.Model.Input

/-!
# The complete program on texts: arguments, configuration files and input
-/
namespace Boxes

/-- The machine on which the configuration files have the texts `texts` (`none`: cannot be opened) and the files and standard input have the contents
`input`.  Simplification: where the scanner exits because no rule matches (src/lexer.l, a keyword `parent` followed by a carriage return which does not
end the line), the model goes on with a file without declarations. -/
def withTexts (m : Machine) (texts : Bxs → Option Str) (input : Option Str → Str) : Machine :=
  { m with contents := fun f => (texts f).map (fun t => (readDecls t).getD []), input := fun f => inputPieces (input f) }

/-- src/boxes.c:497-564 `main`: from the arguments, the texts of the configuration files and the input to the output -/
def boxesProgram (m : Machine) (texts : Bxs → Option Str) (input : Option Str → Str) (argv : List Str) (fuel : Nat) : Option (Res Outcome) :=
  boxesMain (withTexts m texts input) argv fuel

end Boxes
