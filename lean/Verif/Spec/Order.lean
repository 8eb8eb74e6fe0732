import Verif.Model.Whole

namespace Boxes.Spec

/-- What an option is about.  Help, version and unknown options end the reading of the command line. -/
inductive OptionTopic where
  | align | create | color | design | eol | config | indent | blankLines | list | encoding | padding | query | remove | size | tabs | extra | stop
deriving DecidableEq

/-- The topic of an option: `--color` and `--no-color` are about the same; so are `-k`, `--kill-blank`, `--no-kill-blank` and `-m`, which all say what happens to blank lines. -/
def optionTopic : Option' → OptionTopic
  | .align _ => .align
  | .create _ => .create
  | .color => .color
  | .noColor => .color
  | .design _ => .design
  | .eol _ => .eol
  | .config _ => .config
  | .help => .stop
  | .indent _ => .indent
  | .kill _ => .blankLines
  | .killBlank => .blankLines
  | .noKillBlank => .blankLines
  | .list => .list
  | .mend => .blankLines
  | .encoding _ => .encoding
  | .padding _ => .padding
  | .query _ => .query
  | .remove => .remove
  | .size _ => .size
  | .tabs _ => .tabs
  | .version => .stop
  | .extra _ => .extra
  | .bad => .stop

/-- The same options in an order in which only options about different things have changed places: for every topic, the options about it are the same, in the same order. -/
def SameByTopic (opts opts' : List Option') : Prop := ∀ k : OptionTopic, opts.filter (fun x => optionTopic x = k) = opts'.filter (fun x => optionTopic x = k)

end Boxes.Spec
