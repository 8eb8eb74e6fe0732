import Verif.Model.Discovery

/-!
# Specification: where the configuration file is looked for

After the section CONFIGURATION FILE of the manual page, doc/boxes.1.in:380-434.
-/
namespace Boxes.Spec

/-- the file `name` in a directory -/
def inside (dir : Str) (name : String) : Str :=
  if ['/'.toNat] <:+ dir then dir ++ name.toList.map Char.toNat else dir ++ '/'.toNat :: name.toList.map Char.toNat

/-- readable files and directories; the empty name is neither -/
def _root_.Boxes.Surroundings.File (w : Surroundings) (p : Str) : Prop := p ≠ [] ∧ w.isFile p = true
def _root_.Boxes.Surroundings.Dir (w : Surroundings) (p : Str) : Prop := p ≠ [] ∧ w.isDir p = true

instance (w : Surroundings) (p : Str) : Decidable (w.File p) := inferInstanceAs (Decidable (_ ∧ _))
instance (w : Surroundings) (p : Str) : Decidable (w.Dir p) := inferInstanceAs (Decidable (_ ∧ _))

/-- the files that are tried when a place is a directory -/
def dirFiles (w : Surroundings) (dir : Str) : List Str :=
  if w.Dir dir then [inside dir ".boxes", inside dir "box-designs", inside dir "boxes-config", inside dir "boxes"] else []

/-- the directory named by an environment variable, with something appended -/
def varDir (w : Surroundings) (value : Option Str) (rest : String) : List Str :=
  match value with
  | none => []
  | some v => dirFiles w (v ++ rest.toList.map Char.toNat)

/-- steps 6 to 9 -/
def globalConfigCandidates (w : Surroundings) : List Str :=
  [w.globalConf] ++ dirFiles w (lit "/etc/xdg/boxes") ++ dirFiles w (lit "/usr/local/share/boxes") ++ dirFiles w (lit "/usr/share/boxes")

/-- steps 3 to 9 -/
def configCandidates (w : Surroundings) : List Str :=
  varDir w w.home "" ++ varDir w w.xdgConfigHome "/boxes" ++ varDir w w.home "/.config/boxes" ++ globalConfigCandidates w

/-- the first of the files that can be read -/
def firstFile (w : Surroundings) (l : List Str) : Option Str := l.find? (fun p => decide (w.File p))

/-- a place that may be a file or a directory: steps 1 and 2 -/
def fileOrDir (w : Surroundings) (p : Str) : Option Str := if w.File p then some p else firstFile w (dirFiles w p)

end Boxes.Spec
