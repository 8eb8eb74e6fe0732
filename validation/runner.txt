import Verif.Model.Whole
import Verif.Model.Scanner
import Verif.Model.Help
open Boxes

unsafe def readFileU (p : String) : Option String :=
  match unsafeIO (do
    let md ← System.FilePath.pathExists p
    if md then
      if ← System.FilePath.isDir p then return none
      let b ← IO.FS.readBinFile p
      match String.fromUTF8? b with
      | some s => return some s
      | none => return some (String.ofList (b.toList.map (fun x => Char.ofNat x.toNat)))
    else return none) with
  | .ok r => r
  | .error _ => none

unsafe def isDirU (p : String) : Bool :=
  match unsafeIO (System.FilePath.isDir p) with
  | .ok r => r
  | .error _ => false

def toStr (s : String) : Str := s.toList.map Char.toNat
def ofStr (s : Str) : String := String.ofList (s.map Char.ofNat)

def inRanges (t : Array (Nat × Nat)) (c : Nat) : Bool := t.any (fun p => p.1 ≤ c && c ≤ p.2)

def mkDb (wide zero : Array (Nat × Nat)) : CharDb where
  width c := if c == 0 then 0 else if c < 0x20 ∨ (0x7f ≤ c ∧ c < 0xa0) then -1 else if c < 0x300 then (if c == 0xad then 0 else 1) else if inRanges wide c then 2 else if inRanges zero c then 0 else 1
  ucBlank c := c == 0x20 || c == 0x09 || c == 0x1680 || (0x2000 ≤ c && c ≤ 0x2006) || (0x2008 ≤ c && c ≤ 0x200a) || c == 0x205f || c == 0x3000
  cntrl c := decide (c < 0x20) || (decide (0x7f ≤ c) && decide (c < 0xa0)) || c == 0x2028 || c == 0x2029
  white c := c == 0x20 || (decide (0x09 ≤ c) && decide (c ≤ 0x0d)) || c == 0x85 || c == 0xa0 || c == 0x1680 || (0x2000 ≤ c && c ≤ 0x200a) || c == 0x2028 || c == 0x2029 || c == 0x202f || c == 0x205f || c == 0x3000

unsafe def substU (r : Rule) (s : Str) : Option Str :=
  match unsafeIO (do
    let child ← IO.Process.spawn { cmd := "python3", args := #["/verif/validation/sub.py", String.intercalate "," (r.search.memory.map toString), String.intercalate "," (r.repstr.memory.map toString), toString r.mode, String.intercalate "," (s.map toString)], stdout := .piped }
    let out ← child.stdout.readToEnd
    let _ ← child.wait
    return out) with
  | .ok o => if o.trimAscii.toString == "none" then none else some ((o.trimAscii.toString.splitOn ",").filter (· ≠ "") |>.map String.toNat!)
  | .error _ => none

def splitLines (s : List Nat) : List Str :=
  let rec go (acc : List Nat) : List Nat → List Str
    | [] => if acc = [] then [] else [acc.reverse]
    | c :: r => if c = 0x0a then (c :: acc).reverse :: go [] r else go (c :: acc) r
  go [] s

def parseRanges (s : String) : Array (Nat × Nat) :=
  ((s.splitOn "\n").filterMap (fun l => match l.splitOn " " with | [a, b] => some (a.toNat!, b.toNat!) | _ => none)).toArray

def mkOpt (n v : String) : Option' :=
  match n with
  | "a" => .align (toStr v) | "c" => .create (toStr v) | "color" => .color | "no-color" => .noColor | "d" => .design (toStr v)
  | "e" => .eol (toStr v) | "f" => .config (toStr v) | "h" => .help | "i" => .indent (toStr v) | "k" => .kill (toStr v)
  | "kill-blank" => .killBlank | "no-kill-blank" => .noKillBlank | "l" => .list | "m" => .mend | "n" => .encoding (toStr v)
  | "p" => .padding (toStr v) | "q" => .query (toStr v) | "r" => .remove | "s" => .size (toStr v) | "t" => .tabs (toStr v)
  | "v" => .version | "x" => .extra (toStr v) | _ => .bad

unsafe def main (args : List String) : IO Unit := do
  let wide := parseRanges (← IO.FS.readFile "/tmp/val/wide.txt")
  let zero := parseRanges (← IO.FS.readFile "/tmp/val/zero.txt")
  let db := mkDb wide zero
  for name in args do
    let base := "/tmp/val/cases/" ++ name
    let spec ← IO.FS.readFile (base ++ ".case")
    let input := (readFileU (base ++ ".in")).getD ""
    let mut opts : List Option' := []
    let mut files : List Str := []
    let mut env : List (String × String) := []
    for l in spec.splitOn "\n" do
      match l.splitOn "\t" with
      | ["opt", n, v] => opts := opts ++ [mkOpt n v]
      | ["file", v] => files := files ++ [toStr v]
      | ["env", n, v] => env := env ++ [(n, v)]
      | _ => pure ()
    let lk := fun n => (env.lookup n).map toStr
    let sur : Surroundings := {
      isFile := fun p => (readFileU (ofStr p)).isSome, isDir := fun p => isDirU (ofStr p),
      home := lk "HOME", xdgConfigHome := lk "XDG_CONFIG_HOME", boxesVar := lk "BOXES", globalConf := toStr "/usr/share/boxes-none" }
    let m : Machine := {
      db := db, surroundings := sur, terminalColors := true, substitution := substU,
      contents := fun b => (readFileU (ofStr b.memory)).map (fun s => (readDecls (toStr s)).getD []),
      canRead := fun f => (readFileU (ofStr f)).isSome || f == toStr "-",
      input := fun f => splitLines (toStr (match f with | some p => (readFileU (ofStr p)).getD "" | none => input)) }
    let r := wholeProgram m { options := opts, files := files } 30000
    let (st, text) := match r with
      | none => ("diverge", [])
      | some .ub => ("ub", [])
      | some (.fail _) => ("fail", [])
      | some (.ok .usage) => match usageLong m (toStr "UTF-8") with | some t => ("ok", t) | none => ("ub", [])
      | some (.ok .version) => ("version", [])
      | some (.ok (.output _ t)) => ("ok", t)
    IO.FS.writeFile (base ++ ".out") (st ++ "\n" ++ ofStr text)
    IO.println s!"{name} {st}"
