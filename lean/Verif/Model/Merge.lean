import Verif.Model.Discovery

/-!
# Model of src/parsing.c: reading a configuration file and its parents

The contents of the files are a parameter and do not change while they are read.
-/
namespace Boxes

/-- src/parsing.c:161-197 `parse_config_file`: designs and parents of one file.  `contents` gives the declarations in a file, `none`
when it cannot be opened.  When parsing fails, nothing is returned. -/
def parseConfigFile (env : ParseEnv) (contents : Bxs → Option (List Decl)) (file : Bxs) (children : List DesignDef) :
    Res (List DesignDef × List Bxs) :=
  match contents file with
  | none => .ok ([], [])
  | some decls =>
    match parseConfig { env with childConfigs := children } decls [] with
    | .ub => .ub
    | .fail _ => .ok ([], [])
    | .ok r => .ok r

/-- src/parsing.c:201-213 `designs_contain`; a design always has a name -/
def designsContain (designs : List DesignDef) (d : DesignDef) : Bool := designs.any (fun e => strCaseEq e.name d.name)

/-- src/parsing.c:217-235 `record_parent_config_files`: the parents of a file are added in reverse order -/
def recordParentConfigFiles (known : List Bxs) (new : List Bxs) : List Bxs :=
  new.reverse.foldl (fun ps p => if arrayContainsBxs ps p then ps else ps ++ [p]) known

/-- src/parsing.c:239-262 `copy_designs` -/
def copyDesigns (new result : List DesignDef) : List DesignDef :=
  if new.length > 0 then
    if result.isEmpty then new
    else new.foldl (fun r d => if designsContain r d then r else r ++ [d]) result
  else result

/-- src/parsing.c:275-297: the loop over the files; `parsed` is `parents_parsed` before it is incremented, plus 1.  The outer `none`
means that the loop is still running when the fuel is used up. -/
def mergeLoop (env : ParseEnv) (contents : Bxs → Option (List Decl)) :
    Nat → Bxs → List DesignDef → List Bxs → Nat → Option (Res (List DesignDef × List Bxs))
  | 0, _, _, _, _ => none
  | fuel + 1, file, result, parents, parsed =>
    match parseConfigFile env contents file result with
    | .ub => some .ub
    | .fail c => some (.fail c)
    | .ok (ds, ps) =>
      let parents := recordParentConfigFiles parents ps
      let result := copyDesigns ds result
      match parents[parsed]? with
      | some next => mergeLoop env contents fuel next result parents (parsed + 1)
      | none => some (.ok (result, parents))

/-- src/parsing.c:266-309 `parse_config_files`: all designs, and the parent configuration files in the order in which they were
read; `.fail` when there is no design -/
def parseConfigFiles (env : ParseEnv) (contents : Bxs → Option (List Decl)) (fuel : Nat) (first : Bxs) :
    Option (Res (List DesignDef × List Bxs)) :=
  match mergeLoop env contents fuel first [] [] 0 with
  | some (.ok (ds, ps)) => if ds.length = 0 then some (.fail rcError) else some (.ok (ds, ps))
  | r => r

end Boxes
