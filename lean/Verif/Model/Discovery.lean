import Verif.Model.Parse

/-!
# Model of src/discovery.c (other than Windows)

File names are lists of code points, their encoding as UTF-8 is not modelled.  The file system is a parameter; it does not change
during the search.
-/
namespace Boxes

/-- What the search takes from outside: the file system, the environment variables, the option `-f`, and the location of the
global configuration file that was fixed when boxes was built. -/
structure Surroundings where
  /-- can be opened for reading, has a status, and is not a directory -/
  isFile : Str → Bool
  /-- can be opened as a directory -/
  isDir : Str → Bool
  home : Option Str := none
  xdgConfigHome : Option Str := none
  boxesVar : Option Str := none
  optF : Option Str := none
  globalConf : Str

/-- src/discovery.c:42-78 `can_read_file` -/
def canReadFile (w : Surroundings) (path : Option Str) : Bool :=
  match path with
  | none => false
  | some p => if p.isEmpty then false else w.isFile p

/-- src/discovery.c:82-104 `can_read_dir` -/
def canReadDir (w : Surroundings) (path : Option Str) : Bool :=
  match path with
  | none => false
  | some p => if p.isEmpty then false else w.isDir p

/-- src/discovery.c:108-116 `combine`; `none` when memory outside of the name is accessed -/
def combine (dirname filename : Str) : Option Str :=
  match dirname.getLast? with
  | none => none
  | some c =>
    if c = 0x2f then (concatStringsAlloc [some dirname, some filename]).map (·.data)
    else (concatStringsAlloc [some dirname, some [0x2f], some filename]).map (·.data)

/-- src/discovery.c:125 -/
def configNames : List Str := [lit ".boxes", lit "box-designs", lit "boxes-config", lit "boxes"]

/-- the loop in src/discovery.c:127-133; the outer `none` is undefined behaviour -/
def locateLoop (w : Surroundings) (dirname : Str) : List Str → Option (Option Str)
  | [] => some none
  | name :: rest => do
    let f ← combine dirname name
    if canReadFile w (some f) then some (some f) else locateLoop w dirname rest

/-- src/discovery.c:120-135 `locate_config_in_dir` -/
def locateConfigInDir (w : Surroundings) (dirname : Str) : Option (Option Str) := locateLoop w dirname configNames

/-- src/discovery.c:139-155 `locate_config_file_or_dir`, without the messages -/
def locateConfigFileOrDir (w : Surroundings) (path : Str) : Option (Option Str) :=
  if canReadFile w (some path) then some (some path)
  else if canReadDir w (some path) then locateConfigInDir w path
  else some none

/-- src/discovery.c:159-167 `from_env_var` -/
def fromEnvVar (value : Option Str) (tail : Str) : Option Str :=
  match value with
  | none => none
  | some v => (concatStringsAlloc [some v, some tail]).map (·.data)

/-- src/discovery.c:171-191 `locate_config_common`: the path and `error_printed` -/
def locateConfigCommon (w : Surroundings) : Option (Option Str × Bool) :=
  match w.optF with
  | some f => (locateConfigFileOrDir w f).map (fun r => (r, r.isNone))
  | none =>
    match w.boxesVar with
    | some b => (locateConfigFileOrDir w b).map (fun r => (r, r.isNone))
    | none => some (none, false)

/-- src/discovery.c:228-238 `utf8_to_bxs` -/
def utf8ToBxs (db : CharDb) (path : Option Str) : Option Bxs := path.bind (fromUnicode db)

/-- an entry of `dirs` in src/discovery.c:256-274 -/
inductive Place where
  | globalConf
  | dir (path : Option Str)

/-- src/discovery.c:257-261 `user_dirs` -/
def userDirs (w : Surroundings) : List Place :=
  [.dir (fromEnvVar w.home []), .dir (fromEnvVar w.xdgConfigHome (lit "/boxes")), .dir (fromEnvVar w.home (lit "/.config/boxes"))]

/-- src/discovery.c:262-267 `global_dirs` -/
def globalDirs : List Place :=
  [.globalConf, .dir (some (lit "/etc/xdg/boxes")), .dir (some (lit "/usr/local/share/boxes")), .dir (some (lit "/usr/share/boxes"))]

/-- src/discovery.c:276-297: one place -/
def lookAt (db : CharDb) (w : Surroundings) : Place → Option (Option Bxs)
  | .globalConf => some (if canReadFile w (some w.globalConf) then utf8ToBxs db (some w.globalConf) else none)
  | .dir none => some none
  | .dir (some d) => if canReadDir w (some d) then (locateConfigInDir w d).map (utf8ToBxs db) else some none

/-- src/discovery.c:275-301: the loop over the places -/
def searchLoop (db : CharDb) (w : Surroundings) : List Place → Option (Option Bxs)
  | [] => some none
  | p :: rest => do
    let r ← lookAt db w p
    match r with
    | some b => some (some b)
    | none => searchLoop db w rest

/-- src/discovery.c:242-311 `discover_config_file`; the outer `none` is undefined behaviour -/
def discoverConfigFile (db : CharDb) (w : Surroundings) (globalOnly : Bool) : Option (Option Bxs) := do
  let (path, errorPrinted) ← if globalOnly then some (none, false) else locateConfigCommon w
  match utf8ToBxs db path with
  | some b => some (some b)
  | none =>
    if errorPrinted then some none
    else searchLoop db w (if globalOnly then globalDirs else userDirs w ++ globalDirs)

end Boxes
