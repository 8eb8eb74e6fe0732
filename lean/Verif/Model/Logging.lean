import Verif.Model.Cmdline
import Verif.Model.Types

/-!
# Debug messages: src/logging.c
-/
namespace Boxes

/-- src/logging.h:27-48 `log_area_t` -/
inductive LogArea where
  | reserved | all | main | regexp | parser | lexer | discovery
deriving DecidableEq, Repr

/-- the value of the enumeration -/
def LogArea.idx : LogArea → Nat
  | .reserved => 0 | .all => 1 | .main => 2 | .regexp => 3 | .parser => 4 | .lexer => 5 | .discovery => 6

/-- src/logging.c:32-34: the static variables `debug_logging_active` and `areas_active` (`none`: NULL) -/
structure LogState where
  active : Bool := false
  areas : Option (List Bool) := none
deriving DecidableEq, Repr

/-- src/logging.h:55 `NUM_LOG_AREAS` -/
def numLogAreas : Nat := 5

/-- src/logging.c:68-80 `activate_debug_logging`; an argument with fewer than five areas is read beyond its end -/
def activateDebugLogging (areas : Option (List Bool)) : Res LogState :=
  match areas with
  | none => .ok { active := false, areas := some (List.replicate numLogAreas false) }
  | some l => if l.length < numLogAreas then .ub else .ok { active := true, areas := some (l.take numLogAreas) }

/-- src/logging.c:84-98 `is_area_active` -/
def isAreaActive (st : LogState) (a : LogArea) : Bool :=
  match st.areas with
  | none => false
  | some l =>
    if st.active && a.idx != 0 && decide (a.idx < numLogAreas + 2) then
      if a = .all then l.all id else (l[a.idx - 2]?).getD false
    else false

/-- src/logging.c:102-105 `is_debug_logging` -/
def isDebugLogging (st : LogState) (a : LogArea) : Bool := st.active && isAreaActive st a

/-- src/logging.c:109-119 `is_debug_activated` -/
def isDebugActivated (st : LogState) : Bool :=
  if st.active then (st.areas.getD []).any id else false

/-- the static variables after the options were processed, from what the model of the command line keeps of them: `areasActive` is the last
argument of `activate_debug_logging`, all `false` if it was not called -/
def loggingOf (a : Args) : LogState := { active := true, areas := some a.areasActive }

/-- src/logging.c:38-64 `shorten_module`; `none` is NULL -/
def shortenModule (module : Option Str) : Str :=
  match module with
  | none => lit "NULL"
  | some m =>
    let s := match (strrchr m 0x2f).or (strrchr m 0x5c) with
      | some i => i + 1
      | none => 0
    match strrchr m 0x2e with
    | some e => if e > s ∧ m.drop s ≠ [] then (m.drop s).take (e - s) else m.drop s
    | none => m.drop s

/-- `%-9s` -/
def padRight9 (s : Str) : Str := s ++ List.replicate (9 - s.length) 0x20

/-- src/logging.c:123-139 `log_debug`: what is printed on `stderr`.  The message (what `vsprintf` makes of the format and the arguments) is
written with its NUL to a buffer of 1024 bytes; a longer one is written beyond its end. -/
def logDebug (st : LogState) (module : Option Str) (a : LogArea) (msg : Str) : Res Str :=
  if isDebugLogging st a then
    if msg.length + 1 > 1024 then .ub
    else .ok (lit "[" ++ padRight9 (shortenModule module) ++ lit "] " ++ msg)
  else .ok []

/-- src/logging.c:139-151 `log_debug_cont` -/
def logDebugCont (st : LogState) (a : LogArea) (msg : Str) : Res Str :=
  if isDebugLogging st a then if msg.length + 1 > 1024 then .ub else .ok msg
  else .ok []

end Boxes
