import Verif.Model.Main
import Verif.Model.Remove

/-!
# Model of the main loop of `src/boxes.c`
-/
namespace Boxes

/-- What does not change while the main loop runs: the input as it will be read, whether the design was chosen by the user, the
replacement and reversion rules of the designs (by index), a bound for the loops of `horiz_precalc` and `vert_precalc`. -/
structure Setup where
  db : CharDb
  junk : Nat := 0
  pieces : List Str
  byUser : Bool
  rules : Nat → List Subst := fun _ => []
  revRules : Nat → List Subst := fun _ => []
  fuel : Nat

/-- The global variables `opt`, `designs`, `opt.design` (the index) and `input` -/
structure World where
  opt : Opt
  designs : List Design
  cur : Nat
  input : Input := {}

/-- What the program does that can be observed: reading standard input, removing a box (with the lines printed), drawing a box -/
inductive Event where
  | read
  | removed (out : List (Str × Str))
  | drawn (out : List (Bxs × Str))
deriving DecidableEq

/-- replacing the current design -/
def World.setDesign (w : World) (d : Design) : World := { w with designs := w.designs.set w.cur d }

/-- src/boxes.c:270-296 `handle_input`, without the end of the program if there are no lines -/
def handleInput (s : Setup) (w : World) (d : Design) : Res (Input × List Event) :=
  if w.opt.mend ≠ 0 then do
    let raw ← readAllInput s.db w.opt s.junk s.pieces
    let i ← analyzeInput s.db w.opt d (s.rules w.cur) raw
    .ok (i, [.read])
  else do
    let i ← analyzeInput s.db w.opt d (s.rules w.cur) w.input
    .ok (i, [])

/-- src/boxes.c:388-395: the default for blank-line removal -/
def killblankDefault (kb : Int) (d : Design) : Int :=
  if kb = -1 then (if emptySide d.shape northSide ∧ emptySide d.shape southSide then 0 else 1) else kb

/-- src/boxes.c:383-403 `handle_remove_box` with `remove_box` and `detect_design_if_needed`: note that the default for blank-line
removal depends on the design before detection.  The caches of the designs that `remove_box` fills later are left out (C44). -/
def removePhase (s : Setup) (w : World) (d : Design) : Res (World × List Event) := do
  let kb := killblankDefault w.opt.killblank d
  let opt := { w.opt with killblank := kb }
  let q ← detectDesignIfNeeded s.db w.designs w.input.lines (if s.byUser then some w.cur else none)
  let d' ← Res.get q.2[q.1]?
  let r ← handleRemoveBox s.db opt d' (s.revRules q.1) w.input
  .ok ({ opt, designs := q.2, cur := q.1, input := r.1 }, [.removed r.2])

/-- src/boxes.c:543-560: the body of the loop.  The flag tells whether the program ends in it (no input lines). -/
def mainPhase (s : Setup) (savedWidth savedHeight : Nat) (w : World) : Option (Res (Bool × World × List Event)) :=
  let opt := { w.opt with r := if w.opt.mend = 1 then false else w.opt.r, mend := w.opt.mend - 1 }
  match w.designs[w.cur]? with
  | none => some .ub
  | some d0 =>
    let d := { d0 with minwidth := savedWidth, minheight := savedHeight }
    let w := { w with opt, designs := w.designs.set w.cur d }
    match handleInput s w d with
    | .fail n => some (.fail n)
    | .ub => some .ub
    | .ok q =>
      if q.1.lines = [] then some (.ok (true, { w with input := q.1 }, q.2))
      else
        let d := adjustSizeAndPadding opt d q.1
        let w := { w with designs := w.designs.set w.cur d, input := q.1 }
        if opt.r then
          match removePhase s w d with
          | .fail n => some (.fail n)
          | .ub => some .ub
          | .ok r => some (.ok (false, r.1, q.2 ++ r.2))
        else
          (handleGenerateBox s.db opt d q.1 s.fuel).map (fun r => do
            let out ← r
            .ok (false, w, q.2 ++ [.drawn out]))

/-- src/boxes.c:543-561: the loop, for at most the given number of rounds -/
def mainLoop (s : Setup) (savedWidth savedHeight : Nat) : Nat → World → Option (Res (List Event))
  | 0, _ => none
  | n + 1, w =>
    match mainPhase s savedWidth savedHeight w with
    | none => none
    | some (.fail k) => some (.fail k)
    | some .ub => some .ub
    | some (.ok (done, w', ev)) =>
      if done = false ∧ w'.opt.mend > 0 then
        (mainLoop s savedWidth savedHeight n w').map (fun r => do
          let more ← r
          .ok (ev ++ more))
      else some (.ok ev)

/-- src/boxes.c:536-564: the program once the configuration is read and if neither designs are listed nor tags are queried; the
first design is current -/
def runProgram (s : Setup) (opt : Opt) (designs : List Design) (rounds : Nat) : Option (Res (List Event)) :=
  match designs[0]? with
  | none => some .ub
  | some d0 =>
    let d := prepareDesign opt d0
    mainLoop s d.minwidth d.minheight rounds { opt, designs := designs.set 0 d, cur := 0 }

end Boxes
