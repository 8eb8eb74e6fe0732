import Verif.Model.Bxs

/-!
# Data types of `src/boxes.in.h`, and the outcomes of the modelled functions
-/
namespace Boxes

/-- Outcome of a modelled function: a value, an error return (`fail`, with the exit or return code), or behaviour that C
leaves undefined or that wraps around (`ub`): NULL dereference, index out of bounds, unsigned subtraction below zero. -/
inductive Res (α : Type) where
  | ok (a : α)
  | fail (code : Nat)
  | ub
deriving DecidableEq, Repr

namespace Res
/-- sequencing -/
def bind {α β : Type} (x : Res α) (f : α → Res β) : Res β :=
  match x with
  | ok a => f a
  | fail n => fail n
  | ub => ub

instance : Monad Res where
  pure := ok
  bind := Res.bind

/-- Unsigned subtraction: going below zero is flagged. -/
def sub (a b : Nat) : Res Nat := if b ≤ a then ok (a - b) else ub

/-- Array access or other partial operation: failure is flagged. -/
def get {α : Type} : Option α → Res α
  | some a => ok a
  | none => ub

@[simp] theorem pure_eq {α : Type} (a : α) : (pure a : Res α) = ok a := rfl
@[simp] theorem ok_bind {α β : Type} (a : α) (f : α → Res β) : (ok a >>= f) = f a := rfl
@[simp] theorem fail_bind {α β : Type} (n : Nat) (f : α → Res β) : ((fail n : Res α) >>= f) = fail n := rfl
@[simp] theorem ub_bind {α β : Type} (f : α → Res β) : ((ub : Res α) >>= f) = ub := rfl
@[simp] theorem get_some {α : Type} (a : α) : get (some a) = ok a := rfl
@[simp] theorem get_none {α : Type} : get (none : Option α) = ub := rfl
theorem sub_ok {a b : Nat} (h : b ≤ a) : sub a b = ok (a - b) := if_pos h
theorem sub_ub {a b : Nat} (h : ¬ b ≤ a) : sub a b = ub := if_neg h

theorem bind_eq_ok {α β : Type} {x : Res α} {f : α → Res β} {b : β} :
    (x >>= f) = ok b ↔ ∃ a, x = ok a ∧ f a = ok b := by
  cases x with
  | ok a => simp
  | fail n => simp
  | ub => simp
end Res

/-- src/boxes.in.h:63-65 `shape_t` -/
inductive ShapeName where
  | NW | NNW | N | NNE | NE | ENE | E | ESE | SE | SSE | S | SSW | SW | WSW | W | WNW
deriving DecidableEq, Repr

/-- The value of the enumerator, i.e. the index into `design_t.shape`. -/
def ShapeName.idx : ShapeName → Nat
  | .NW => 0 | .NNW => 1 | .N => 2 | .NNE => 3 | .NE => 4 | .ENE => 5 | .E => 6 | .ESE => 7
  | .SE => 8 | .SSE => 9 | .S => 10 | .SSW => 11 | .SW => 12 | .WSW => 13 | .W => 14 | .WNW => 15

/-- the enumerators in order -/
def allShapes : List ShapeName :=
  [.NW, .NNW, .N, .NNE, .NE, .ENE, .E, .ESE, .SE, .SSE, .S, .SSW, .SW, .WSW, .W, .WNW]

/-- src/boxes.in.h:68-85 `sentry_t`.  `lines` are the entries of `mbcs`; `lines = []` is `mbcs == NULL`, which always
comes with `chars == NULL`.  The entries of `chars` are the `ascii` forms of the lines.  The blankward caches hold one
entry per line, `none` being -1; a NULL cache is `none`. -/
structure Shape where
  name : ShapeName := .NW
  lines : List Bxs := []
  height : Nat := 0
  width : Nat := 0
  elastic : Bool := false
  blankLeft : Option (List (Option Bool)) := none
  blankRight : Option (List (Option Bool)) := none
deriving DecidableEq, Repr

/-- `SENTRY_INITIALIZER`, src/boxes.in.h:87 -/
def emptyShape : Shape := {}

/-- Values for the four sides, src/boxes.in.h:57-60 `BTOP` .. `BLEF` -/
structure Sides (α : Type) where
  top : α
  right : α
  bottom : α
  left : α
deriving DecidableEq, Repr

/-- src/boxes.in.h:103-123 `design_t`, the part that matters for drawing and removing.  Padding is never negative in a
design (src/parsecode.c:786-824). -/
structure Design where
  indentmode : Char := 'b'
  shape : ShapeName → Shape := fun _ => emptyShape
  minwidth : Nat := 0
  minheight : Nat := 0
  padding : Sides Nat := ⟨0, 0, 0, 0⟩

/-- src/boxes.in.h:129-158 `opt_t`, the part that matters for drawing and removing.  `'\0'` stands for "not given". -/
structure Opt where
  valign : Char := '\x00'
  halign : Char := '\x00'
  justify : Char := '\x00'
  eol : Str := [chNl]
  indentmode : Char := '\x00'
  killblank : Int := -1
  mend : Int := -1
  padding : Sides Int := ⟨-1, -1, -1, -1⟩
  r : Bool := false
  reqwidth : Int := 0
  reqheight : Int := 0
  tabstop : Nat := 8
  tabexp : Char := 'e'

/-- src/boxes.in.h:171-176 `line_t`, without the cache; `text = none` is NULL -/
structure Line where
  text : Option Bxs
  tabpos : List Nat := []
deriving DecidableEq, Repr

/-- src/boxes.in.h:178-184 `input_t` -/
structure Input where
  lines : List Line := []
  maxline : Nat := 0
  indent : Nat := 0
  finalNewline : Bool := false
deriving DecidableEq, Repr

end Boxes
