import Verif.Lemmas.Ends

/-!
# What removal of a box depends on
-/
namespace Boxes
open ShapeName
set_option linter.unusedSimpArgs false

/-- the design as far as the removal of a box depends on it: without the blankward caches and the minimum size -/
def bare (d : Design) : Design :=
  { d with shape := fun n => { d.shape n with blankLeft := none, blankRight := none }, minwidth := 0, minheight := 0 }

theorem prepareCompShape_bare (d : Design) : prepareCompShape (bare d) = prepareCompShape d := rfl
theorem isEmpty_bare (d : Design) (n : ShapeName) : ((bare d).shape n).isEmpty = (d.shape n).isEmpty := rfl
theorem isDeepEmpty_bare (d : Design) (n : ShapeName) : ((bare d).shape n).isDeepEmpty = (d.shape n).isDeepEmpty := rfl
theorem fields_bare (d : Design) (n : ShapeName) : ((bare d).shape n).height = (d.shape n).height ∧ ((bare d).shape n).width = (d.shape n).width ∧
    ((bare d).shape n).elastic = (d.shape n).elastic ∧ ((bare d).shape n).lines = (d.shape n).lines ∧ (bare d).padding = d.padding :=
  ⟨rfl, rfl, rfl, rfl, rfl⟩

theorem emptySide_bare (d : Design) (l : List ShapeName) : emptySide (bare d).shape l = emptySide d.shape l := by
  rfl

theorem determine_bare (d : Design) : determineEmptySides (bare d) = determineEmptySides d := by
  unfold determineEmptySides; simp only [emptySide_bare]

theorem mono_bare (d : Design) : designIsMono (bare d) = designIsMono d := by
  unfold designIsMono
  generalize allShapes = l
  induction l with
  | nil => rfl
  | cons n r ih => simp only [shapesAreMono, ih, isEmpty_bare, fields_bare]

theorem horizShapes_bare (db : CharDb) (d : Design) (c : CompType) (idx : Nat) : ∀ l, compShapesHoriz db (bare d) c idx l = compShapesHoriz db d c idx l
  | [] => rfl
  | n :: r => by simp only [compShapesHoriz, horizShapes_bare db d c idx r, isEmpty_bare, prepareCompShape_bare, fields_bare]; rfl

theorem horizWith_bare (db : CharDb) (d : Design) : matchHorizLineWith db (bare d) = matchHorizLineWith db d := by
  funext lines empty top a b c
  unfold matchHorizLineWith prepareCompShapesHoriz
  simp only [horizShapes_bare, fields_bare]

theorem horizLoop_bare (db : CharDb) (d : Design) (lines : List Line) (ctx : RemoveCtx) (top : Bool) (a b : Nat) : ∀ l cur,
    matchHorizLoop db (bare d) lines ctx top a b l cur = matchHorizLoop db d lines ctx top a b l cur
  | [], _ => rfl
  | c :: r, cur => by
    simp only [matchHorizLoop, horizWith_bare, horizLoop_bare db d lines ctx top a b r]

theorem anyLine_bare (db : CharDb) (d : Design) (lines : List Line) (top : Bool) (a : Nat) : ∀ l ctx,
    matchAnyShapeLine db (bare d) lines top a l ctx = matchAnyShapeLine db d lines top a l ctx
  | [], _ => rfl
  | i :: r, ctx => by
    simp only [matchAnyShapeLine, matchHorizLine, horizLoop_bare, anyLine_bare db d lines top a r]

theorem topLoop_bare (db : CharDb) (d : Design) (lines : List Line) : ∀ n k ctx, topLoop db (bare d) lines n k ctx = topLoop db d lines n k ctx
  | 0, _, _ => rfl
  | n + 1, k, ctx => by simp only [topLoop, anyLine_bare, topLoop_bare db d lines n, fields_bare]

theorem bottomLoop_bare (db : CharDb) (d : Design) (lines : List Line) : ∀ n k ctx, bottomLoop db (bare d) lines n k ctx = bottomLoop db d lines n k ctx
  | 0, _, _ => rfl
  | n + 1, k, ctx => by simp only [bottomLoop, anyLine_bare, bottomLoop_bare db d lines n, fields_bare]

theorem shapeLines_bare (db : CharDb) (d : Design) (c : CompType) (s : ShapeName) : ∀ n i, compShapeLines db (bare d) c s n i = compShapeLines db d c s n i
  | 0, _ => rfl
  | n + 1, i => by simp only [compShapeLines, shapeLines_bare db d c s n, prepareCompShape_bare, isDeepEmpty_bare, fields_bare]

theorem vertShapes_bare (db : CharDb) (d : Design) (c : CompType) : ∀ l, compShapesVert db (bare d) c l = compShapesVert db d c l
  | [] => rfl
  | s :: r => by simp only [compShapesVert, vertShapes_bare db d c r, shapeLines_bare, isEmpty_bare, fields_bare]

theorem vertRounds_bare (db : CharDb) (d : Design) (lines : List Line) (ctx : RemoveCtx) : ∀ l cur body,
    vertRounds db (bare d) lines ctx l cur body = vertRounds db d lines ctx l cur body
  | [], _, _ => rfl
  | c :: r, cur, body => by
    have hq : ∀ b, sufficientBodyQuality (bare d) ctx b = sufficientBodyQuality d ctx b := fun _ => rfl
    simp only [vertRounds, vertRounds_bare db d lines ctx r, prepareCompShapesVert, vertShapes_bare, hq]

theorem findBox_bare (db : CharDb) (d : Design) (i : Input) : findBox db (bare d) i = findBox db d i := by
  unfold findBox findTopSide findBottomSide findVerticalShapes
  simp only [mono_bare, determine_bare, topLoop_bare, bottomLoop_bare, vertRounds_bare, fields_bare]

theorem removeLines_bare (db : CharDb) (opt : Opt) (d : Design) (n : Nat) (c : CompType) : ∀ ls rest,
    removeVerticalLines db opt (bare d) n c ls rest = removeVerticalLines db opt d n c ls rest
  | [], _ => rfl
  | _ :: _, [] => rfl
  | l :: ls, line :: rest => by
    have : removeVerticalLine db opt (bare d) n c line l = removeVerticalLine db opt d n c line l := rfl
    simp only [removeVerticalLines, removeLines_bare db opt d n c ls rest, this]

theorem apply_bare (db : CharDb) (opt : Opt) (d : Design) (i : Input) (ctx : RemoveCtx) :
    applyResults db opt (bare d) i ctx = applyResults db opt d i ctx := by
  have : ∀ ls ctx, killBlank db opt (bare d) ls ctx = killBlank db opt d ls ctx := fun _ _ => rfl
  unfold applyResults removeVertical
  simp only [removeLines_bare, this]
  rfl

/-- removal depends on the shapes (without caches), the padding and the indentation mode only -/
theorem remove_alike {db : CharDb} {opt : Opt} {d e : Design} (h : bare d = bare e) (i : Input) :
    handleRemoveBox db opt d [] i = handleRemoveBox db opt e [] i := by
  have hr : ∀ o d, removeBox db o (bare d) i = removeBox db o d i := by
    intro o d
    unfold removeBox
    rw [findBox_bare]
    simp only [apply_bare]
  have key : ∀ d, handleRemoveBox db opt (bare d) [] i = handleRemoveBox db opt d [] i := by
    intro d
    unfold handleRemoveBox
    simp only [hr, emptySide_bare]
    rfl
  rw [← key d, ← key e, h]

end Boxes
