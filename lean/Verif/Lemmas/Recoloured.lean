import Verif.Spec.Recoloured
import Verif.Lemmas.SameShown
import Verif.Lemmas.Found

/-!
# Drawing and removing boxes with designs that differ only in their colours
-/
set_option linter.unusedSimpArgs false

namespace Boxes
open Boxes.Spec ShapeName

/-- the same outcome, up to a relation between the results -/
def ResRel {α β : Type} (R : α → β → Prop) : Res α → Res β → Prop
  | .ok a, .ok b => R a b
  | .fail n, .fail m => n = m
  | .ub, .ub => True
  | _, _ => False

theorem ResRel.bind {α β γ δ : Type} {R : α → β → Prop} {S : γ → δ → Prop} {x : Res α} {y : Res β} {f : α → Res γ} {g : β → Res δ} (h : ResRel R x y)
    (hf : ∀ a b, R a b → ResRel S (f a) (g b)) : ResRel S (x >>= f) (y >>= g) := by
  cases x <;> cases y <;> simp_all [ResRel, bind, Res.bind]

theorem ResRel.refl {α : Type} (x : Res α) : ResRel (fun a b => b = a) x x := by
  cases x <;> simp [ResRel]

theorem resRel_eq {α : Type} {x y : Res α} (h : ResRel (fun a b => b = a) x y) : y = x := by
  cases x <;> cases y <;> simp_all [ResRel]

theorem recoloured_isEmpty {db : CharDb} {s s' : Shape} (h : RecolouredShape db s s') : s'.isEmpty = s.isEmpty := by
  unfold Shape.isEmpty
  rw [h.width, h.height]
  have : s'.lines.isEmpty = s.lines.isEmpty := by
    rw [Bool.eq_iff_iff, List.isEmpty_iff, List.isEmpty_iff, ← List.length_eq_zero_iff, ← List.length_eq_zero_iff, h.count]
  rw [this]

theorem recoloured_present {db : CharDb} {s s' : Shape} (h : RecolouredShape db s s') : Present s' ↔ Present s := by
  rw [← present_iff, ← present_iff, recoloured_isEmpty h]

theorem showSame_symm {s s' : Str} (h : ShowSame s s') : ShowSame s' s := let ⟨v, h1, h2⟩ := h; ⟨v, h2, h1⟩

theorem recoloured_symm {db : CharDb} {d d' : Design} (h : Recoloured db d d') : Recoloured db d' d where
  shapes n := ⟨(h.shapes n).height.symm, (h.shapes n).width.symm, (h.shapes n).elastic.symm, (h.shapes n).count.symm,
    fun i b b' e e' => by
      obtain ⟨h0, h⟩ := (h.shapes n).lines i b' b e' e
      refine ⟨showSame_symm h0, ?_⟩
      rcases h with rfl | ⟨h1, h2⟩
      · exact .inl rfl
      · exact .inr ⟨h2, h1⟩⟩
  indentmode := h.indentmode.symm
  minwidth := h.minwidth.symm
  minheight := h.minheight.symm
  padding := h.padding.symm

theorem recoloured_blank {db : CharDb} {d d' : Design} (hd : ReadyDesign db d) (h : Recoloured db d d') (n : ShapeName) : BlankShape db (d.shape n) → BlankShape db (d'.shape n) := by
  intro hb hp b hbm v hv
  have hp0 := (recoloured_present (h.shapes n)).1 hp
  obtain ⟨i, hi⟩ := List.getElem?_of_mem hbm
  have hlt : i < (d.shape n).lines.length := by
    rw [← (h.shapes n).count]; exact (List.getElem?_eq_some_iff.1 hi).1
  have e := List.getElem?_eq_getElem hlt
  obtain ⟨w, h1, h2⟩ := ((h.shapes n).lines _ _ _ e hi).1
  obtain rfl := h2.unique hv
  exact hb hp0 _ (List.mem_of_getElem? e) _ h1

theorem recoloured_deepEmpty {db : CharDb} (hdb : Sane db) {d d' : Design} (hd : ReadyDesign db d) (hd' : ReadyDesign db d') (h : Recoloured db d d') (n : ShapeName) :
    (d'.shape n).isDeepEmpty = (d.shape n).isDeepEmpty := by
  rw [Bool.eq_iff_iff, isDeepEmpty_iff hdb (hd.good.shapes n), isDeepEmpty_iff hdb (hd'.good.shapes n)]
  exact ⟨recoloured_blank hd' (recoloured_symm h) n, recoloured_blank hd h n⟩

theorem recoloured_emptySide {db : CharDb} (hdb : Sane db) {d d' : Design} (hd : ReadyDesign db d) (hd' : ReadyDesign db d') (h : Recoloured db d d') (l : List ShapeName) :
    emptySide d'.shape l = emptySide d.shape l := by
  unfold emptySide
  simp only [recoloured_deepEmpty hdb hd hd' h]

theorem recoloured_sides {db : CharDb} (hdb : Sane db) {d d' : Design} (hd : ReadyDesign db d) (hd' : ReadyDesign db d') (h : Recoloured db d d') :
    determineEmptySides d' = determineEmptySides d := by
  unfold determineEmptySides
  simp only [recoloured_emptySide hdb hd hd' h]

/-- the kind of comparison for an input without escape sequences -/
def plainComp (mono : Bool) : CompType := if mono then .literal else .ignoreShape

theorem plainComp_input (m : Bool) : (plainComp m).skipsInput = false := by cases m <;> rfl

/-- the text of a shape line that is compared with an input without escape sequences -/
theorem comp_shape {db : CharDb} {d : Design} {m : Bool} (hm : designIsMono d = .ok m) {n : ShapeName} (hp : Present (d.shape n)) (tr : Bool) {idx : Nat}
    {b : Bxs} {w : Str} (hl : (d.shape n).lines[idx]? = some b) (hi : idx < (d.shape n).height) (h1 : Text b.memory w) (h2 : fromUnicode db b.memory = some b)
    (h3 : NarrowBlanks db w) : prepareCompShape d n idx (plainComp m) false tr = .ok (stripped db false tr w) := by
  cases m with
  | false =>
    obtain ⟨t, t1, t2, t3, t4⟩ := C25_shape db d n idx (plainComp false) false tr h1 h2 hl hi h3 (.inl rfl)
    rw [t1, t3 rfl]
  | true =>
    have hc := C27_design d true hm
    have hs : b.memory = w := by
      by_cases hne : b.memory = w
      · exact hne
      · have hpos := (C27_colour db _ _ b h1 h2).2 hne
        exfalso
        have hcol : designColoured d = true := by
          simp only [designColoured, List.any_eq_true, Bool.and_eq_true, Bool.not_eq_true', decide_eq_true_eq]
          refine ⟨n, by cases n <;> decide, (present_iff _).2 hp, b, ?_, hpos⟩
          rw [List.mem_iff_getElem?]
          exact ⟨idx, by rw [List.getElem?_take, if_pos hi]; exact hl⟩
        rw [hcol] at hc
        simp at hc
    obtain ⟨t, t1, t2, t3, t4⟩ := C25_shape db d n idx (plainComp true) false tr h1 h2 hl hi h3 (.inr (.inl hs))
    have hno : ∀ c ∈ t, c ≠ 0x1b := by
      intro c hc
      exact text_vis_ne h1 c (by rw [← hs]; exact (t4 rfl).1.sublist.subset hc)
    rw [t1, (Spec.Text.plain hno).unique t2]

theorem comp_shape_same {db : CharDb} (hdb : Sane db) {d d' : Design} (hd : ReadyDesign db d) (hd' : ReadyDesign db d') (h : Recoloured db d d') {m m' : Bool} (hm : designIsMono d = .ok m)
    (hm' : designIsMono d' = .ok m') {n : ShapeName} (hp : Present (d.shape n)) (tr : Bool) (idx : Nat) :
    prepareCompShape d' n idx (plainComp m') false tr = prepareCompShape d n idx (plainComp m) false tr := by
  have hp' := (recoloured_present (h.shapes n)).2 hp
  by_cases hi : idx < (d.shape n).height
  · have hlt : idx < (d.shape n).lines.length := by rw [(hd.good.shapes n hp).height]; exact hi
    have hlt' : idx < (d'.shape n).lines.length := by rw [(h.shapes n).count]; exact hlt
    have e := List.getElem?_eq_getElem hlt
    have e' := List.getElem?_eq_getElem hlt'
    have hi' : idx < (d'.shape n).height := by rw [(h.shapes n).height]; exact hi
    rcases hd.lines n hp _ (List.mem_of_getElem? e) with ⟨w, hw⟩ | ⟨w, g1, g2, g3⟩
    · rcases (h.shapes n).lines idx _ _ e e' with ⟨k3, hs | ⟨k1, k2⟩⟩
      · rw [hs] at e'
        have h0 : ((d.shape n).lines[idx]).invis = 0 := by rw [hw]; rfl
        unfold prepareCompShape
        rw [if_neg (by omega), if_neg (by omega), e, e']
        simp only [Res.get_some, Res.ok_bind, h0, Nat.lt_irrefl, and_false, if_false]
      · have hmem : ((d.shape n).lines[idx]).memory = List.replicate w 0x20 := by rw [hw]; rfl
        obtain ⟨v, q1, q2⟩ := k3
        have hv : v = List.replicate w 0x20 := by
          rw [hmem] at q1
          exact (q1.unique (.plain (by intro c hc; rw [List.mem_replicate] at hc; rw [hc.2]; decide)))
        have hn : NarrowBlanks db v := by
          intro c hc _
          rw [hv, List.mem_replicate] at hc
          rw [hc.2]; exact width_space db
        rw [comp_shape hm hp tr e hi q1 k1 hn, comp_shape hm' hp' tr e' hi' q2 k2 hn]
    · rcases (h.shapes n).lines idx _ _ e e' with ⟨k3, hs | ⟨k1, k2⟩⟩
      · rw [hs] at e'
        rw [comp_shape hm hp tr e hi g1 g2 g3, comp_shape hm' hp' tr e' hi' g1 g2 g3]
      · obtain ⟨w', q1, q2⟩ := k3
        obtain rfl := q1.unique g1
        rw [comp_shape hm hp tr e hi g1 g2 g3, comp_shape hm' hp' tr e' hi' q2 k2 g3]
  · unfold prepareCompShape
    rw [if_pos (by rw [(h.shapes n).height]; omega), if_pos (by omega)]

section
variable {db : CharDb} (hdb : Sane db) {d d' : Design} (hd : ReadyDesign db d) (hd' : ReadyDesign db d') (h : Recoloured db d d') {m m' : Bool} (hm : designIsMono d = .ok m)
  (hm' : designIsMono d' = .ok m')
include hdb hd hd' h hm hm'

theorem horizShapes_same (idx : Nat) : ∀ l, compShapesHoriz db d' (plainComp m') idx l = compShapesHoriz db d (plainComp m) idx l
  | [] => rfl
  | n :: r => by
    simp only [compShapesHoriz, horizShapes_same idx r, recoloured_isEmpty (h.shapes n), (h.shapes n).elastic]
    cases he : (d.shape n).isEmpty with
    | true => rfl
    | false => simp only [Bool.false_eq_true, if_false, comp_shape_same hdb hd hd' h hm hm' ((present_iff _).1 he)]

theorem horizWith_same (lines : List Line) (empty : Sides Bool) (top : Bool) (a b : Nat) :
    matchHorizLineWith db d' lines empty top a b (plainComp m') = matchHorizLineWith db d lines empty top a b (plainComp m) := by
  have hin : prepareCompInput lines a false (plainComp m') = prepareCompInput lines a false (plainComp m) := by
    unfold prepareCompInput
    simp only [plainComp_input]
  unfold matchHorizLineWith prepareCompShapesHoriz
  simp only [horizShapes_same hdb hd hd' h hm hm', (h.shapes _).width, hin]

theorem vertShapeLines_same {n : ShapeName} (hp : Present (d.shape n)) : ∀ k i, compShapeLines db d' (plainComp m') n k i = compShapeLines db d (plainComp m) n k i
  | 0, _ => rfl
  | k + 1, i => by
    simp only [compShapeLines, vertShapeLines_same hp k, comp_shape_same hdb hd hd' h hm hm' hp, recoloured_deepEmpty hdb hd hd' h, (h.shapes n).elastic]

theorem vertShapes_same : ∀ l, compShapesVert db d' (plainComp m') l = compShapesVert db d (plainComp m) l
  | [] => rfl
  | n :: r => by
    simp only [compShapesVert, vertShapes_same r, recoloured_isEmpty (h.shapes n), (h.shapes n).height]
    cases he : (d.shape n).isEmpty with
    | true => rfl
    | false => simp only [Bool.false_eq_true, if_false, vertShapeLines_same hdb hd hd' h hm hm' ((present_iff _).1 he)]

end

/-- contexts of the removal that differ in the kind of comparison only -/
structure SameCtx (m m' : Bool) (ctx ctx' : RemoveCtx) : Prop where
  input : ctx.inputMono = true
  design : ctx.designMono = m
  comp : ctx.compType.skipsInput = false
  comp' : ctx'.compType.skipsInput = false
  rest : ctx' = { ctx with compType := ctx'.compType, designMono := m' }

theorem horizLoop_plain {db : CharDb} {d : Design} {lines : List Line} {ctx : RemoveCtx} {m : Bool} (hi : ctx.inputMono = true) (hm : ctx.designMono = m) (top : Bool) (a b : Nat)
    (cur : CompType) : matchHorizLoop db d lines ctx top a b compTypes cur =
      (do let x ← matchHorizLineWith db d lines ctx.emptySide top a b (plainComp m); .ok (x, plainComp m)) := by
  have hv : ∀ c, compTypeIsViable c ctx.inputMono ctx.designMono = decide (c = plainComp m) := by
    intro c; rw [hi, hm]; cases c <;> cases m <;> rfl
  have skip : ∀ c r cur, c ≠ plainComp m → matchHorizLoop db d lines ctx top a b (c :: r) cur = matchHorizLoop db d lines ctx top a b r cur := by
    intro c r cur hc
    rw [matchHorizLoop, hv, if_pos (by simp [hc])]
  have hit : ∀ r cur, matchHorizLoop db d lines ctx top a b (plainComp m :: r) cur =
      (do let x ← matchHorizLineWith db d lines ctx.emptySide top a b (plainComp m)
          if x then .ok (true, plainComp m) else matchHorizLoop db d lines ctx top a b r (plainComp m)) := by
    intro r cur
    rw [matchHorizLoop, hv, if_neg (by simp)]
  have nil : ∀ cur, matchHorizLoop db d lines ctx top a b [] cur = .ok (false, cur) := fun _ => rfl
  have fin : ∀ x : Res Bool, (do let x ← x; if x then .ok (true, plainComp m) else .ok (false, plainComp m) : Res (Bool × CompType)) =
      (do let x ← x; .ok (x, plainComp m)) := by
    intro x
    cases x with
    | ok x => cases x <;> rfl
    | fail n => rfl
    | ub => rfl
  cases m with
  | true =>
    show matchHorizLoop db d lines ctx top a b [plainComp true, .ignoreInput, .ignoreShape, .ignoreAll] cur = _
    rw [hit, skip _ _ _ (by decide), skip _ _ _ (by decide), skip _ _ _ (by decide), nil, fin]
  | false =>
    show matchHorizLoop db d lines ctx top a b [.literal, .ignoreInput, plainComp false, .ignoreAll] cur = _
    rw [skip _ _ _ (by decide), skip _ _ _ (by decide), hit, skip _ _ _ (by decide), nil, fin]

section
variable {db : CharDb} (hdb : Sane db) {d d' : Design} (hd : ReadyDesign db d) (hd' : ReadyDesign db d') (h : Recoloured db d d') {m m' : Bool} (hm : designIsMono d = .ok m)
  (hm' : designIsMono d' = .ok m')
include hdb hd hd' h hm hm'

/-- the same result with such contexts -/
def SameAnd {α : Type} (m m' : Bool) (p p' : α × RemoveCtx) : Prop := p'.1 = p.1 ∧ SameCtx m m' p.2 p'.2

theorem horizLine_same {lines : List Line} {ctx ctx' : RemoveCtx} (hc : SameCtx m m' ctx ctx') (top : Bool) (a b : Nat) :
    ResRel (SameAnd m m') (matchHorizLine db d lines ctx top a b) (matchHorizLine db d' lines ctx' top a b) := by
  have e1 : ctx'.inputMono = true := by rw [hc.rest]; exact hc.input
  have e2 : ctx'.designMono = m' := by rw [hc.rest]
  have e3 : ctx'.emptySide = ctx.emptySide := by rw [hc.rest]
  unfold matchHorizLine
  rw [horizLoop_plain hc.input hc.design, horizLoop_plain e1 e2, e3, horizWith_same hdb hd hd' h hm hm']
  cases matchHorizLineWith db d lines ctx.emptySide top a b (plainComp m) with
  | ok x =>
    refine ⟨rfl, hc.input, hc.design, plainComp_input m, plainComp_input m', ?_⟩
    simp only
    rw [hc.rest]
  | fail n => exact rfl
  | ub => exact trivial

theorem anyLine_same {lines : List Line} (top : Bool) (a : Nat) : ∀ l {ctx ctx' : RemoveCtx}, SameCtx m m' ctx ctx' →
    ResRel (SameAnd m m') (matchAnyShapeLine db d lines top a l ctx) (matchAnyShapeLine db d' lines top a l ctx')
  | [], _, _, hc => ⟨rfl, hc⟩
  | i :: r, ctx, ctx', hc => by
    unfold matchAnyShapeLine
    refine (horizLine_same hdb hd hd' h hm hm' hc top a i).bind ?_
    rintro ⟨x, c⟩ ⟨x', c'⟩ ⟨h1, h2⟩
    simp only at h1 h2 ⊢
    subst h1
    cases x' with
    | true => exact ⟨rfl, h2⟩
    | false => exact anyLine_same top a r h2

theorem topLoop_same {lines : List Line} : ∀ n k {ctx ctx' : RemoveCtx}, SameCtx m m' ctx ctx' →
    ResRel (SameAnd m m') (topLoop db d lines n k ctx) (topLoop db d' lines n k ctx')
  | 0, _, _, _, hc => ⟨rfl, hc⟩
  | n + 1, k, ctx, ctx', hc => by
    have e : ctx'.topStart = ctx.topStart := by rw [hc.rest]
    unfold topLoop
    rw [e, (h.shapes NE).height]
    split
    · refine (anyLine_same hdb hd hd' h hm hm' true _ _ hc).bind ?_
      rintro ⟨x, c⟩ ⟨x', c'⟩ ⟨h1, h2⟩
      simp only at h1 h2 ⊢
      subst h1
      cases x' with
      | true => exact topLoop_same n (k + 1) h2
      | false => exact ⟨rfl, h2⟩
    · exact ⟨rfl, hc⟩

theorem bottomLoop_same {lines : List Line} : ∀ n k {ctx ctx' : RemoveCtx}, SameCtx m m' ctx ctx' →
    ResRel (SameAnd m m') (bottomLoop db d lines n k ctx) (bottomLoop db d' lines n k ctx')
  | 0, _, _, _, hc => ⟨rfl, hc⟩
  | n + 1, k, ctx, ctx', hc => by
    have e : ctx'.bottomEnd = ctx.bottomEnd := by rw [hc.rest]
    unfold bottomLoop
    rw [e, (h.shapes SE).height]
    split
    · refine (anyLine_same hdb hd hd' h hm hm' false _ _ hc).bind ?_
      rintro ⟨x, c⟩ ⟨x', c'⟩ ⟨h1, h2⟩
      simp only at h1 h2 ⊢
      subst h1
      cases x' with
      | true => exact bottomLoop_same n (k + 1) h2
      | false => exact ⟨rfl, h2⟩
    · exact ⟨rfl, hc⟩

omit hdb hd hd' h hm hm' in
theorem compInput_same {lines : List Line} {c c' : CompType} (hc : c.skipsInput = false) (hc' : c'.skipsInput = false) (i : Nat) :
    prepareCompInput lines i false c' = prepareCompInput lines i false c := by
  unfold prepareCompInput
  simp only [hc, hc']

omit hdb hd hd' h hm hm' in
theorem vertLines_same {lines : List Line} {ctx ctx' : RemoveCtx} (he : ctx'.emptySide = ctx.emptySide) {c c' : CompType} (hc : c.skipsInput = false) (hc' : c'.skipsInput = false)
    (west east : List ShapeLine) : ∀ n i, vertLines db lines ctx' c' west east n i = vertLines db lines ctx c west east n i
  | 0, _ => rfl
  | n + 1, i => by
    have hmar : ∀ b, compInputMargins b c' = compInputMargins b c := by
      intro b; unfold compInputMargins; simp only [hc, hc']
    simp only [vertLines, vertLines_same he hc hc' west east n, compInput_same hc hc', hmar, he]

/-- the result of the rounds of comparison of the vertical sides -/
def vertOnce (db : CharDb) (d : Design) (lines : List Line) (ctx : RemoveCtx) (c : CompType) : Res (List LineCtx) := do
  let west ← (if ctx.emptySide.left then .ok [] else prepareCompShapesVert db d true c)
  let east ← (if ctx.emptySide.right then .ok [] else prepareCompShapesVert db d false c)
  vertLines db lines ctx c west east (ctx.bottomStart - ctx.topEnd) ctx.topEnd

omit hdb hd hd' h hm hm' in
theorem vertRounds_plain {lines : List Line} {ctx : RemoveCtx} (hi : ctx.inputMono = true) (hm : ctx.designMono = m) (cur : CompType) (body : List LineCtx) :
    vertRounds db d lines ctx compTypes cur body = (do let b ← vertOnce db d lines ctx (plainComp m); .ok (plainComp m, b)) := by
  have hv : ∀ c, compTypeIsViable c ctx.inputMono ctx.designMono = decide (c = plainComp m) := by
    intro c; rw [hi, hm]; cases c <;> cases m <;> rfl
  have skip : ∀ c r cur body, c ≠ plainComp m → vertRounds db d lines ctx (c :: r) cur body = vertRounds db d lines ctx r cur body := by
    intro c r cur body hc
    rw [vertRounds, hv, if_pos (by simp [hc])]
  have hit : ∀ r cur body, vertRounds db d lines ctx (plainComp m :: r) cur body = (do
      let b ← vertOnce db d lines ctx (plainComp m)
      if sufficientBodyQuality d ctx b then .ok (plainComp m, b) else vertRounds db d lines ctx r (plainComp m) b) := by
    intro r cur body
    rw [vertRounds, hv, if_neg (by simp)]
    unfold vertOnce
    cases (if ctx.emptySide.left then .ok [] else prepareCompShapesVert db d true (plainComp m) : Res (List ShapeLine)) with
    | fail n => rfl
    | ub => rfl
    | ok w =>
      cases (if ctx.emptySide.right then .ok [] else prepareCompShapesVert db d false (plainComp m) : Res (List ShapeLine)) with
      | fail n => rfl
      | ub => rfl
      | ok e => rfl
  have nil : ∀ cur body, vertRounds db d lines ctx [] cur body = .ok (cur, body) := fun _ _ => rfl
  have fin : ∀ x : Res (List LineCtx), (do let b ← x; if sufficientBodyQuality d ctx b then .ok (plainComp m, b) else .ok (plainComp m, b) : Res (CompType × List LineCtx)) =
      (do let b ← x; .ok (plainComp m, b)) := by
    intro x
    simp only [ite_self]
  cases m with
  | true =>
    show vertRounds db d lines ctx [plainComp true, .ignoreInput, .ignoreShape, .ignoreAll] cur body = _
    rw [hit]
    simp only [skip _ _ _ _ (by decide : CompType.ignoreInput ≠ plainComp true), skip _ _ _ _ (by decide : CompType.ignoreShape ≠ plainComp true),
      skip _ _ _ _ (by decide : CompType.ignoreAll ≠ plainComp true), nil]
    rw [fin]
  | false =>
    show vertRounds db d lines ctx [.literal, .ignoreInput, plainComp false, .ignoreAll] cur body = _
    rw [skip _ _ _ _ (by decide), skip _ _ _ _ (by decide), hit]
    simp only [skip _ _ _ _ (by decide : CompType.ignoreAll ≠ plainComp false), nil]
    rw [fin]

theorem vertical_same {lines : List Line} {ctx ctx' : RemoveCtx} (hc : SameCtx m m' ctx ctx') :
    ResRel (SameCtx m m') (findVerticalShapes db d lines ctx) (findVerticalShapes db d' lines ctx') := by
  have e1 : ctx'.inputMono = true := by rw [hc.rest]; exact hc.input
  have e2 : ctx'.designMono = m' := by rw [hc.rest]
  have e3 : ctx'.emptySide = ctx.emptySide := by rw [hc.rest]
  have e4 : ctx'.bottomStart = ctx.bottomStart := by rw [hc.rest]
  have e5 : ctx'.topEnd = ctx.topEnd := by rw [hc.rest]
  unfold findVerticalShapes
  rw [vertRounds_plain hc.input hc.design, vertRounds_plain e1 e2, e3]
  split
  · exact hc
  · have : vertOnce db d' lines ctx' (plainComp m') = vertOnce db d lines ctx (plainComp m) := by
      unfold vertOnce prepareCompShapesVert
      simp only [vertShapes_same hdb hd hd' h hm hm', vertLines_same e3 (plainComp_input m) (plainComp_input m'), e3, e4, e5]
    rw [this]
    cases vertOnce db d lines ctx (plainComp m) with
    | fail n => exact rfl
    | ub => exact trivial
    | ok b =>
      refine ⟨hc.input, hc.design, plainComp_input m, plainComp_input m', ?_⟩
      have r := hc.rest
      cases ctx; cases ctx'
      simp only [RemoveCtx.mk.injEq] at r ⊢
      simp only [r, and_self]

/-- which box is found -/
theorem findBox_same {i : Input} (hi : inputIsMono i.lines = .ok true) :
    ResRel (fun a b => (a = none ∧ b = none) ∨ ∃ c c', a = some c ∧ b = some c' ∧ SameCtx m m' c c') (findBox db d i) (findBox db d' i) := by
  unfold findBox
  rw [hm, hm', hi, recoloured_sides hdb hd hd' h]
  simp only [Res.ok_bind]
  split
  · exact .inl ⟨rfl, rfl⟩
  · refine ResRel.bind (R := SameAnd m m') ?_ ?_
    · split
      · exact ⟨rfl, rfl, rfl, rfl, rfl, rfl⟩
      · unfold findTopSide
        rw [(h.shapes NE).height]
        exact topLoop_same hdb hd hd' h hm hm' _ _ ⟨rfl, rfl, rfl, rfl, rfl⟩
    rintro ⟨k, c⟩ ⟨k', c'⟩ ⟨g1, g2⟩
    simp only at g1 g2 ⊢
    subst g1
    have es : c'.emptySide = c.emptySide := by rw [g2.rest]
    have hs1 : SameCtx m m' { c with topEnd := findFirstLine db i.lines + k', bottomEnd := findLastLine db i.lines + 1 }
        { c' with topEnd := findFirstLine db i.lines + k', bottomEnd := findLastLine db i.lines + 1 } := by
      refine ⟨g2.input, g2.design, g2.comp, g2.comp', ?_⟩
      have r := g2.rest
      cases c; cases c'
      simp only [RemoveCtx.mk.injEq] at r ⊢
      simp only [r, and_self]
    refine ResRel.bind (R := SameAnd m m') ?_ ?_
    · rw [es]
      split
      · exact ⟨rfl, es ▸ hs1⟩
      · unfold findBottomSide
        rw [(h.shapes SE).height]
        exact bottomLoop_same hdb hd hd' h hm hm' _ _ (es ▸ hs1)
    rintro ⟨n, e⟩ ⟨n', e'⟩ ⟨q1, q2⟩
    simp only at q1 q2 ⊢
    subst q1
    generalize hnum : (if findLastLine db i.lines + 1 - n' > findFirstLine db i.lines + k' then
      findLastLine db i.lines + 1 - n' - (findFirstLine db i.lines + k') else 0) = num
    have hs2 : SameCtx m m' { e with bottomStart := findLastLine db i.lines + 1 - n', bodyNum := num, body := List.replicate num {} }
        { e' with bottomStart := findLastLine db i.lines + 1 - n', bodyNum := num, body := List.replicate num {} } := by
      refine ⟨q2.input, q2.design, q2.comp, q2.comp', ?_⟩
      have r := q2.rest
      cases e; cases e'
      simp only [RemoveCtx.mk.injEq] at r ⊢
      simp only [r, and_self]
    split
    · refine (vertical_same hdb hd hd' h hm hm' hs2).bind ?_
      intro a b hab
      exact .inr ⟨a, b, rfl, rfl, hab⟩
    · exact .inr ⟨_, _, rfl, rfl, hs2⟩

omit hdb hd hd' h hm hm' in
theorem plain_is {c : CompType} (hc : c.skipsInput = false) : c = .literal ∨ c = .ignoreShape := by
  cases c <;> first | exact .inl rfl | exact .inr rfl | cases hc

omit hdb hd hd' h hm hm' in
theorem paddingLoop_same {c c' : CompType} (hc : c.skipsInput = false) (hc' : c'.skipsInput = false) (b : Bxs) : ∀ n i,
    paddingLoop db b c' n i = paddingLoop db b c n i
  | 0, _ => rfl
  | n + 1, i => by
    have : orgIsNotBlank db b c' i = orgIsNotBlank db b c i := by
      unfold orgIsNotBlank
      rw [if_pos (plain_is hc), if_pos (plain_is hc')]
    simp only [paddingLoop, this, paddingLoop_same hc hc' b n]

omit hdb hd hd' hm hm' in
theorem removeLine_same {opt : Opt} {c c' : CompType} (hc : c.skipsInput = false) (hc' : c'.skipsInput = false) (n : Nat) (line : Line) (l : LineCtx) :
    removeVerticalLine db opt d' n c' line l = removeVerticalLine db opt d n c line l := by
  have hmx : ∀ b, maxCharsLine b c' = maxCharsLine b c := by
    intro b
    unfold maxCharsLine
    rw [if_pos (plain_is hc), if_pos (plain_is hc')]
  unfold removeVerticalLine calculateStartIdx calculateEndIdx confirmedPadding
  simp only [hc, hc', hmx, paddingLoop_same hc hc', h.padding]

omit hdb hd hd' hm hm' in
theorem removeLines_same {opt : Opt} {c c' : CompType} (hc : c.skipsInput = false) (hc' : c'.skipsInput = false) (n : Nat) : ∀ ls rest,
    removeVerticalLines db opt d' n c' ls rest = removeVerticalLines db opt d n c ls rest
  | [], _ => rfl
  | _ :: _, [] => rfl
  | l :: ls, line :: rest => by
    simp only [removeVerticalLines, removeLines_same hc hc' n ls rest, removeLine_same h hc hc']

omit hdb hd hd' hm hm' in
theorem apply_same {opt : Opt} {i : Input} {c c' : RemoveCtx} (hc : SameCtx m m' c c') :
    applyResults db opt d' i c' = applyResults db opt d i c := by
  have r := hc.rest
  have h1 := hc.comp
  have h2 := hc.comp'
  have hv : removeVertical db opt d' i c' = removeVertical db opt d i c := by
    unfold removeVertical
    rw [removeLines_same h h1 h2]
    rw [r]
  cases c; cases c'
  simp only [RemoveCtx.mk.injEq] at r
  obtain ⟨r1, -, r3, r4, r5, r6, r7, -, r9, r10⟩ := r
  subst r1 r3 r4 r5 r6 r7 r9 r10
  unfold applyResults
  rw [hv, h.padding]
  unfold killBlank
  rw [h.padding]
  split <;> rfl

/-- removing a box does not depend on the colours of the design, if there are none in the input -/
theorem removeBox_same {opt : Opt} {i : Input} (hi : inputIsMono i.lines = .ok true) : removeBox db opt d' i = removeBox db opt d i := by
  have hf := findBox_same hdb hd hd' h hm hm' hi
  unfold removeBox
  refine resRel_eq (hf.bind ?_)
  rintro a b (⟨rfl, rfl⟩ | ⟨c, c', rfl, rfl, hcc⟩)
  · exact rfl
  · show ResRel _ (applyResults db opt d i c) (applyResults db opt d' i c')
    rw [apply_same h hcc]
    exact ResRel.refl _

theorem handle_same {opt : Opt} {rules : List Subst} {i : Input} (hi : inputIsMono i.lines = .ok true) :
    handleRemoveBox db opt d' rules i = handleRemoveBox db opt d rules i := by
  unfold handleRemoveBox applySubstitutions
  simp only [removeBox_same hdb hd hd' h hm hm' hi, h.indentmode, recoloured_emptySide hdb hd hd' h]

end

/-! ## Drawing -/

/-- two lists of the same length whose elements are related -/
def ListRel {α β : Type} (R : α → β → Prop) : List α → List β → Prop
  | [], [] => True
  | a :: x, b :: y => R a b ∧ ListRel R x y
  | _, _ => False

theorem ListRel.append {α β : Type} {R : α → β → Prop} : ∀ {x : List α} {y : List β} {x' : List α} {y' : List β}, ListRel R x y → ListRel R x' y' → ListRel R (x ++ x') (y ++ y')
  | [], [], _, _, _, h' => h'
  | _ :: _, _ :: _, _, _, h, h' => ⟨h.1, h.2.append h'⟩
  | [], _ :: _, _, _, h, _ => h.elim
  | _ :: _, [], _, _, h, _ => h.elim

theorem ListRel.reverse {α β : Type} {R : α → β → Prop} : ∀ {x : List α} {y : List β}, ListRel R x y → ListRel R x.reverse y.reverse
  | [], [], _ => trivial
  | _ :: _, _ :: _, h => by
    rw [List.reverse_cons, List.reverse_cons]
    exact (ListRel.reverse h.2).append ⟨h.1, trivial⟩
  | [], _ :: _, h => h.elim
  | _ :: _, [], h => h.elim

theorem ListRel.get {α β : Type} {R : α → β → Prop} : ∀ {x : List α} {y : List β}, ListRel R x y → ∀ {i : Nat} {a : α} {b : β}, x[i]? = some a → y[i]? = some b → R a b
  | a :: x, b :: y, h, 0, _, _, h1, h2 => by
    simp only [List.getElem?_cons_zero, Option.some.injEq] at h1 h2
    rw [← h1, ← h2]; exact h.1
  | a :: x, b :: y, h, i + 1, _, _, h1, h2 => by
    simp only [List.getElem?_cons_succ] at h1 h2
    exact ListRel.get h.2 h1 h2
  | [], [], _, _, _, _, h1, _ => by simp at h1
  | [], _ :: _, h, _, _, _, _, _ => h.elim
  | _ :: _, [], h, _, _, _, _, _ => h.elim

theorem ListRel.of_get {α β : Type} {R : α → β → Prop} : ∀ {x : List α} {y : List β}, y.length = x.length → (∀ (i : Nat) a b, x[i]? = some a → y[i]? = some b → R a b) → ListRel R x y
  | [], [], _, _ => trivial
  | a :: x, b :: y, h, hr => ⟨hr 0 a b rfl rfl, ListRel.of_get (by simpa using h) (fun i a b h1 h2 => hr (i + 1) a b h1 h2)⟩
  | [], _ :: _, h, _ => by simp at h
  | _ :: _, [], h, _ => by simp at h

theorem ListRel.length {α β : Type} {R : α → β → Prop} : ∀ {x : List α} {y : List β}, ListRel R x y → y.length = x.length
  | [], [], _ => rfl
  | _ :: _, _ :: _, h => by simp [ListRel.length h.2]
  | [], _ :: _, h => h.elim
  | _ :: _, [], h => h.elim

/-- the lines show the same -/
def LinesSame : List Bxs → List Bxs → Prop := ListRel (fun b b' => ShowSame b.memory b'.memory)

/-- the same shape and the same columns or lines to fill -/
def CellSame (db : CharDb) (p p' : Shape × Nat) : Prop := RecolouredShape db p.1 p'.1 ∧ p'.2 = p.2

theorem dropWhile_same {db : CharDb} : ∀ {x y : List (Shape × Nat)}, ListRel (CellSame db) x y →
    ListRel (CellSame db) (x.dropWhile (fun p => p.2 == 0)) (y.dropWhile (fun p => p.2 == 0))
  | [], [], _ => trivial
  | a :: x, b :: y, h => by
    simp only [List.dropWhile_cons, h.1.2]
    split
    · exact dropWhile_same h.2
    · exact h
  | [], _ :: _, h => h.elim
  | _ :: _, [], h => h.elim

theorem shapeSeq_same {db : CharDb} (width : Nat) : ∀ fuel j {x y : List (Shape × Nat)}, ListRel (CellSame db) x y →
    ResRel (ListRel (RecolouredShape db)) (shapeSeq width fuel j x) (shapeSeq width fuel j y)
  | 0, j, x, y, h => by
    simp only [shapeSeq]
    split
    · exact trivial
    · exact trivial
  | fuel + 1, j, x, y, h => by
    simp only [shapeSeq]
    split
    · exact trivial
    · have hd := dropWhile_same h
      revert hd
      generalize x.dropWhile (fun p => p.2 == 0) = x'
      generalize y.dropWhile (fun p => p.2 == 0) = y'
      intro hd
      match x', y', hd with
      | [], [], _ => exact trivial
      | (s, f) :: r, (s', f') :: r', hd =>
        obtain ⟨⟨h1, h2⟩, h3⟩ := hd
        simp only at h1 h2 ⊢
        subst h2
        rw [h1.width]
        refine (ResRel.refl _).bind ?_
        rintro a b rfl
        refine (shapeSeq_same width fuel _ (x := (s, b) :: r) (y := (s', b) :: r') ⟨⟨h1, rfl⟩, h3⟩).bind ?_
        intro a b hab
        exact ⟨h1, hab⟩

theorem lineOf_same {db : CharDb} (i : Nat) : ∀ {x y : List Shape}, ListRel (RecolouredShape db) x y → ResRel LinesSame (lineOf i x) (lineOf i y)
  | [], [], _ => trivial
  | s :: x, s' :: y, h => by
    simp only [lineOf]
    by_cases hi : i < s.lines.length
    · have e := List.getElem?_eq_getElem hi
      have e' := List.getElem?_eq_getElem (l := s'.lines) (by rw [h.1.count]; exact hi)
      rw [e, e']
      simp only [Res.get_some, Res.ok_bind]
      refine (lineOf_same i h.2).bind ?_
      intro a b hab
      exact ⟨(h.1.lines i _ _ e e').1, hab⟩
    · rw [List.getElem?_eq_none (by omega), List.getElem?_eq_none (by rw [h.1.count]; omega)]
      exact trivial
  | [], _ :: _, h => h.elim
  | _ :: _, [], h => h.elim

theorem flatten_same : ∀ {x y : List Bxs}, LinesSame x y → ShowSame ((x.map (·.memory)).flatten) ((y.map (·.memory)).flatten)
  | [], [], _ => ⟨[], .nil, .nil⟩
  | _ :: _, _ :: _, h => showSame_append h.1 (flatten_same h.2)
  | [], _ :: _, h => h.elim
  | _ :: _, [], h => h.elim

theorem got {α : Type} {o : Option α} {a : α} (h : Res.get o = .ok a) : o = some a := by
  cases o with
  | none => cases h
  | some b => cases h; rfl

theorem assemble_same {db : CharDb} {x y : List Shape} (h : ListRel (RecolouredShape db) x y) {n n' w w' : Nat} : ∀ is {ls ls' : List Bxs},
    assembleLines db x n w is = .ok ls → assembleLines db y n' w' is = .ok ls' → LinesSame ls ls'
  | [], ls, ls', h1, h2 => by
    cases h1; cases h2; exact trivial
  | i :: is, ls, ls', h1, h2 => by
    simp only [assembleLines, Res.bind_eq_ok] at h1 h2
    obtain ⟨bs, a1, a2⟩ := h1
    obtain ⟨bs', b1, b2⟩ := h2
    have hl := lineOf_same i h
    rw [a1, b1] at hl
    split at a2
    · cases a2
    · split at b2
      · cases b2
      · simp only [Res.bind_eq_ok] at a2 b2
        obtain ⟨q, a3, r, a4, a5⟩ := a2
        obtain ⟨q', b3, r', b4, b5⟩ := b2
        cases a5; cases b5
        refine ⟨?_, assemble_same h is a4 b4⟩
        show ShowSame q.memory q'.memory
        rw [fromUnicode_memory (got a3), fromUnicode_memory (got b3)]
        exact flatten_same hl

theorem vertAssemble_same {db : CharDb} {x y : List (Shape × Nat)} (h : ListRel (CellSame db) x y) {w ht : Nat} {ls ls' : List Bxs}
    (h1 : vertAssemble db w ht x = .ok ls) (h2 : vertAssemble db w ht y = .ok ls') : LinesSame ls ls' := by
  simp only [vertAssemble, Res.bind_eq_ok] at h1 h2
  obtain ⟨s, a1, n, a2, a3⟩ := h1
  obtain ⟨s', b1, n', b2, b3⟩ := h2
  have := shapeSeq_same w w 0 h
  rw [a1, b1] at this
  exact assemble_same this _ a3 b3

theorem sideLines_same {db : CharDb} : ∀ n {x y : List (Shape × Nat)} (sc : Nat), ListRel (CellSame db) x y → ResRel LinesSame (sideLines n x sc) (sideLines n y sc)
  | 0, _, _, _, _ => trivial
  | n + 1, x, y, sc, h => by
    simp only [sideLines]
    have hd := dropWhile_same h
    have hl := h.length
    revert hd
    generalize x.dropWhile (fun p => p.2 == 0) = x'
    generalize y.dropWhile (fun p => p.2 == 0) = y'
    intro hd
    rw [hl, hd.length]
    match x', y', hd with
    | [], [], _ => exact trivial
    | (s, f) :: r, (s', f') :: r', hd =>
      obtain ⟨⟨h1, h2⟩, h3⟩ := hd
      simp only at h1 h2 ⊢
      subst h2
      rw [h1.height]
      generalize hk : (if (if ((s, f') :: r).length = x.length then sc else 0) = s.height then 0 else if ((s, f') :: r).length = x.length then sc else 0) = k
      by_cases hi : k < s.lines.length
      · have e := List.getElem?_eq_getElem hi
        have e' := List.getElem?_eq_getElem (l := s'.lines) (by rw [h1.count]; exact hi)
        rw [e, e']
        simp only [Res.get_some, Res.ok_bind]
        refine (sideLines_same n (x := (s, f' - 1) :: r) (y := (s', f' - 1) :: r') _ ⟨⟨h1, rfl⟩, h3⟩).bind ?_
        intro a b hab
        exact ⟨(h1.lines k _ _ e e').1, hab⟩
      · rw [List.getElem?_eq_none (by omega), List.getElem?_eq_none (by rw [h1.count]; omega)]
        exact trivial

theorem firstLines_same {db : CharDb} {s s' : Shape} (h : RecolouredShape db s s') : ResRel LinesSame (firstLines s s.height) (firstLines s' s'.height) := by
  unfold firstLines
  rw [h.count, h.height]
  split
  · refine ListRel.of_get (by simp [h.count]) ?_
    intro i a b h1 h2
    rw [List.getElem?_take] at h1 h2
    split at h1
    · rw [if_pos ‹_›] at h2
      exact (h.lines i a b h1 h2).1
    · cases h1
  · exact trivial

theorem horizAssemble_same {db : CharDb} {x y : List (Shape × Nat)} (h : ListRel (CellSame db) x y) {ht : Nat} {s s' t t' : Shape} (hs : RecolouredShape db s s')
    (ht' : RecolouredShape db t t') : ResRel LinesSame (horizAssemble ht s t x) (horizAssemble ht s' t' y) := by
  unfold horizAssemble
  refine (firstLines_same hs).bind ?_
  intro a b hab
  refine (firstLines_same ht').bind ?_
  intro a' b' hab'
  rw [hs.height, ht'.height]
  refine (ResRel.refl _).bind ?_
  rintro n _ rfl
  refine (ResRel.refl _).bind ?_
  rintro n _ rfl
  refine (sideLines_same _ _ h).bind ?_
  intro c e hce
  exact (hab.append hce).append hab'

/-- two sides of a box that differ only in escape sequences -/
structure SideSame (s s' : Shape) : Prop where
  width : s'.width = s.width
  height : s'.height = s.height
  lines : LinesSame s.lines s'.lines

/-- two boxes that differ only in escape sequences -/
structure BoxSame (b b' : Sides Shape) : Prop where
  top : SideSame b.top b'.top
  right : SideSame b.right b'.right
  bottom : SideSame b.bottom b'.bottom
  left : SideSame b.left b'.left

section
variable {db : CharDb} {d d' : Design} (h : Recoloured db d d')
include h

theorem initSide_same {size : Shape → Nat} (hs : ∀ n, size (d'.shape n) = size (d.shape n)) (side : List ShapeName) :
    initSide size (middle d' side) = initSide size (middle d side) := by
  unfold initSide middle
  simp only [List.map_map, SideSt.mk.injEq, and_true]
  apply List.map_congr_left
  intro n _
  simp only [Function.comp, hs, (h.shapes n).elastic, recoloured_isEmpty (h.shapes n)]

theorem horizPrecalc_same (w fuel : Nat) : horizPrecalc d' w fuel = horizPrecalc d w fuel := by
  unfold horizPrecalc
  rw [h.minwidth, (h.shapes NW).width, (h.shapes NE).width, initSide_same h (fun n => (h.shapes n).width), initSide_same h (fun n => (h.shapes n).width)]

theorem vertPrecalc_same (w fuel : Nat) : vertPrecalc d' w fuel = vertPrecalc d w fuel := by
  unfold vertPrecalc
  rw [h.minheight, (h.shapes NW).height, (h.shapes SW).height, initSide_same h (fun n => (h.shapes n).height), initSide_same h (fun n => (h.shapes n).height)]

theorem highest_same (l : List ShapeName) : highest d'.shape l = highest d.shape l := by
  unfold highest
  simp only [fun n => (h.shapes n).height, fun n => recoloured_isEmpty (h.shapes n)]

theorem widest_same (l : List ShapeName) : widest d'.shape l = widest d.shape l := by
  unfold widest
  simp only [fun n => (h.shapes n).width, fun n => recoloured_isEmpty (h.shapes n)]

theorem cells_same (side : List ShapeName) (fill : List Nat) : ListRel (CellSame db) ((middle d side).zip fill) ((middle d' side).zip fill) := by
  unfold middle
  generalize (side.drop 1).take 3 = l
  induction l generalizing fill with
  | nil => exact trivial
  | cons n l ih =>
    cases fill with
    | nil => exact trivial
    | cons f fs => exact ⟨⟨h.shapes n, rfl⟩, ih fs⟩

theorem horizGenerate_same {w fuel : Nat} {t b t' b' : Shape} (h1 : horizGenerate db d w fuel = some (.ok (t, b))) (h2 : horizGenerate db d' w fuel = some (.ok (t', b'))) :
    SideSame t t' ∧ SideSame b b' := by
  simp only [horizGenerate, horizPrecalc_same h, highest_same h, Option.map_eq_some_iff] at h1 h2
  obtain ⟨r, a1, a2⟩ := h1
  obtain ⟨r', b1, b2⟩ := h2
  rw [a1] at b1
  obtain rfl := Option.some.inj b1
  simp only [Res.bind_eq_ok] at a2 b2
  obtain ⟨⟨x, y, z⟩, a3, a4⟩ := a2
  obtain ⟨⟨x', y', z'⟩, b3, b4⟩ := b2
  rw [a3] at b3
  cases b3
  simp only [Res.bind_eq_ok] at a4 b4
  obtain ⟨p, a5, q, a6, a7⟩ := a4
  obtain ⟨p', b5, q', b6, b7⟩ := b4
  cases a7; cases b7
  exact ⟨⟨rfl, rfl, vertAssemble_same (cells_same h _ _) a5 b5⟩, ⟨rfl, rfl, vertAssemble_same (cells_same h _ _).reverse a6 b6⟩⟩

theorem vertGenerate_same (n fuel : Nat) : ∀ {r : Res (Shape × Shape)}, vertGenerate d n fuel = some r → ∃ r', vertGenerate d' n fuel = some r' ∧
    ResRel (fun p q => SideSame p.1 q.1 ∧ SideSame p.2 q.2) r r' := by
  intro r hr
  simp only [vertGenerate, vertPrecalc_same h, widest_same h, Option.map_eq_some_iff] at hr ⊢
  obtain ⟨q, a1, a2⟩ := hr
  refine ⟨_, ⟨q, a1, rfl⟩, ?_⟩
  subst a2
  refine (ResRel.refl _).bind ?_
  rintro ⟨x, y, z⟩ _ rfl
  simp only [(h.shapes NW).height, (h.shapes SW).height, (h.shapes NE).height, (h.shapes SE).height]
  refine (horizAssemble_same (cells_same h _ _).reverse (h.shapes NW) (h.shapes SW)).bind ?_
  intro a b hab
  refine (horizAssemble_same (cells_same h _ _) (h.shapes NE) (h.shapes SE)).bind ?_
  intro a' b' hab'
  exact ⟨⟨rfl, rfl, hab⟩, ⟨rfl, rfl, hab'⟩⟩

/-- the boxes of two such designs -/
theorem generate_same {i : Input} {fuel : Nat} {box box' : Sides Shape} (h1 : generateBox db d i fuel = some (.ok box)) (h2 : generateBox db d' i fuel = some (.ok box')) :
    BoxSame box box' := by
  unfold generateBox at h1 h2
  revert h1 h2
  rcases e1 : horizGenerate db d i.maxline fuel with _ | (⟨t, b⟩ | n | _) <;> simp only [reduceCtorEq, false_imp_iff, Option.some.injEq]
  rcases e2 : horizGenerate db d' i.maxline fuel with _ | (⟨t', b'⟩ | n | _) <;> simp only [reduceCtorEq, false_imp_iff, imp_true_iff, Option.some.injEq]
  rcases e3 : vertGenerate d i.lines.length fuel with _ | r
  · simp
  obtain ⟨r', e4, hr⟩ := vertGenerate_same h _ _ e3
  rw [e4]
  simp only [Option.map_some, Option.some.injEq, Res.bind_eq_ok]
  rintro ⟨⟨p, q⟩, rfl, h1⟩ ⟨⟨p', q'⟩, rfl, h2⟩
  cases h1; cases h2
  obtain ⟨g1, g2⟩ := horizGenerate_same h e1 e2
  exact ⟨g1, hr.2, g2, hr.1⟩

theorem generate_ends {i : Input} {fuel : Nat} {box : Sides Shape} (h1 : generateBox db d i fuel = some (.ok box)) : ∃ r, generateBox db d' i fuel = some r := by
  unfold generateBox at h1 ⊢
  have hp : ∃ r, horizGenerate db d' i.maxline fuel = some r := by
    revert h1
    simp only [horizGenerate, horizPrecalc_same h]
    cases horizPrecalc d i.maxline fuel with
    | none => simp
    | some r => intro _; exact ⟨_, rfl⟩
  obtain ⟨r, hr⟩ := hp
  rw [hr]
  rcases r with ⟨t, b⟩ | n | _
  · simp only
    rcases e3 : vertGenerate d i.lines.length fuel with _ | q
    · rw [e3] at h1
      revert h1
      rcases horizGenerate db d i.maxline fuel with _ | (_ | _ | _) <;> simp
    · obtain ⟨r', e4, -⟩ := vertGenerate_same h _ _ e3
      rw [e4]
      exact ⟨_, rfl⟩
  · exact ⟨_, rfl⟩
  · exact ⟨_, rfl⟩

end

/-! ## Output -/

/-- two rows that show the same -/
structure RowSame (db : CharDb) (r r' : Bxs) : Prop where
  same : ShowSame r.memory r'.memory
  row : fromUnicode db r.memory = some r
  row' : fromUnicode db r'.memory = some r'

/-- two parts of a row -/
def PartSame (a b : Option Str) : Prop := ∃ s s', a = some s ∧ b = some s' ∧ ShowSame s s'

theorem parts_same : ∀ {x y : List (Option Str)}, ListRel PartSame x y →
    ShowSame (x.flatMap fun p => p.getD [0x28, 0x4e, 0x55, 0x4c, 0x4c, 0x29]) (y.flatMap fun p => p.getD [0x28, 0x4e, 0x55, 0x4c, 0x4c, 0x29])
  | [], [], _ => ⟨[], .nil, .nil⟩
  | _ :: _, _ :: _, ⟨⟨s, s', rfl, rfl, h⟩, h'⟩ => by
    rw [List.flatMap_cons, List.flatMap_cons]
    exact showSame_append h (parts_same h')
  | [], _ :: _, h => h.elim
  | _ :: _, [], h => h.elim

theorem analysed_same {db : CharDb} {s s' : Str} (h : ShowSame s s') : ResRel (RowSame db) (Res.get (fromUnicode db s)) (Res.get (fromUnicode db s')) := by
  have h0 := h
  obtain ⟨v, h1, h2⟩ := h0
  have e1 := C01_rejected_iff db h1
  have e2 := C01_rejected_iff db h2
  cases e : fromUnicode db s with
  | none =>
    rw [e2.2 (e1.1 e)]
    exact trivial
  | some b =>
    cases e' : fromUnicode db s' with
    | none =>
      have := e1.2 (e2.1 e')
      rw [e] at this; cases this
    | some b' =>
      have m := fromUnicode_memory e
      have m' := fromUnicode_memory e'
      exact ⟨by rw [m, m']; exact h, by rw [m]; exact e, by rw [m']; exact e'⟩

theorem concat_same {db : CharDb} {x y : List (Option Str)} (hx : x ≠ []) (h : ListRel PartSame x y) : ResRel (RowSame db) (Res.get (bxsConcat db x)) (Res.get (bxsConcat db y)) := by
  have h1 : ¬ x.length < 1 := by
    have := List.length_pos_iff.2 hx
    omega
  unfold bxsConcat
  rw [if_neg h1, if_neg (by rw [h.length]; exact h1)]
  exact analysed_same (parts_same h)

theorem trimmed_same {db : CharDb} {r r' : Bxs} (h : RowSame db r r') : ResRel (RowSame db) (Res.get (r.rtrim db)) (Res.get (r'.rtrim db)) := by
  obtain ⟨v, h1, h2⟩ := h.same
  by_cases hbl : ∀ c ∈ v, Blank db c
  · rw [C04_rtrim_blank db h1 h.row hbl, C04_rtrim_blank db h2 h.row' hbl]
    exact h
  · simp only [Classical.not_forall] at hbl
    obtain ⟨c, hc, hcb⟩ := hbl
    obtain ⟨x, e1, e2, -, e3⟩ := C04_rtrim db h1 h.row ⟨c, hc, hcb⟩
    obtain ⟨x', f1, f2, -, f3⟩ := C04_rtrim db h2 h.row' ⟨c, hc, hcb⟩
    rw [e1, f1]
    exact ⟨⟨_, e3, f3⟩, e2, f2⟩

theorem sideMem_same {s s' : Shape} (h : SideSame s s') (j : Nat) : ResRel ShowSame (sideMem s j) (sideMem s' j) := by
  unfold sideMem
  by_cases hi : j < s.lines.length
  · have e := List.getElem?_eq_getElem hi
    have e' := List.getElem?_eq_getElem (l := s'.lines) (i := j) (by rw [h.lines.length]; exact hi)
    rw [e, e']
    exact h.lines.get e e'
  · rw [List.getElem?_eq_none (by omega), List.getElem?_eq_none (by rw [h.lines.length]; omega)]
    exact trivial

section
variable {db : CharDb} {opt : Opt} {d d' : Design} {input : Input} {ls : List (Str × Str)} (hin : TextBlock db opt d input ls) (him : d'.indentmode = d.indentmode)
  {box box' : Sides Shape} (hbox : BoxSame box box') {lay : Layout} (hlay : lay.indentspc = indentSpc opt d input.indent)

theorem plain_same {s : Str} (h : ∀ c ∈ s, c ≠ 0x1b) : ShowSame s s := ⟨s, .plain h, .plain h⟩

theorem nspaces_same (n : Nat) : PartSame (some (nspaces n)) (some (nspaces n)) :=
  ⟨_, _, rfl, rfl, plain_same (by
    intro c hc
    have : c ∈ List.replicate n 0x20 := hc
    rw [List.mem_replicate] at this
    rw [this.2]; decide)⟩

include hin hlay in
theorem restore_same {i : Nat} (hi : i < input.lines.length) : ResRel PartSame (restoreIndent opt input i lay.indentspc) (restoreIndent opt input i lay.indentspc) := by
  have hlen : input.lines.length = ls.length := by
    have := congrArg List.length hin.texts
    simpa using this
  obtain ⟨ind, h1, h2⟩ := restoreIndent_ok hin i (by omega)
  rw [hlay, h1]
  exact ⟨_, _, rfl, rfl, plain_same (by
    intro c hc
    rcases h2.chars c hc with rfl | rfl <;> decide)⟩

include hbox in
theorem leftMem_same (j : Nat) : ResRel ShowSame (leftMem lay box j) (leftMem lay box' j) := by
  unfold leftMem
  split
  · exact ⟨[], .nil, .nil⟩
  · exact sideMem_same hbox.left j

include hin hlay hbox in
theorem plainRow_same {j i : Nat} (hi : i < input.lines.length) {m m' : Str} (hm : ShowSame m m') :
    ResRel (RowSame db) (plainRow db opt input box lay j i m) (plainRow db opt input box' lay j i m') := by
  unfold plainRow
  refine (restore_same hin hlay hi).bind ?_
  intro a b hab
  refine (leftMem_same hbox j).bind ?_
  intro l l' hl
  refine (sideMem_same hbox.right j).bind ?_
  intro r r' hr
  exact concat_same (by simp) ⟨hab, ⟨_, _, rfl, rfl, hl⟩, ⟨_, _, rfl, rfl, hm⟩, ⟨_, _, rfl, rfl, hr⟩, trivial⟩

include hin hlay hbox him in
theorem textRow_same {j i : Nat} (hi : i < input.lines.length) :
    ResRel (RowSame db) (textRow db opt d input box lay j i) (textRow db opt d' input box' lay j i) := by
  unfold textRow
  have hj : ∀ t s, justifyLine db opt d' input t s = justifyLine db opt d input t s := by
    intro t s
    unfold justifyLine
    rw [him]
  simp only [hj]
  rw [List.getElem?_eq_getElem hi]
  simp only [Res.get_some, Res.ok_bind]
  have hmem := List.getElem_mem hi
  generalize input.lines[i] = line at hmem
  have ht := congrArg (fun l => line.text ∈ l) hin.texts
  have : line.text ∈ ls.map (fun p => fromUnicode db p.1) := by
    rw [← hin.texts]; exact List.mem_map.2 ⟨line, hmem, rfl⟩
  obtain ⟨p, hp, hp'⟩ := List.mem_map.1 this
  obtain ⟨g1, -⟩ := hin.good p hp
  cases e : line.text with
  | none => exact trivial
  | some t =>
    rw [e] at hp'
    simp only [Res.get_some, Res.ok_bind]
    refine (ResRel.refl _).bind ?_
    rintro _ k rfl
    refine (restore_same hin hlay hi).bind ?_
    intro a b hab
    obtain ⟨c, c1, c2, c3, -⟩ := C06_cut_front db g1 hp' (if k < 0 then (-k).toNat else 0)
    rw [c1]
    simp only [Res.get_some, Res.ok_bind]
    split
    · exact trivial
    · refine (leftMem_same hbox j).bind ?_
      intro l l' hl
      refine (sideMem_same hbox.right j).bind ?_
      intro r r' hr
      refine concat_same (by simp) ⟨hab, ⟨_, _, rfl, rfl, hl⟩, nspaces_same _, ?_, ⟨_, _, rfl, rfl, ⟨_, c3, c3⟩⟩, nspaces_same _, nspaces_same _, ⟨_, _, rfl, rfl, hr⟩, trivial⟩
      split
      · exact nspaces_same _
      · exact ⟨_, _, rfl, rfl, ⟨[], .nil, .nil⟩⟩

include hin hlay hbox him in
theorem outputRow_same (j v : Nat) :
    ResRel (fun p q => RowSame db p.1 q.1 ∧ q.2 = p.2) (outputRow db opt d input box lay j v) (outputRow db opt d' input box' lay j v) := by
  have hlen : input.lines.length = ls.length := by
    have := congrArg List.length hin.texts
    simpa using this
  have hpos : 0 < input.lines.length := by
    rw [hlen]; exact List.length_pos_iff.2 hin.nonempty
  have hsp : ∀ n, ShowSame (nspaces n) (nspaces n) := by
    intro n
    obtain ⟨s, s', h1, h2, h⟩ := nspaces_same n
    cases h1; cases h2; exact h
  unfold outputRow
  rw [hbox.top.height, hbox.top.width, hbox.right.height, hbox.bottom.height]
  split
  · refine (sideMem_same hbox.top j).bind ?_
    intro m m' hm
    refine (plainRow_same hin hbox hlay hpos hm).bind ?_
    intro r r' hr
    exact ⟨hr, rfl⟩
  · split
    · refine (plainRow_same hin hbox hlay hpos (hsp _)).bind ?_
      intro r r' hr
      exact ⟨hr, rfl⟩
    · refine (ResRel.refl _).bind ?_
      rintro n _ rfl
      have hl : Res.sub input.lines.length 1 = .ok (input.lines.length - 1) := Res.sub_ok (by omega)
      rw [hl]
      simp only [Res.ok_bind]
      split
      · split
        · exact trivial
        · split
          · refine (textRow_same hin him hbox hlay (by omega)).bind ?_
            intro r r' hr
            exact ⟨hr, rfl⟩
          · refine (plainRow_same hin hbox hlay (by omega) (hsp _)).bind ?_
            intro r r' hr
            exact ⟨hr, rfl⟩
      · refine (sideMem_same hbox.bottom _).bind ?_
        intro m m' hm
        refine (plainRow_same hin hbox hlay (by omega) hm).bind ?_
        intro r r' hr
        exact ⟨hr, rfl⟩

include hin hlay hbox him in
theorem outputLoop_same : ∀ n j v, ResRel (ListRel (fun p q => RowSame db p.1 q.1 ∧ q.2 = p.2)) (outputLoop db opt d input box lay n j v) (outputLoop db opt d' input box' lay n j v)
  | 0, _, _ => trivial
  | n + 1, j, v => by
    simp only [outputLoop]
    refine (outputRow_same hin him hbox hlay j v).bind ?_
    rintro ⟨r, f⟩ ⟨r', f'⟩ ⟨h1, h2⟩
    simp only at h1 h2 ⊢
    subst h2
    refine (trimmed_same h1).bind ?_
    intro t t' ht
    refine (outputLoop_same n (j + 1) f').bind ?_
    intro a b hab
    exact ⟨⟨ht, rfl⟩, hab⟩

end

theorem output_same {db : CharDb} (hdb : Sane db) {opt : Opt} {d d' : Design} (hd : ReadyDesign db d) (hd' : ReadyDesign db d') (h : Recoloured db d d') {input : Input}
    {ls : List (Str × Str)} (hin : TextBlock db opt d input ls) {box box' : Sides Shape} (hbox : BoxSame box box') :
    ResRel (ListRel (fun p q => RowSame db p.1 q.1 ∧ q.2 = p.2)) (outputBox db opt d input box) (outputBox db opt d' input box') := by
  unfold outputBox vertFill horizFill indentSpc
  simp only [recoloured_emptySide hdb hd hd' h, h.padding, h.indentmode, hbox.top.height, hbox.top.width, hbox.right.height, hbox.bottom.height, (h.shapes NW).height, (h.shapes SW).height,
    (h.shapes NW).width]
  refine (ResRel.refl _).bind ?_
  rintro ⟨a, b, c⟩ _ rfl
  refine (ResRel.refl _).bind ?_
  rintro ⟨e, f⟩ _ rfl
  refine (ResRel.refl _).bind ?_
  rintro n _ rfl
  exact outputLoop_same hin h.indentmode hbox rfl _ _ _

theorem adjust_ready {db : CharDb} {opt : Opt} {d : Design} (hd : ReadyDesign db d) (i : Input) : ReadyDesign db (adjustSizeAndPadding opt d i) :=
  ⟨(C20_adjusted_design db opt d hd.good i).2, fun n hp b hb => hd.lines n hp b hb⟩

theorem adjust_same {db : CharDb} {opt : Opt} {d d' : Design} (h : Recoloured db d d') (i : Input) : Recoloured db (adjustSizeAndPadding opt d i) (adjustSizeAndPadding opt d' i) := by
  refine ⟨fun n => h.shapes n, h.indentmode, ?_, ?_, ?_⟩ <;>
    simp only [adjustSizeAndPadding, h.padding, h.minwidth, h.minheight, (h.shapes NW).height, (h.shapes SW).height, (h.shapes NW).width, (h.shapes NE).width]

/-- drawing, up to the text block, for all designs with the same indentation mode -/
theorem draw_input_any (db : CharDb) (hdb : Sane db) (opt : Opt) (hr : opt.r = false) (ht : 1 ≤ opt.tabstop) (d : Design) (junk : Nat) (pieces : List Str)
    (hp : ∀ s ∈ pieces, Readable db opt.tabstop s) (hne : pieces ≠ []) (fuel : Nat) :
    ∃ (j : Input) (ls : List (Str × Str)),
      (∀ d' : Design, d'.indentmode = d.indentmode → drawOnce db opt d' [] junk pieces fuel = handleGenerateBox db opt (adjustSizeAndPadding opt d' j) j fuel) ∧
      TextBlock db opt (adjustSizeAndPadding opt d j) j ls := by
  obtain ⟨lines, ls, a1, a2, a3, a4, a5, a6⟩ := readLines_text hdb opt hr ht junk pieces hp
  have hread : ∃ i, readAllInput db opt junk pieces = .ok i ∧ i.lines = lines := by
    unfold readAllInput
    rw [a1]
    exact ⟨_, rfl, rfl⟩
  obtain ⟨i, i1, i2⟩ := hread
  have hlne : ls ≠ [] := by
    intro h0; rw [h0] at a3; exact hne (List.eq_nil_of_length_eq_zero a3.symm)
  rw [← i2] at a2 a5
  obtain ⟨j, ls', j1, j2, -⟩ := analyze_block (d' := d) opt hr ht d rfl i ls hlne a2 a4 a5
  have j2' : TextBlock db opt (adjustSizeAndPadding opt d j) j ls' :=
    ⟨j2.nonempty, j2.texts, j2.good, j2.narrow, j2.fits, by rw [(C21_padding opt d j).2.2.2]; exact j2.indented, j2.tabs, j2.tabstop⟩
  have hjne : ¬ j.lines = [] := by
    intro h0
    have := congrArg List.length j2.texts
    rw [h0] at this
    apply j2.nonempty
    exact List.eq_nil_of_length_eq_zero (by simpa using this.symm)
  refine ⟨j, ls', ?_, j2'⟩
  intro d' hd'
  have : analyzeInput db opt d' [] i = analyzeInput db opt d [] i := by
    unfold analyzeInput applySubstitutions
    rw [hd']
  unfold drawOnce
  rw [i1, Res.ok_bind, this, j1]
  simp only [if_neg hjne]

/-! ## Designs as the parser makes them, and inputs without escape sequences -/

theorem goodLine_analysed {db : CharDb} {s v : Str} {b : Bxs} (h : Text s v) (hb : fromUnicode db s = some b) : GoodLine db b v := by
  obtain ⟨g1, g2, -, -, g3, -⟩ := C01_metrics db h hb
  refine ⟨by rw [g1]; exact h, ?_, by rw [g1, g2], g3, C01_ascii db h hb⟩
  intro c hc hf
  have := (C01_rejected_iff db h).2 ⟨c, hc, hf⟩
  rw [hb] at this
  simp at this

theorem recoloured_shape_good {db : CharDb} {s s' : Shape} (h : RecolouredShape db s s') (hs : GoodShape db s) : GoodShape db s' := by
  refine ⟨by rw [h.count, h.height]; exact hs.height, ?_⟩
  intro b' hb'
  obtain ⟨i, hi⟩ := List.getElem?_of_mem hb'
  have hlt := (List.getElem?_eq_some_iff.1 hi).1
  rw [h.count] at hlt
  have e : s.lines[i]? = some s.lines[i] := List.getElem?_eq_getElem hlt
  have hg := hs.lines _ (List.mem_of_getElem? e)
  obtain ⟨⟨v, k1, k2⟩, k3 | ⟨k3, k4⟩⟩ := h.lines i _ _ e hi
  · rw [k3, h.width]; exact hg
  · refine ⟨⟨v, goodLine_analysed k2 k4⟩, ?_⟩
    rw [h.width, ← hg.2, (goodLine_analysed k1 k3).cols, (goodLine_analysed k2 k4).cols]

theorem recoloured_slots {db : CharDb} {d d' : Design} (h : Recoloured db d d') (size : Shape → Nat) (hs : ∀ n, size (d'.shape n) = size (d.shape n)) (l : List ShapeName) :
    slots size d' l = slots size d l := by
  unfold slots
  refine List.map_congr_left fun n _ => ?_
  unfold slotOf
  by_cases hp : Present (d.shape n)
  · rw [if_pos hp, if_pos ((recoloured_present (h.shapes n)).2 hp), hs, (h.shapes n).elastic]
  · rw [if_neg hp, if_neg (fun hc => hp ((recoloured_present (h.shapes n)).1 hc))]

/-- a design that differs only in escape sequences from a design as the parser makes it is such a design, too -/
theorem recoloured_ready {db : CharDb} {d d' : Design} (h : Recoloured db d d') (hd : ReadyDesign db d) : ReadyDesign db d' := by
  have hp : ∀ n, Present (d'.shape n) → Present (d.shape n) := fun n => (recoloured_present (h.shapes n)).1
  have hw : ∀ n, (d'.shape n).width = (d.shape n).width := fun n => (h.shapes n).width
  have hh : ∀ n, (d'.shape n).height = (d.shape n).height := fun n => (h.shapes n).height
  refine ⟨⟨fun n q => recoloured_shape_good (h.shapes n) (hd.good.shapes n (hp n q)), fun n hn => (recoloured_present (h.shapes n)).2 (hd.good.corner n hn), ?_, ?_, ?_, ?_, ?_, ?_, ?_, ?_,
    by rw [hw, hw, h.minwidth]; exact hd.good.minwidth, by rw [hh, hh, h.minheight]; exact hd.good.minheight⟩, ?_⟩
  · intro n hn q; rw [hh, hh]; exact hd.good.north n hn (hp n q)
  · intro n hn q; rw [hh, hh]; exact hd.good.south n hn (hp n q)
  · intro n hn q; rw [hw, hw]; exact hd.good.west n hn (hp n q)
  · intro n hn q; rw [hw, hw]; exact hd.good.east n hn (hp n q)
  · rw [recoloured_slots h _ hw]; exact hd.good.top
  · rw [recoloured_slots h _ hw]; exact hd.good.bottom
  · rw [recoloured_slots h _ hh]; exact hd.good.left
  · rw [recoloured_slots h _ hh]; exact hd.good.right
  · intro n q b' hb'
    obtain ⟨i, hi⟩ := List.getElem?_of_mem hb'
    have hlt := (List.getElem?_eq_some_iff.1 hi).1
    rw [(h.shapes n).count] at hlt
    have e : (d.shape n).lines[i]? = some (d.shape n).lines[i] := List.getElem?_eq_getElem hlt
    have hr := hd.lines n (hp n q) _ (List.mem_of_getElem? e)
    obtain ⟨⟨v, k1, k2⟩, k3 | ⟨k3, k4⟩⟩ := (h.shapes n).lines i _ _ e hi
    · rw [k3]; exact hr
    · rcases hr with ⟨w, hw⟩ | ⟨u, g1, g2, g3⟩
      · right
        refine ⟨v, k2, k4, ?_⟩
        have : v = List.replicate w 0x20 := by
          rw [hw] at k1
          have hm : (fromAscii (List.replicate w 0x20)).memory = List.replicate w 0x20 := rfl
          rw [hm] at k1
          exact k1.unique (.plain (by simp [List.mem_replicate]))
        rw [this]
        intro c hc
        rw [(List.mem_replicate.1 hc).2]
        intro _
        simp [Spec.width]
      · exact .inr ⟨v, k2, k4, by rw [k1.unique g1]; exact g3⟩

theorem prepare_same {db : CharDb} (hdb : Sane db) {opt : Opt} {d d' : Design} (hd : ReadyDesign db d) (h : Recoloured db d d') : Recoloured db (prepareDesign opt d) (prepareDesign opt d') := by
  have hd' := recoloured_ready h hd
  have : Recoloured db (applyExpectedSize opt d) (applyExpectedSize opt d') := by
    refine ⟨fun n => h.shapes n, h.indentmode, ?_, ?_, h.padding⟩ <;>
      simp only [applyExpectedSize, h.minwidth, h.minheight, (h.shapes NW).height, (h.shapes SE).height, (h.shapes NW).width, (h.shapes SE).width, recoloured_emptySide hdb hd hd' h]
  unfold prepareDesign
  simp only
  split
  · exact ⟨this.shapes, rfl, this.minwidth, this.minheight, this.padding⟩
  · exact this

theorem prepare_ready {db : CharDb} {opt : Opt} {d : Design} (hd : ReadyDesign db d) : ReadyDesign db (prepareDesign opt d) := by
  refine ⟨(C20_adjusted_design db opt d hd.good {}).1, ?_⟩
  intro n hp b hb
  have : (prepareDesign opt d).shape = d.shape := by
    unfold prepareDesign; simp only; split <;> rfl
  rw [this] at hp hb
  exact hd.lines n hp b hb

theorem expandLoop_plain (ts : Nat) : ∀ (s out : Str) (pos : List Nat), 0x1b ∉ s → 0x1b ∉ out → 0x1b ∉ (expandLoop ts s out pos).1
  | [], out, pos, _, ho => by unfold expandLoop; exact ho
  | c :: r, out, pos, hs, ho => by
    simp only [List.mem_cons, not_or] at hs
    unfold expandLoop
    split
    · split
      · refine expandLoop_plain ts r _ _ hs.2 ?_
        simp [ho, nspaces, List.mem_replicate, chSpace]
      · refine expandLoop_plain ts r _ _ hs.2 ?_
        simp [ho, hs.1]
    · exact ho

theorem stripLast_plain {junk c : Nat} {s t : Str} (h : stripLast junk c s = .ok t) (hs : 0x1b ∉ s) : 0x1b ∉ t := by
  unfold stripLast at h
  split at h
  · split at h
    · obtain rfl := Res.ok.inj h
      exact fun hc => hs (List.dropLast_subset _ hc)
    · obtain rfl := Res.ok.inj h; exact hs
  · split at h
    · simp at h
    · obtain rfl := Res.ok.inj h; exact hs

theorem trimCarefully_plain {db : CharDb} {opt : Opt} {junk : Nat} {s t : Str} (h : trimCarefully db opt junk s = .ok t) (hs : 0x1b ∉ s) : 0x1b ∉ t := by
  unfold trimCarefully at h
  split at h
  · obtain ⟨u, h1, h2⟩ := Res.bind_eq_ok.1 h
    exact stripLast_plain h2 (stripLast_plain h1 hs)
  · obtain rfl := Res.ok.inj h
    obtain ⟨n, e⟩ := btrim32_prefix db s
    rw [e]
    exact fun hc => hs (List.mem_of_mem_take hc)

theorem readLine_plain {db : CharDb} {opt : Opt} {junk : Nat} {s : Str} {l : Line} (h : readLine db opt junk s = .ok l) (hs : 0x1b ∉ s) :
    ∀ b, l.text = some b → fromUnicode db b.memory = some b ∧ 0x1b ∉ b.memory := by
  unfold readLine at h
  obtain ⟨t, h1, h2⟩ := Res.bind_eq_ok.1 h
  have ht := trimCarefully_plain h1 hs
  split at h2
  · simp only at h2
    split at h2
    · simp at h2
    · obtain rfl := Res.ok.inj h2
      intro b hb
      have hm := fromUnicode_memory hb
      rw [hm]
      refine ⟨hb, ?_⟩
      exact expandLoop_plain _ _ _ _ ht (by simp)
  · obtain rfl := Res.ok.inj h2
    intro b hb
    obtain rfl := Option.some.inj hb
    exact ⟨rfl, by decide⟩

theorem readLines_plain {db : CharDb} {opt : Opt} {junk : Nat} : ∀ {pieces : List Str} {ls : List Line}, readLines db opt junk pieces = .ok ls → (∀ s ∈ pieces, 0x1b ∉ s) →
    ∀ l ∈ ls, ∀ b, l.text = some b → fromUnicode db b.memory = some b ∧ 0x1b ∉ b.memory
  | [], ls, h, _ => by
    obtain rfl := Res.ok.inj h
    simp
  | s :: r, ls, h, hp => by
    unfold readLines at h
    obtain ⟨l, h1, h2⟩ := Res.bind_eq_ok.1 h
    obtain ⟨ls', h3, h4⟩ := Res.bind_eq_ok.1 h2
    obtain rfl := Res.ok.inj h4
    intro x hx
    rcases List.mem_cons.1 hx with rfl | hx
    · exact readLine_plain h1 (hp s List.mem_cons_self)
    · exact readLines_plain h3 (fun s hs => hp s (List.mem_cons_of_mem _ hs)) x hx

theorem maxCols_some : ∀ {ls : List Line} {m n : Nat}, maxCols ls m = .ok n → ∀ l ∈ ls, ∃ b, l.text = some b
  | [], _, _, _ => by simp
  | l :: r, m, n, h => by
    unfold maxCols at h
    obtain ⟨t, h1, h2⟩ := Res.bind_eq_ok.1 h
    intro x hx
    rcases List.mem_cons.1 hx with rfl | hx
    · cases ht : x.text with
      | none => rw [ht] at h1; simp [Res.get] at h1
      | some b => exact ⟨b, rfl⟩
    · exact maxCols_some h2 x hx

/-- the lines of an input without escape sequences, when a box is removed -/
theorem analysed_plain {db : CharDb} {opt : Opt} (hr : opt.r = true) {junk : Nat} {pieces : List Str} (hp : ∀ s ∈ pieces, 0x1b ∉ s) {d : Design} {rules : List Subst} {raw i : Input}
    (h1 : readAllInput db opt junk pieces = .ok raw) (h2 : analyzeInput db opt d rules raw = .ok i) :
    ∀ l ∈ i.lines, ∃ b, l.text = some b ∧ fromUnicode db b.memory = some b ∧ 0x1b ∉ b.memory := by
  have hi := analyze_removing hr h2
  unfold readAllInput at h1
  obtain ⟨ls, h3, h4⟩ := Res.bind_eq_ok.1 h1
  obtain rfl := Res.ok.inj h4
  unfold analyzeInput at h2
  obtain ⟨m, h5, -⟩ := Res.bind_eq_ok.1 h2
  rw [hi]
  intro l hl
  obtain ⟨b, hb⟩ := maxCols_some h5 l hl
  exact ⟨b, hb, readLines_plain h3 hp l hl b hb⟩

theorem killblank_same {db : CharDb} (hdb : Sane db) {d d' : Design} (hd : ReadyDesign db d) (h : Recoloured db d d') (kb : Int) : killblankDefault kb d' = killblankDefault kb d := by
  unfold killblankDefault
  simp only [recoloured_emptySide hdb hd (recoloured_ready h hd) h]

/-- without colours, no escape character is printed -/
theorem render_plain {db : CharDb} : ∀ (out : List (Bxs × Str)) {text : Str}, (∀ p ∈ out, (∃ v, Text p.1.memory v) ∧ fromUnicode db p.1.memory = some p.1 ∧ 0x1b ∉ p.2) →
    renderBox false out = .ok text → 0x1b ∉ text
  | [], text, _, h => by
    obtain rfl := Res.ok.inj h
    simp
  | (b, e) :: more, text, hp, h => by
    obtain ⟨⟨v, h1⟩, h2, h3⟩ := hp _ List.mem_cons_self
    rw [renderBox, show b.toOutput false = some v from (C03_output db h1 h2).2, Res.get_some, Res.ok_bind] at h
    obtain ⟨t, h4, h5⟩ := Res.bind_eq_ok.1 h
    obtain rfl := Res.ok.inj h5
    have := render_plain more (fun p hm => hp p (List.mem_cons_of_mem _ hm)) h4
    simp only [List.mem_append, not_or]
    exact ⟨⟨fun hc => text_vis_ne h1 _ hc rfl, h3⟩, this⟩

end Boxes
