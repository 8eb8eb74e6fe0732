import Verif.Props.NoBox
import Verif.Model.Getopt

/-! # Lemmas: the defaults that the help text names (C89) -/

set_option linter.unusedVariables false
set_option linter.unusedSimpArgs false

namespace Boxes
open Spec

section
variable (db : CharDb) (o : Opt) (h v : Char)

theorem readLines_aligned (j : Nat) : ∀ ps : List Str, readLines db { o with halign := h, valign := v } j ps = readLines db o j ps
  | [] => rfl
  | p :: ps => by
    unfold readLines
    rw [readLines_aligned j ps]
    rfl

theorem readAllInput_aligned (j : Nat) (ps : List Str) : readAllInput db { o with halign := h, valign := v } j ps = readAllInput db o j ps := by
  unfold readAllInput
  rw [readLines_aligned]

theorem removeVerticalLines_aligned (d n ct) : ∀ a b, removeVerticalLines db { o with halign := h, valign := v } d n ct a b = removeVerticalLines db o d n ct a b
  | [], _ => by simp [removeVerticalLines]
  | _ :: _, [] => by simp [removeVerticalLines]
  | x :: a, y :: b => by
    unfold removeVerticalLines
    rw [removeVerticalLines_aligned d n ct a b]
    rfl

theorem outputLines_aligned (fn n) : ∀ a, outputLines { o with halign := h, valign := v } fn n a = outputLines o fn n a
  | [] => rfl
  | x :: a => by
    unfold outputLines
    rw [outputLines_aligned fn n a]
    rfl

theorem removeVertical_aligned (d i ctx) : removeVertical db { o with halign := h, valign := v } d i ctx = removeVertical db o d i ctx := by
  unfold removeVertical
  simp only [removeVerticalLines_aligned]

theorem applyResults_aligned (d i ctx) : applyResults db { o with halign := h, valign := v } d i ctx = applyResults db o d i ctx := by
  unfold applyResults
  simp only [removeVertical_aligned]
  rfl

theorem removeBox_aligned (d i) : removeBox db { o with halign := h, valign := v } d i = removeBox db o d i := by
  unfold removeBox
  simp only [applyResults_aligned]

theorem outputInput_aligned (t i) : outputInput db { o with halign := h, valign := v } t i = outputInput db o t i := by
  unfold outputInput
  simp only [outputLines_aligned]

theorem handleRemoveBox_aligned (d) (rs : List Subst) (i : Input) :
    handleRemoveBox db { o with halign := h, valign := v } d rs i = handleRemoveBox db o d rs i := by
  unfold handleRemoveBox
  have e1 := fun kb => removeBox_aligned db { o with killblank := kb } h v d i
  have e2 := fun kb t j => outputInput_aligned db { o with killblank := kb } h v t j
  simp only at e1 e2 ⊢
  simp only [e1, e2]

theorem outputLoop_aligned (d : Design) (i : Input) box lay : ∀ a b c, outputLoop db { o with halign := h, valign := v } d i box lay a b c = outputLoop db o d i box lay a b c
  | 0, _, _ => rfl
  | n + 1, b, c => by
    unfold outputLoop
    simp only [outputLoop_aligned d i box lay n]
    rfl

/-- options that put the text at the same place -/
structure SamePlace (o p : Opt) : Prop where
  rest : p = { o with halign := p.halign, valign := p.valign }
  hc : p.halign = 'c' ↔ o.halign = 'c'
  hr : p.halign = 'r' ↔ o.halign = 'r'
  vc : p.valign = 'c' ↔ o.valign = 'c'
  vb : p.valign = 'b' ↔ o.valign = 'b'

variable {o} {p : Opt}

theorem outputBox_place (hp : SamePlace o p) (d i box) : outputBox db p d i box = outputBox db o d i box := by
  have e1 : vertFill p d box i.lines.length = vertFill o d box i.lines.length := by
    unfold vertFill
    simp only [hp.vc, hp.vb]
  have e2 : horizFill p d box i.maxline = horizFill o d box i.maxline := by
    unfold horizFill
    simp only [hp.hc, hp.hr]
  unfold outputBox
  rw [e1, e2, hp.rest]
  simp only [outputLoop_aligned]
  rfl

theorem handleGenerateBox_place (hp : SamePlace o p) (d i n) : handleGenerateBox db p d i n = handleGenerateBox db o d i n := by
  unfold handleGenerateBox
  simp only [outputBox_place db hp]

theorem SamePlace.with_ (hp : SamePlace o p) (r : Bool) (m kb : Int) :
    SamePlace { o with r := r, mend := m, killblank := kb } { p with r := r, mend := m, killblank := kb } :=
  ⟨by rw [hp.rest], hp.hc, hp.hr, hp.vc, hp.vb⟩

/-- the same state, apart from how the place of the text is stored -/
def SameWorld (w x : World) : Prop := SamePlace w.opt x.opt ∧ x = { w with opt := x.opt }

theorem handleInput_place {s : Setup} {w : World} (hp : SamePlace w.opt p) (d) : handleInput s { w with opt := p } d = handleInput s w d := by
  unfold handleInput
  simp only
  rw [hp.rest]
  simp only [readAllInput_aligned]
  rfl

theorem removePhase_place {s : Setup} {w : World} (hp : SamePlace w.opt p) (d) :
    (∃ e, removePhase s w d = .fail e ∧ removePhase s { w with opt := p } d = .fail e) ∨ (removePhase s w d = .ub ∧ removePhase s { w with opt := p } d = .ub) ∨
      ∃ r r', removePhase s w d = .ok r ∧ removePhase s { w with opt := p } d = .ok r' ∧ r'.2 = r.2 ∧ SameWorld r.1 r'.1 := by
  have e1 : killblankDefault p.killblank d = killblankDefault w.opt.killblank d := by rw [hp.rest]
  have e2 : ∀ q d' r i, handleRemoveBox s.db { p with killblank := q } d' r i = handleRemoveBox s.db { w.opt with killblank := q } d' r i := by
    intro q d' r i
    rw [hp.rest]
    exact handleRemoveBox_aligned s.db { w.opt with killblank := q } p.halign p.valign d' r i
  unfold removePhase
  simp only [e1, e2]
  cases detectDesignIfNeeded s.db w.designs w.input.lines (if s.byUser then some w.cur else none) with
  | fail e => exact .inl ⟨e, rfl, rfl⟩
  | ub => exact .inr (.inl ⟨rfl, rfl⟩)
  | ok q =>
    simp only [Res.ok_bind]
    cases Res.get q.2[q.1]? with
    | fail e => exact .inl ⟨e, rfl, rfl⟩
    | ub => exact .inr (.inl ⟨rfl, rfl⟩)
    | ok d' =>
      simp only [Res.ok_bind]
      cases handleRemoveBox s.db { w.opt with killblank := killblankDefault w.opt.killblank d } d' (s.revRules q.1) w.input with
      | fail e => exact .inl ⟨e, rfl, rfl⟩
      | ub => exact .inr (.inl ⟨rfl, rfl⟩)
      | ok r =>
        refine .inr (.inr ⟨_, _, rfl, rfl, rfl, ⟨?_, rfl⟩⟩)
        exact ⟨by simp only; rw [hp.rest], hp.hc, hp.hr, hp.vc, hp.vb⟩
theorem mainPhase_place {s : Setup} {w : World} (hp : SamePlace w.opt p) (sw sh : Nat) :
    (mainPhase s sw sh w = none ∧ mainPhase s sw sh { w with opt := p } = none) ∨
    (∃ e, mainPhase s sw sh w = some (.fail e) ∧ mainPhase s sw sh { w with opt := p } = some (.fail e)) ∨
    (mainPhase s sw sh w = some .ub ∧ mainPhase s sw sh { w with opt := p } = some .ub) ∨
      ∃ b x x' ev, mainPhase s sw sh w = some (.ok (b, x, ev)) ∧ mainPhase s sw sh { w with opt := p } = some (.ok (b, x', ev)) ∧ SameWorld x x' := by
  have em : p.mend = w.opt.mend := by rw [hp.rest]
  have er : p.r = w.opt.r := by rw [hp.rest]
  have hp1 : SamePlace { w.opt with r := if w.opt.mend = 1 then false else w.opt.r, mend := w.opt.mend - 1 }
      { p with r := if w.opt.mend = 1 then false else w.opt.r, mend := w.opt.mend - 1 } :=
    ⟨by simp only; rw [hp.rest], hp.hc, hp.hr, hp.vc, hp.vb⟩
  unfold mainPhase
  simp only [em, er]
  generalize hq : ({ w.opt with r := if w.opt.mend = 1 then false else w.opt.r, mend := w.opt.mend - 1 } : Opt) = q at hp1 ⊢
  generalize hq' : ({ p with r := if w.opt.mend = 1 then false else w.opt.r, mend := w.opt.mend - 1 } : Opt) = q' at hp1 ⊢
  cases w.designs[w.cur]? with
  | none => exact .inr (.inr (.inl ⟨rfl, rfl⟩))
  | some d0 =>
    simp only
    generalize ({ d0 with minwidth := sw, minheight := sh } : Design) = d1
    have e1 := fun ds d => handleInput_place (s := s) (w := { w with opt := q, designs := ds }) hp1 d
    simp only at e1
    simp only [e1]
    have er' : (if w.opt.mend = 1 then false else w.opt.r) = q.r := by rw [← hq]
    simp only [er']
    have e2 : ∀ d i, adjustSizeAndPadding q' d i = adjustSizeAndPadding q d i := by
      intro d i; rw [hp1.rest]; rfl
    simp only [e2]
    cases handleInput s { w with opt := q, designs := w.designs.set w.cur d1 } d1 with
    | fail e => exact .inr (.inl ⟨e, rfl, rfl⟩)
    | ub => exact .inr (.inr (.inl ⟨rfl, rfl⟩))
    | ok i =>
      simp only
      by_cases hl : i.1.lines = []
      · rw [if_pos hl, if_pos hl]
        exact .inr (.inr (.inr ⟨_, _, _, _, rfl, rfl, hp1, rfl⟩))
      · rw [if_neg hl, if_neg hl]
        by_cases hr : q.r = true
        · have hr' : q'.r = true := by rw [hp1.rest]; exact hr
          simp only [hr', hr, if_true]
          rcases removePhase_place (s := s) (w := { w with opt := q, designs := (w.designs.set w.cur d1).set w.cur (adjustSizeAndPadding q d1 i.1), input := i.1 }) hp1
            (adjustSizeAndPadding q d1 i.1) with ⟨e, h1, h2⟩ | ⟨h1, h2⟩ | ⟨r, r', h1, h2, h3, h4⟩
          · simp only at h1 h2; rw [h1, h2]; exact .inr (.inl ⟨e, rfl, rfl⟩)
          · simp only at h1 h2; rw [h1, h2]; exact .inr (.inr (.inl ⟨rfl, rfl⟩))
          · simp only at h1 h2; rw [h1, h2]
            simp only [h3]
            exact .inr (.inr (.inr ⟨_, _, _, _, rfl, rfl, h4⟩))
        · have hr1 : q.r = false := by simpa using hr
          have hr' : q'.r = false := by rw [hp1.rest]; exact hr1
          simp only [hr', hr1, Bool.false_eq_true, if_false]
          rw [handleGenerateBox_place s.db hp1]
          cases handleGenerateBox s.db q (adjustSizeAndPadding q d1 i.1) i.1 s.fuel with
          | none => exact .inl ⟨rfl, rfl⟩
          | some r =>
            cases r with
            | fail e => exact .inr (.inl ⟨e, rfl, rfl⟩)
            | ub => exact .inr (.inr (.inl ⟨rfl, rfl⟩))
            | ok out => exact .inr (.inr (.inr ⟨_, _, _, _, rfl, rfl, hp1, rfl⟩))

theorem mainLoop_place {s : Setup} (sw sh : Nat) : ∀ (n : Nat) (w x : World), SameWorld w x → mainLoop s sw sh n x = mainLoop s sw sh n w := by
  intro n
  induction n with
  | zero => intros; rfl
  | succ n ih =>
    intro w x hw
    obtain ⟨h1, h2⟩ := hw
    rw [h2]
    unfold mainLoop
    rcases mainPhase_place (s := s) h1 sw sh with ⟨a, b⟩ | ⟨e, a, b⟩ | ⟨a, b⟩ | ⟨f, y, y', ev, a, b, hs⟩
    · rw [a, b]
    · rw [a, b]
    · rw [a, b]
    · rw [a, b]
      simp only
      rw [ih y y' hs, show y'.opt.mend = y.opt.mend by rw [hs.1.rest]]

theorem runProgram_place {s : Setup} (hp : SamePlace o p) (ds n) : runProgram s p ds n = runProgram s o ds n := by
  unfold runProgram
  cases ds[0]? with
  | none => rfl
  | some d0 =>
    simp only
    rw [show prepareDesign p d0 = prepareDesign o d0 by rw [hp.rest]; rfl]
    exact mainLoop_place _ _ n _ _ ⟨hp, rfl⟩

/-- the same options, apart from how the place of the text is stored, and the mark that the line end was named -/
structure SameArgs (a b : Args) : Prop where
  place : SamePlace a.opt b.opt
  rest : b = { a with opt := b.opt, eolOverridden := b.eolOverridden }

theorem alignLoop_place : ∀ (n : Nat) (s : Str) (o p : Opt), SamePlace o p →
    (alignLoop n o s = none ∧ alignLoop n p s = none) ∨ ∃ o' p', alignLoop n o s = some o' ∧ alignLoop n p s = some p' ∧ SamePlace o' p' := by
  intro n
  induction n with
  | zero =>
    intro s o p hp
    cases s with
    | nil => exact .inr ⟨o, p, rfl, rfl, hp⟩
    | cons c r => exact .inl ⟨rfl, rfl⟩
  | succ n ih =>
    intro s o p hp
    cases s with
    | nil => exact .inr ⟨o, p, rfl, rfl, hp⟩
    | cons c rest =>
      have k1 : ∀ x, SamePlace { o with halign := x } { p with halign := x } := fun x => ⟨by simp only; rw [hp.rest], .rfl, .rfl, hp.vc, hp.vb⟩
      have k2 : ∀ x, SamePlace { o with valign := x } { p with valign := x } := fun x => ⟨by simp only; rw [hp.rest], hp.hc, hp.hr, .rfl, .rfl⟩
      have k3 : ∀ x, SamePlace { o with justify := x } { p with justify := x } := fun x => ⟨by simp only; rw [hp.rest], hp.hc, hp.hr, hp.vc, hp.vb⟩
      have k4 : ∀ x y z, SamePlace { o with justify := x, halign := y, valign := z } { p with justify := x, halign := y, valign := z } :=
        fun x y z => ⟨by simp only; rw [hp.rest], .rfl, .rfl, .rfl, .rfl⟩
      unfold alignLoop
      split
      · exact .inl ⟨rfl, rfl⟩
      split
      · cases hLetter (rest.headD 0) with
        | none => exact .inl ⟨rfl, rfl⟩
        | some x => exact ih _ _ _ (k1 x)
      split
      · cases vLetter (rest.headD 0) with
        | none => exact .inl ⟨rfl, rfl⟩
        | some x => exact ih _ _ _ (k2 x)
      split
      · cases hLetter (rest.headD 0) with
        | none => exact .inl ⟨rfl, rfl⟩
        | some x => exact ih _ _ _ (k3 x)
      split
      · exact ih _ _ _ (k4 ..)
      split
      · exact ih _ _ _ (k4 ..)
      split
      · exact ih _ _ _ (k4 ..)
      · exact .inl ⟨rfl, rfl⟩

/-- what both options have in common when a setting is handled: both refuse it, or both take it -/
def Both (r r' : Option Args) : Prop := (r = none ∧ r' = none) ∨ ∃ a b, r = some a ∧ r' = some b ∧ SameArgs a b

theorem handleOption_place {a b : Args} (h : SameArgs a b) (x : Option') : Both (handleOption a x) (handleOption b x) := by
  have hopt : ∀ {r r' : Option Opt}, ((r = none ∧ r' = none) ∨ ∃ o p, r = some o ∧ r' = some p ∧ SamePlace o p) →
      Both (r.map (fun o => { a with opt := o })) (r'.map (fun o => { b with opt := o })) := by
    rintro r r' (⟨rfl, rfl⟩ | ⟨o, p, rfl, rfl, hp⟩)
    · exact .inl ⟨rfl, rfl⟩
    · exact .inr ⟨_, _, rfl, rfl, hp, by simp only; rw [h.rest]⟩
  have hset : ∀ (f : Opt → Option Opt), (∀ o h v, f { o with halign := h, valign := v } = (f o).map (fun q => { q with halign := h, valign := v })) →
      (∀ o q, f o = some q → q.halign = o.halign ∧ q.valign = o.valign) →
      Both ((f a.opt).map (fun o => { a with opt := o })) ((f b.opt).map (fun o => { b with opt := o })) := by
    intro f h1 h2
    apply hopt
    have e := h1 a.opt b.opt.halign b.opt.valign
    rw [← h.place.rest] at e
    cases hf : f a.opt with
    | none => rw [hf] at e; exact .inl ⟨rfl, e⟩
    | some q =>
      rw [hf] at e
      obtain ⟨q1, q2⟩ := h2 _ _ hf
      refine .inr ⟨q, _, rfl, e, ?_⟩
      exact ⟨rfl, by rw [q1]; exact h.place.hc, by rw [q1]; exact h.place.hr, by rw [q2]; exact h.place.vc, by rw [q2]; exact h.place.vb⟩
  have hplain : ∀ f : Args → Args, (∀ a o e, f { a with opt := o, eolOverridden := e } = { f a with opt := o, eolOverridden := e }) →
      (∀ a, (f a).opt = a.opt) → Both (some (f a)) (some (f b)) := by
    intro f h1 h2
    refine .inr ⟨_, _, rfl, rfl, by rw [h2, h2]; exact h.place, ?_⟩
    rw [h.rest, h1]
  cases x with
  | align s =>
    apply hopt
    unfold alignment
    split
    · exact .inl ⟨rfl, rfl⟩
    · exact alignLoop_place _ _ _ _ h.place
  | create s =>
    show Both (commandLineDesign a s) (commandLineDesign b s)
    unfold commandLineDesign
    split
    · exact .inl ⟨rfl, rfl⟩
    · exact hplain (fun a => { a with cld := some s, byUser := true }) (fun _ _ _ => rfl) (fun _ => rfl)
  | color => exact hplain (fun a => { a with color := 2 }) (fun _ _ _ => rfl) (fun _ => rfl)
  | noColor => exact hplain (fun a => { a with color := 0 }) (fun _ _ _ => rfl) (fun _ => rfl)
  | design s => exact hplain (fun a => designChoice a s) (fun _ _ _ => rfl) (fun _ => rfl)
  | eol s =>
    have k : ∀ e, Both (some { a with eolOverridden := true, opt := { a.opt with eol := e } }) (some { b with eolOverridden := true, opt := { b.opt with eol := e } }) :=
      fun e => .inr ⟨_, _, rfl, rfl, ⟨by simp only; rw [h.place.rest], h.place.hc, h.place.hr, h.place.vc, h.place.vb⟩, by simp only; rw [h.rest]⟩
    show Both (eolOverride a s) (eolOverride b s)
    unfold eolOverride
    split
    · exact k _
    split
    · exact k _
    split
    · exact k _
    · exact .inl ⟨rfl, rfl⟩
  | config s => exact hplain (fun a => { a with f := some s }) (fun _ _ _ => rfl) (fun _ => rfl)
  | help => exact .inl ⟨rfl, rfl⟩
  | indent s =>
    refine hset (fun o => indentationMode o s) ?_ ?_
    · intro o h v
      unfold indentationMode
      simp only
      repeat' split
      all_goals rfl
    · intro o q hq
      unfold indentationMode at hq
      simp only at hq
      repeat' split at hq
      all_goals first | (cases hq; exact ⟨rfl, rfl⟩) | cases hq
  | kill s =>
    refine hset (fun o => killblankOption o s) ?_ ?_
    · intro o h v
      unfold killblankOption
      simp only
      repeat' split
      all_goals rfl
    · intro o q hq
      simp only [killblankOption] at hq
      repeat' split at hq
      all_goals first | (cases hq; exact ⟨rfl, rfl⟩) | cases hq
  | killBlank =>
    have := hset (fun o => some (if o.killblank = -1 then { o with killblank := 1 } else o)) (by intro o h v; simp only; split <;> rfl)
      (by intro o q hq; simp only [Option.some.injEq] at hq; subst hq; split <;> exact ⟨rfl, rfl⟩)
    simp only [Option.map_some] at this
    simp only [handleOption]
    have e : ∀ a : Args, (if a.opt.killblank = -1 then { a with opt := { a.opt with killblank := 1 } } else a) =
        { a with opt := if a.opt.killblank = -1 then { a.opt with killblank := 1 } else a.opt } := by intro a; split <;> rfl
    rw [e, e]; exact this
  | noKillBlank =>
    have := hset (fun o => some (if o.killblank = -1 then { o with killblank := 0 } else o)) (by intro o h v; simp only; split <;> rfl)
      (by intro o q hq; simp only [Option.some.injEq] at hq; subst hq; split <;> exact ⟨rfl, rfl⟩)
    simp only [Option.map_some] at this
    simp only [handleOption]
    have e : ∀ a : Args, (if a.opt.killblank = -1 then { a with opt := { a.opt with killblank := 0 } } else a) =
        { a with opt := if a.opt.killblank = -1 then { a.opt with killblank := 0 } else a.opt } := by intro a; split <;> rfl
    rw [e, e]; exact this
  | list => exact hplain (fun a => { a with l := true }) (fun _ _ _ => rfl) (fun _ => rfl)
  | mend => exact hset (fun o => some { o with mend := 2, r := true, killblank := 0 }) (fun _ _ _ => rfl) (by intro o q hq; cases hq; exact ⟨rfl, rfl⟩)
  | encoding s => exact hplain (fun a => { a with encoding := some s }) (fun _ _ _ => rfl) (fun _ => rfl)
  | padding s =>
    refine hset (fun o => paddingOption o s) ?_ ?_
    · intro o h v
      unfold paddingOption
      split
      · rfl
      · simp only; cases areaLoop s.length o.padding s <;> rfl
    · intro o q hq
      unfold paddingOption at hq
      split at hq
      · cases hq
      · cases hx : areaLoop s.length o.padding s with
        | none => rw [hx] at hq; cases hq
        | some x => rw [hx] at hq; cases hq; exact ⟨rfl, rfl⟩
  | query s =>
    simp only [handleOption]
    cases parseQuery s with
    | none => exact .inl ⟨rfl, rfl⟩
    | some q => exact hplain (fun a => { a with query := some q }) (fun _ _ _ => rfl) (fun _ => rfl)
  | remove => exact hset (fun o => some { o with r := true }) (fun _ _ _ => rfl) (by intro o q hq; cases hq; exact ⟨rfl, rfl⟩)
  | size s =>
    refine hset (fun o => sizeOfBox o s) ?_ ?_
    · intro o h v
      unfold sizeOfBox
      simp only
      repeat' split
      all_goals rfl
    · intro o q hq
      unfold sizeOfBox at hq
      simp only at hq
      repeat' split at hq
      all_goals first | (cases hq; exact ⟨rfl, rfl⟩) | cases hq
  | tabs s =>
    refine hset (fun o => tabHandling o s) ?_ ?_
    · intro o h v
      unfold tabHandling
      simp only
      repeat' split
      all_goals rfl
    · intro o q hq
      unfold tabHandling at hq
      simp only at hq
      repeat' split at hq
      all_goals first | (cases hq; exact ⟨rfl, rfl⟩) | cases hq
  | version => exact .inl ⟨rfl, rfl⟩
  | extra s =>
    have hx : ∀ (a b : Args) s, SameArgs a b → Both (extraDebug a s) (extraDebug b s) := by
      intro a b s h
      have e : b.debug = a.debug := by rw [h.rest]
      have k : ∀ r : Option (List Bool), Both (r.map (fun d => { a with debug := d, areasActive := d })) (r.map (fun d => { b with debug := d, areasActive := d })) := by
        intro r
        cases r with
        | none => exact .inl ⟨rfl, rfl⟩
        | some d => exact .inr ⟨_, _, rfl, rfl, h.place, by simp only; rw [h.rest]⟩
      unfold extraDebug
      rw [e]
      split
      · split
        · exact k _
        · split
          · exact k _
          · exact .inl ⟨rfl, rfl⟩
      · exact .inr ⟨a, b, rfl, rfl, h⟩
    have hy : ∀ {r r' : Option Args}, Both r r' → Both (r.bind (fun a => if !a.qundoc && !a.areasActive.any id then none else some a))
        (r'.bind (fun a => if !a.qundoc && !a.areasActive.any id then none else some a)) := by
      rintro r r' (⟨rfl, rfl⟩ | ⟨a, b, rfl, rfl, h⟩)
      · exact .inl ⟨rfl, rfl⟩
      · have e1 : b.qundoc = a.qundoc := by rw [h.rest]
        have e2 : b.areasActive = a.areasActive := by rw [h.rest]
        simp only [Option.bind_some, e1, e2]
        split
        · exact .inl ⟨rfl, rfl⟩
        · exact .inr ⟨a, b, rfl, rfl, h⟩
    show Both (undocumentedOptions a s) (undocumentedOptions b s)
    unfold undocumentedOptions
    apply hy
    split
    · exact hx _ _ _ ⟨h.place, by simp only; rw [h.rest]⟩
    · exact hx _ _ _ h
  | bad => exact .inl ⟨rfl, rfl⟩


theorem optionLoop_place : ∀ (opts : List Option') (a b : Args), SameArgs a b →
    (optionLoop opts a = none ∧ optionLoop opts b = none) ∨
      ∃ a' b' f, optionLoop opts a = some (a', f) ∧ optionLoop opts b = some (b', f) ∧ SameArgs a' b' := by
  intro opts
  induction opts with
  | nil => intro a b h; exact .inr ⟨a, b, false, rfl, rfl, h⟩
  | cons x opts ih =>
    intro a b h
    by_cases h1 : x = .help
    · subst h1; exact .inr ⟨_, _, true, rfl, rfl, h.place, by simp only; rw [h.rest]⟩
    by_cases h2 : x = .version
    · subst h2; exact .inr ⟨_, _, true, rfl, rfl, h.place, by simp only; rw [h.rest]⟩
    by_cases h3 : x = .bad
    · subst h3; exact .inl ⟨rfl, rfl⟩
    have e : ∀ a, optionLoop (x :: opts) a = (handleOption a x).bind (optionLoop opts) := by
      intro a
      cases x <;> first | rfl | exact absurd rfl h1 | exact absurd rfl h2 | exact absurd rfl h3
    rw [e, e]
    rcases handleOption_place h x with ⟨e1, e2⟩ | ⟨a', b', e1, e2, h'⟩
    · rw [e1, e2]; exact .inl ⟨rfl, rfl⟩
    · rw [e1, e2]; exact ih a' b' h'

theorem inputOutputFiles_place {a b : Args} (h : SameArgs a b) (cr cw : Str → Bool) (files : List Str) :
    Both (inputOutputFiles cr cw a files) (inputOutputFiles cr cw b files) := by
  have k : ∀ i o, Both (some { a with infile := i, outfile := o }) (some { b with infile := i, outfile := o }) :=
    fun i o => .inr ⟨_, _, rfl, rfl, h.place, by simp only; rw [h.rest]⟩
  unfold inputOutputFiles
  match files with
  | [] => exact .inr ⟨a, b, rfl, rfl, h⟩
  | _ :: _ :: _ :: _ => exact .inl ⟨rfl, rfl⟩
  | [i] =>
    simp only
    by_cases h1 : i = lit "-"
    · simp only [h1, if_true]; exact k none none
    · by_cases h2 : cr i = true
      · simp only [h1, h2, if_true, if_false]; exact k (some i) none
      · simp only [h1, h2, if_false]; exact .inl ⟨rfl, rfl⟩
  | [i, o] =>
    simp only
    have k2 : ∀ i', Both (if o = lit "-" then some { a with infile := i', outfile := none } else if cw o = true then some { a with infile := i', outfile := some o } else none)
        (if o = lit "-" then some { b with infile := i', outfile := none } else if cw o = true then some { b with infile := i', outfile := some o } else none) := by
      intro i'
      split
      · exact k _ _
      · split
        · exact k _ _
        · exact .inl ⟨rfl, rfl⟩
    by_cases h1 : i = lit "-"
    · simp only [h1, if_true]; exact k2 none
    · by_cases h2 : cr i = true
      · simp only [h1, h2, if_true, if_false]; exact k2 (some i)
      · simp only [h1, h2, if_false]; exact .inl ⟨rfl, rfl⟩

theorem whole_place {m : Machine} {a b : Args} (h : SameArgs a b) (file ds ps f n) : mainTask m b file ds ps f n = mainTask m a file ds ps f n := by
  have e : b.opt.eol = a.opt.eol := by rw [h.place.rest]
  have hr := h.rest
  unfold mainTask
  rw [runProgram_place h.place, e]
  rw [hr]


theorem processCommandline_place {cr cw : Str → Bool} {first first' : Option Str} {opts opts' : List Option'} {files : List Str} {a0 : Args}
    (h0 : first ≠ some (lit "-?")) (h0' : first' ≠ some (lit "-?")) (h : SameArgs createNewOpt a0) (he : optionLoop opts' createNewOpt = optionLoop opts a0) :
    Both (processCommandline cr cw first opts files) (processCommandline cr cw first' opts' files) := by
  unfold processCommandline
  rw [if_neg h0, if_neg h0', he]
  rcases optionLoop_place opts _ _ h with ⟨e1, e2⟩ | ⟨a, b, f, e1, e2, h'⟩
  · rw [e1, e2]; exact .inl ⟨rfl, rfl⟩
  · rw [e1, e2]
    cases f with
    | true => exact .inr ⟨a, b, rfl, rfl, h'⟩
    | false => exact inputOutputFiles_place h' cr cw files

theorem wholeProgram_place {m : Machine} {c c' : CommandLine} (h : Both (processCommandline m.canRead m.canWrite c.first c.options c.files)
    (processCommandline m.canRead m.canWrite c'.first c'.options c'.files)) (n : Nat) : wholeProgram m c' n = wholeProgram m c n := by
  unfold wholeProgram
  rcases h with ⟨e1, e2⟩ | ⟨a, b, e1, e2, h'⟩
  · rw [e1, e2]
  · rw [e1, e2]
    have h1 : b.help = a.help := by rw [h'.rest]
    have h2 : b.version = a.version := by rw [h'.rest]
    have h3 : b.f = a.f := by rw [h'.rest]
    have h4 : b.outfile = a.outfile := by rw [h'.rest]
    have h5 : ∀ f n, loadDesigns m b f n = loadDesigns m a f n := by
      intro f n
      have e1 : b.opt.eol = a.opt.eol := by rw [h'.place.rest]
      have e2 : b.opt.r = a.opt.r := by rw [h'.place.rest]
      have e3 : parseEnv m b = parseEnv m a := by
        unfold parseEnv
        rw [e1, e2, h'.rest]
      unfold loadDesigns
      rw [e3, show b.cld = a.cld by rw [h'.rest]]
    simp only [h1, h2, h3, h4, h5, whole_place h']

end

theorem addAliases_choice (env : ParseEnv) (n : Option Str) : ∀ l st, addAliases { env with choice := n } l st = addAliases env l st
  | [], _ => rfl
  | a :: l, st => by
    unfold addAliases
    simp only [addAliases_choice env n l]
    rfl

theorem parseItems_choice (env : ParseEnv) (n : Option Str) : ∀ l st, parseItems { env with choice := n } l st = parseItems env l st
  | [], _ => rfl
  | i :: l, st => by
    unfold parseItems
    simp only [parseItems_choice env n l]
    have : parseItem { env with choice := n } st i = parseItem env st i := by cases i <;> rfl
    rw [this]

/-- with a name given, a design is read as without one, or it is left out -/
theorem parseDesign_choice {env : ParseEnv} (hc : env.choice = none) (n : Str) (ps : List Bxs) (name : Str) (aliases : List Str) (items : List Item) (ne : Str) :
    parseDesign { env with choice := some n } { designs := [], parents := ps } name aliases items ne = parseDesign env { designs := [], parents := ps } name aliases items ne ∨
    (parseDesign { env with choice := some n } { designs := [], parents := ps } name aliases items ne = .fail rcError ∧
      ∀ d, parseDesign env { designs := [], parents := ps } name aliases items ne = .ok d → ¬ Called d n) := by
  have hnames := fun d h => parseDesign_names (d := d) (env := env) (st := { designs := [], parents := ps }) (name := name) (aliases := aliases) (items := items) (nameAtEnd := ne) h
  unfold parseDesign at hnames ⊢
  rw [addAliases_choice]
  cases h1 : addAliases env aliases { designs := [], parents := ps } with
  | fail e => exact .inl rfl
  | ub => exact .inl rfl
  | ok st1 =>
    rw [h1] at hnames
    obtain ⟨-, e⟩ := addAliases_ok h1
    simp only [Res.ok_bind] at hnames ⊢
    have h2 : startDesign env st1 name = .ok { st1 with cur := { st1.cur with name := name } } := by
      unfold startDesign designNeeded
      rw [hc, e]
      simp
    by_cases hn : ({ st1.cur with name := name } : DesignDef).hasName n = true
    · have h3 : startDesign { env with choice := some n } st1 name = .ok { st1 with cur := { st1.cur with name := name } } := by
        unfold startDesign designNeeded
        simp only [hn]
        rfl
      rw [h2, h3]
      left
      simp only [Res.ok_bind, parseItems_choice]
    · have h3 : startDesign { env with choice := some n } st1 name = .fail rcError := by
        unfold startDesign designNeeded
        simp [hn]
      rw [h3]
      refine .inr ⟨rfl, ?_⟩
      intro d hd hcd
      obtain ⟨n1, n2⟩ := hnames d hd
      apply hn
      rw [← called_iff] at hcd
      unfold DesignDef.hasName DesignDef.hasAlias at hcd ⊢
      rw [n1, n2] at hcd
      rw [e]
      exact hcd

theorem parseDecls_choice {env : ParseEnv} (hc : env.choice = none) (hfull : fullParseRequired env = false) (n : Str) {d : DesignDef} (hcalled : Called d n) :
    ∀ (decls : List Decl) (ps ps' : List Bxs) (ds : List DesignDef) (early : Bool), parseDecls env decls [] ps = .ok (d :: ds, ps', early) →
      parseDecls { env with choice := some n } decls [] ps = .ok (d :: ds, ps', early) ∧ early = true ∧ ds = [] := by
  intro decls
  induction decls with
  | nil => intro ps ps' ds early h; simp [parseDecls] at h
  | cons x rest ih =>
    intro ps ps' ds early h
    cases x with
    | parent path =>
      rw [parseDecls] at h ⊢
      exact ih _ _ _ _ h
    | box name aliases items ne =>
      rw [parseDecls] at h ⊢
      have hx := parseDesign_choice hc n ps name aliases items ne
      cases h1 : parseDesign env { designs := [], parents := ps } name aliases items ne with
      | ub => rw [h1] at h; simp at h
      | fail code =>
        rw [h1] at h hx
        simp only at h
        split at h
        · simp at h
        · rename_i hcode
          obtain ⟨i1, i2⟩ := ih _ _ _ _ h
          rcases hx with hx | ⟨hx, -⟩
          · rw [hx]; simp only [if_neg hcode]; exact ⟨i1, i2⟩
          · rw [hx]; simp only [show ¬ rcError = rcAbort by decide, if_false]; exact ⟨i1, i2⟩
      | ok d0 =>
        rw [h1] at h hx
        simp only [hfull, Bool.not_false, if_true, List.nil_append, Res.ok.injEq, Prod.mk.injEq, List.cons.injEq] at h
        obtain ⟨⟨rfl, rfl⟩, rfl, rfl⟩ := h
        rcases hx with hx | ⟨hx, hno⟩
        · rw [hx]
          have hf : fullParseRequired { env with choice := some n } = false := rfl
          simp [hf]
        · exact absurd hcalled (hno _ rfl)

/-- the first design of a file is found by its name too -/
theorem parseConfigFile_choice {env : ParseEnv} (hc : env.choice = none) (hfull : fullParseRequired env = false) (n : Str) {d : DesignDef} (hcalled : Called d n)
    {contents : Bxs → Option (List Decl)} {file : Bxs} {ds : List DesignDef} {ps : List Bxs}
    (h : parseConfigFile env contents file [] = .ok (d :: ds, ps)) :
    parseConfigFile { env with choice := some n } contents file [] = .ok (d :: ds, ps) ∧ ds = [] := by
  unfold parseConfigFile at h ⊢
  cases hcon : contents file with
  | none => rw [hcon] at h; simp at h
  | some decls =>
    rw [hcon] at h
    simp only at h ⊢
    cases h1 : parseConfig { env with childConfigs := [] } decls [] with
    | ub => rw [h1] at h; simp at h
    | fail e => rw [h1] at h; simp at h
    | ok r =>
      rw [h1] at h
      simp only [Res.ok.injEq] at h
      subst h
      unfold parseConfig at h1
      obtain ⟨⟨ds1, ps1, early⟩, e1, e2⟩ := Res.bind_eq_ok.1 h1
      have hds : ds1 = d :: ds ∧ ps1 = ps := by
        simp only at e2
        repeat' split at e2
        all_goals simp_all
      obtain ⟨rfl, rfl⟩ := hds
      obtain ⟨k1, k2, k3⟩ := parseDecls_choice (env := { env with childConfigs := [] }) hc hfull n hcalled decls [] _ _ _ e1
      unfold parseConfig
      simp only at k1
      rw [k1, k2]
      exact ⟨rfl, k3⟩

theorem copyDesigns_first (new : List DesignDef) (d : DesignDef) (r : List DesignDef) : ∃ r', copyDesigns new (d :: r) = d :: r' := by
  unfold copyDesigns
  split
  · simp only [List.isEmpty_cons, Bool.false_eq_true, if_false]
    rename_i hnew
    clear hnew
    induction new generalizing r with
    | nil => exact ⟨r, rfl⟩
    | cons x new ih =>
      rw [List.foldl_cons]
      split
      · exact ih r
      · exact ih (r ++ [x])
  · exact ⟨r, rfl⟩

/-- the first design stays the first one -/
theorem mergeLoop_first {env : ParseEnv} {contents : Bxs → Option (List Decl)} : ∀ (n : Nat) (file : Bxs) (d : DesignDef) (r : List DesignDef) (ps : List Bxs) (k : Nat)
    {ds : List DesignDef} {ps' : List Bxs}, mergeLoop env contents n file (d :: r) ps k = some (.ok (ds, ps')) → ∃ r', ds = d :: r' := by
  intro n
  induction n with
  | zero => intro file d r ps k ds ps' h; simp [mergeLoop] at h
  | succ n ih =>
    intro file d r ps k ds ps' h
    rw [mergeLoop] at h
    split at h
    · simp at h
    · simp at h
    · rename_i ds1 ps1 _
      obtain ⟨r', hr'⟩ := copyDesigns_first ds1 d r
      simp only [hr'] at h
      split at h
      · exact ih _ _ _ _ _ h
      · simp only [Option.some.injEq, Res.ok.injEq, Prod.mk.injEq] at h
        exact ⟨r', h.1.symm⟩

theorem parseConfigFiles_first {env : ParseEnv} {contents : Bxs → Option (List Decl)} {n : Nat} {file : Bxs} {d e : DesignDef} {ds es : List DesignDef} {ps qs : List Bxs}
    (h : parseConfigFiles env contents n file = some (.ok (e :: es, qs))) (h1 : parseConfigFile env contents file [] = .ok (d :: ds, ps)) : e = d := by
  unfold parseConfigFiles at h
  cases n with
  | zero => simp [mergeLoop] at h
  | succ n =>
    rw [mergeLoop, h1] at h
    have hcopy : copyDesigns (d :: ds) [] = d :: ds := by simp [copyDesigns]
    simp only [hcopy] at h
    cases hp : (recordParentConfigFiles [] ps)[0]? with
    | none => rw [hp] at h; simp at h; exact h.1.1.symm
    | some f =>
      rw [hp] at h
      simp only at h
      cases hm : mergeLoop env contents n f (d :: ds) (recordParentConfigFiles [] ps) (0 + 1) with
      | none => rw [hm] at h; simp at h
      | some r =>
        rw [hm] at h
        cases r with
        | fail c => simp at h
        | ub => simp at h
        | ok q =>
          obtain ⟨q1, q2⟩ := q
          obtain ⟨r', hr'⟩ := mergeLoop_first _ _ _ _ _ _ hm
          subst hr'
          simp at h
          exact h.1.1.symm


/-- drawing uses the first design only -/
theorem run_first (s s' : Setup) (opt : Opt) (hm : opt.mend ≤ 0) (hr : opt.r = false) (d : Design) (ds ds' : List Design)
    (h1 : s'.db = s.db) (h2 : s'.junk = s.junk) (h3 : s'.pieces = s.pieces) (h4 : s'.rules 0 = s.rules 0) (h5 : s'.fuel = s.fuel) (n : Nat) :
    runProgram s' opt (d :: ds') n = runProgram s opt (d :: ds) n := by
  cases n with
  | zero => rfl
  | succ n =>
    unfold runProgram
    simp only [List.getElem?_cons_zero, List.set_cons_zero]
    generalize prepareDesign opt d = d1
    unfold mainLoop mainPhase handleInput
    have ho : { opt with r := if opt.mend = 1 then false else opt.r, mend := opt.mend - 1 } = { opt with mend := opt.mend - 1 } := by
      rw [if_neg (by omega)]
    simp only [ho, List.getElem?_cons_zero, List.set_cons_zero, h1, h2, h3, h4, h5]
    have hro : ({ opt with mend := opt.mend - 1 } : Opt).r = false := hr
    generalize (if opt.mend - 1 ≠ 0 then _ else _ : Res (Input × List Event)) = q
    cases q with
    | fail e => rfl
    | ub => rfl
    | ok q =>
      simp only [hr, ite_self, Bool.false_eq_true, if_false]
      by_cases hl : q.1.lines = []
      · simp [hl]
      · simp only [if_neg hl]
        generalize handleGenerateBox s.db _ _ _ _ = g
        cases g with
        | none => rfl
        | some r =>
          cases r with
          | fail e => rfl
          | ub => rfl
          | ok out =>
            simp only [Option.map_some, Res.ok_bind]
            rw [if_neg (by omega), if_neg (by omega)]

theorem searchLoop_named (db : CharDb) (w : Surroundings) {b : Bxs} : ∀ l : List Place, searchLoop db w l = some (some b) → ∃ p, fromUnicode db p = some b
  | [], h => by simp [searchLoop] at h
  | pl :: l, h => by
    unfold searchLoop at h
    have hutf : ∀ q : Option Str, utf8ToBxs db q = some b → ∃ p, fromUnicode db p = some b := by
      intro q hq
      obtain ⟨p, -, hp⟩ := Option.bind_eq_some_iff.1 (show q.bind (fromUnicode db) = some b from hq)
      exact ⟨p, hp⟩
    cases hl : lookAt db w pl with
    | none => rw [hl] at h; simp at h
    | some r =>
      rw [hl] at h
      cases r with
      | none => exact searchLoop_named db w l h
      | some b' =>
        simp at h
        subst h
        cases pl with
        | globalConf =>
          simp only [lookAt, Option.some.injEq] at hl
          split at hl
          · exact hutf _ hl
          · simp at hl
        | dir d =>
          cases d with
          | none => simp [lookAt] at hl
          | some d =>
            simp only [lookAt] at hl
            split at hl
            · obtain ⟨q, -, hq⟩ := Option.map_eq_some_iff.1 hl
              exact hutf q hq
            · simp at hl

theorem discover_named (db : CharDb) (w : Surroundings) {b : Bxs} (h : discoverConfigFile db w false = some (some b)) : ∃ p, fromUnicode db p = some b := by
  unfold discoverConfigFile at h
  rw [if_neg (by simp)] at h
  cases hl : locateConfigCommon w with
  | none => rw [hl] at h; simp at h
  | some x =>
    obtain ⟨q, e⟩ := x
    rw [hl] at h
    simp only [Option.bind_eq_bind, Option.bind_some] at h
    cases hu : utf8ToBxs db q with
    | some b' =>
      rw [hu] at h
      simp at h
      subst h
      obtain ⟨p, -, hp⟩ := Option.bind_eq_some_iff.1 (show q.bind (fromUnicode db) = some b' from hu)
      exact ⟨p, hp⟩
    | none =>
      rw [hu] at h
      simp only at h
      split at h
      · simp at h
      · exact searchLoop_named db w _ h

theorem noConfig_none {opts : List Option'} {a : Args} (hopts : optionLoop opts createNewOpt = some (a, false)) (hf : ∀ s, .config s ∉ opts) : a.f = none := by
  rw [(C58_last opts a hopts).2.2.1]
  unfold latest
  rw [List.filterMap_eq_nil_iff.2]
  · rfl
  · intro x hx
    cases x <;> first | rfl | exact absurd hx (hf _)

theorem noDesign_none {opts : List Option'} {a : Args} (hopts : optionLoop opts createNewOpt = some (a, false)) (hf : ∀ s, .design s ∉ opts) : a.design = none := by
  rw [(C58_last opts a hopts).2.1]
  unfold latest
  rw [List.filterMap_eq_nil_iff.2]
  · rfl
  · intro x hx
    cases x <;> first | rfl | exact absurd hx (hf _)

end Boxes
