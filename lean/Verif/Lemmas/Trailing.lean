/-
Lemmas for C96: drawing a box does not depend on the white space at the ends of the lines of the input, and depends on the last line
break only in the last line break of the box.
-/
import Verif.Spec.Trailing
import Verif.Lemmas.SameShown

namespace Boxes
open Spec
set_option linter.unusedSimpArgs false

private theorem escFirst {e : Str} (he : EscSeq e) (q : Str) : leadEsc (e ++ q) = e := by
  obtain ⟨r, hr⟩ := he.head
  have h := advanceNext_esc he q
  rw [hr] at h ⊢
  rw [List.cons_append] at h ⊢
  simp only [leadEsc, if_true]
  rw [h]
  show ((0x1b :: r) ++ q).take (0x1b :: r).length = 0x1b :: r
  rw [List.take_append_of_le_length (Nat.le_refl _), List.take_length]

theorem leadEsc_append {q v y : Str} (hq : Text q v) (hy : ∀ c ∈ y, c ≠ 0x1b) : leadEsc (q ++ y) = leadEsc q := by
  cases hq with
  | nil =>
    cases y with
    | nil => rfl
    | cons c r => simp [leadEsc, hy c (by simp)]
  | vis c hc _ => simp [leadEsc, hc]
  | esc e he hr => rw [List.append_assoc, escFirst he, escFirst he]

theorem btrim32_blanks (db : CharDb) {q v y : Str} (hq : Text q v) (hy : ∀ c ∈ y, c ≠ 0x1b ∧ db.white c = true) : btrim32 db (q ++ y) = btrim32 db q := by
  have hty : Text y y := Spec.Text.plain (fun c hc => (hy c hc).1)
  rcases C46_trim_input db hq with ⟨hw, e⟩ | ⟨p, x, c, e, r, z, rfl, hp, hc, hcw, hr, rfl, hz, he, -⟩
  · rw [e]
    refine btrim32_all_white db (hq.append hty) ?_
    intro d hd
    rcases List.mem_append.1 hd with hd | hd
    · exact hw d hd
    · exact (hy d hd).2
  · have ht : ∃ w, Text (e ++ r) w ∧ ∀ d ∈ w, db.white d = true := by
      rcases he with he | ⟨rfl, -⟩
      · exact ⟨z, .esc e he hr, hz⟩
      · exact ⟨z, hr, hz⟩
    obtain ⟨w, ht, hw⟩ := ht
    rw [btrim32_text db hp hc ht hcw hw, List.append_assoc, List.cons_append,
      btrim32_text db hp hc (ht.append hty) hcw (by
        intro d hd
        rcases List.mem_append.1 hd with hd | hd
        · exact hw d hd
        · exact (hy d hd).2), leadEsc_append ht (fun c hc => (hy c hc).1)]

theorem readLines_blanks (db : CharDb) (opt : Opt) (hr : opt.r = false) (junk : Nat) : ∀ ss ss' : List Str, SameStarts db ss ss' →
    readLines db opt junk ss = readLines db opt junk ss'
  | [], [], _ => rfl
  | [], _ :: _, h => absurd h.1 (by simp)
  | _ :: _, [], h => absurd h.1 (by simp)
  | s :: ss, s' :: ss', h => by
    obtain ⟨q, v, y, y', rfl, rfl, hq, hy⟩ := h.2 0 s s' rfl rfl
    have h1 : readLine db opt junk (q ++ y) = readLine db opt junk (q ++ y') := by
      have e : trimCarefully db opt junk (q ++ y) = trimCarefully db opt junk (q ++ y') := by
        unfold trimCarefully
        rw [if_neg (by simp [hr]), if_neg (by simp [hr]), btrim32_blanks db hq (fun c hc => hy c (by simp [hc])), btrim32_blanks db hq (fun c hc => hy c (by simp [hc]))]
      unfold readLine
      rw [e]
    unfold readLines
    rw [h1, readLines_blanks db opt hr junk ss ss' ⟨by simpa using h.1, fun i s s' hs hs' => h.2 (i + 1) s s' (by simpa using hs) (by simpa using hs')⟩]

/-- lines with the line end of the last one set -/
def endLast (e : Str) : List (Bxs × Str) → List (Bxs × Str)
  | [] => []
  | [(b, _)] => [(b, e)]
  | x :: y :: more => x :: endLast e (y :: more)

theorem outputLoop_length (db : CharDb) (opt : Opt) (d : Design) (i : Input) (box : Sides Shape) (lay : Layout) : ∀ (n j vf : Nat) {out : List (Bxs × Str)},
    outputLoop db opt d i box lay n j vf = .ok out → out.length = n
  | 0, _, _, out, h => by
    simp only [outputLoop, Res.ok.injEq] at h
    subst h; rfl
  | n + 1, j, vf, out, h => by
    unfold outputLoop at h
    obtain ⟨⟨row, vf'⟩, h1, h⟩ := Res.bind_eq_ok.1 h
    obtain ⟨t, h2, h⟩ := Res.bind_eq_ok.1 h
    obtain ⟨more, h3, h⟩ := Res.bind_eq_ok.1 h
    simp only [Res.ok.injEq] at h
    subst h
    simp [outputLoop_length db opt d i box lay n (j + 1) vf' h3]

theorem outputLoop_final (db : CharDb) (opt : Opt) (d : Design) (i : Input) (box : Sides Shape) (lay : Layout) : ∀ (n j vf : Nat),
    outputLoop db opt d { i with finalNewline := true } box lay n j vf =
      (do let out ← outputLoop db opt d { i with finalNewline := false } box lay n j vf; .ok (endLast opt.eol out))
  | 0, _, _ => rfl
  | n + 1, j, vf => by
    unfold outputLoop
    have h1 : outputRow db opt d { i with finalNewline := true } box lay j vf = outputRow db opt d { i with finalNewline := false } box lay j vf := rfl
    rw [h1]
    cases outputRow db opt d { i with finalNewline := false } box lay j vf with
    | fail k => rfl
    | ub => rfl
    | ok q =>
      obtain ⟨row, vf'⟩ := q
      simp only [Res.ok_bind]
      rw [outputLoop_final db opt d i box lay n (j + 1) vf']
      cases Res.get (row.rtrim db) with
      | fail k => rfl
      | ub => rfl
      | ok t =>
        simp only [Res.ok_bind]
        cases hm : outputLoop db opt d { i with finalNewline := false } box lay n (j + 1) vf' with
        | fail k => rfl
        | ub => rfl
        | ok more =>
          have hl := outputLoop_length _ _ _ _ _ _ _ _ _ hm
          simp only [Res.ok_bind, Res.ok.injEq]
          cases more with
          | nil => simp [endLast]
          | cons x more =>
            simp only [List.length_cons] at hl
            simp [endLast, ← hl]

theorem renderBox_final (color : Bool) (e : Str) : ∀ (out : List (Bxs × Str)) {x : Bxs × Str}, out.getLast? = some x → x.2 = [] → 
    renderBox color (endLast e out) = (do let t ← renderBox color out; .ok (t ++ e))
  | [], _, h, _ => by simp at h
  | [(b, e')], x, h, hx => by
    simp only [List.getLast?_singleton, Option.some.injEq] at h
    subst h
    simp only at hx
    subst hx
    simp only [endLast, renderBox]
    cases Res.get (b.toOutput color) with
    | fail k => rfl
    | ub => rfl
    | ok t => simp [Res.ok_bind]
  | (b, e') :: y :: more, x, h, hx => by
    have ih := renderBox_final color e (y :: more) (x := x) (by simpa [List.getLast?_cons_cons] using h) hx
    have e1 : endLast e ((b, e') :: y :: more) = (b, e') :: endLast e (y :: more) := rfl
    rw [e1]
    have e2 : ∀ l, renderBox color ((b, e') :: l) = (do let s ← Res.get (b.toOutput color); let r ← renderBox color l; .ok (s ++ e' ++ r)) := fun _ => rfl
    rw [e2, e2, ih]
    cases Res.get (b.toOutput color) with
    | fail k => rfl
    | ub => rfl
    | ok t =>
      simp only [Res.ok_bind]
      cases renderBox color (y :: more) with
      | fail k => rfl
      | ub => rfl
      | ok u => simp [Res.ok_bind]

theorem analyzeInput_final (db : CharDb) (opt : Opt) (d : Design) (rules : List Subst) (i : Input) (b : Bool) :
    analyzeInput db opt d rules { i with finalNewline := b } = (do let j ← analyzeInput db opt d rules i; .ok { j with finalNewline := b }) := by
  unfold analyzeInput
  simp only
  cases maxCols i.lines 0 with
  | fail k => rfl
  | ub => rfl
  | ok m =>
    simp only [Res.ok_bind]
    by_cases hl : i.lines = []
    · rw [if_pos hl, if_pos hl]; rfl
    · rw [if_neg hl, if_neg hl]
      cases getIndent i.lines with
      | fail k => rfl
      | ub => rfl
      | ok n =>
        simp only [Res.ok_bind]
        have sub : ∀ j : Input, applySubstitutions db d rules { j with finalNewline := b } =
            (do let k ← applySubstitutions db d rules j; .ok { k with finalNewline := b }) := by
          intro j
          unfold applySubstitutions
          simp only
          cases substLines db rules j.lines j.maxline with
          | fail k => rfl
          | ub => rfl
          | ok q =>
            simp only [Res.ok_bind]
            by_cases ht : d.indentmode = 't'
            · rw [if_pos ht, if_pos ht]
              cases getIndent q.1 <;> rfl
            · rw [if_neg ht, if_neg ht]; rfl
        have rest : ∀ j : Input, (if opt.r = false then applySubstitutions db d rules { j with finalNewline := b } else .ok { j with finalNewline := b }) =
            (do let k ← (if opt.r = false then applySubstitutions db d rules j else .ok j); .ok { k with finalNewline := b } : Res Input) := by
          intro j
          by_cases hr : opt.r = false
          · rw [if_pos hr, if_pos hr]; exact sub j
          · rw [if_neg hr, if_neg hr]; rfl
        by_cases hu : d.indentmode ≠ 't' ∧ opt.r = false
        · rw [if_pos hu, if_pos hu]
          cases unindentLines db n i.lines with
          | fail k => rfl
          | ub => rfl
          | ok ls =>
            simp only [Res.ok_bind]
            cases Res.sub m n with
            | fail k => rfl
            | ub => rfl
            | ok m' =>
              simp only [Res.ok_bind]
              exact rest { i with lines := ls, maxline := m', indent := n }
        · rw [if_neg hu, if_neg hu]
          simp only [Res.ok_bind]
          exact rest { i with maxline := m, indent := n }

theorem outputBox_final (db : CharDb) (opt : Opt) (d : Design) (i : Input) (box : Sides Shape) :
    outputBox db opt d { i with finalNewline := true } box =
      (do let out ← outputBox db opt d { i with finalNewline := false } box; .ok (endLast opt.eol out)) := by
  unfold outputBox
  simp only
  cases vertFill opt d box i.lines.length with
  | fail k => rfl
  | ub => rfl
  | ok v =>
    simp only [Res.ok_bind]
    cases horizFill opt d box i.maxline with
    | fail k => rfl
    | ub => rfl
    | ok h =>
      simp only [Res.ok_bind]
      cases Res.sub box.right.height (if emptySide d.shape southSide then (d.shape ShapeName.SW).height else 0) with
      | fail k => rfl
      | ub => rfl
      | ok stop =>
        simp only [Res.ok_bind]
        exact outputLoop_final _ _ _ _ _ _ _ _ _

theorem outputLoop_unended (db : CharDb) (opt : Opt) (d : Design) (i : Input) (hi : i.finalNewline = false) (box : Sides Shape) (lay : Layout) : ∀ (n j vf : Nat)
    {out : List (Bxs × Str)}, outputLoop db opt d i box lay n j vf = .ok out → ∀ x, out.getLast? = some x → x.2 = []
  | 0, _, _, out, h => by
    simp only [outputLoop, Res.ok.injEq] at h
    subst h; simp
  | n + 1, j, vf, out, h => by
    unfold outputLoop at h
    obtain ⟨⟨row, vf'⟩, h1, h⟩ := Res.bind_eq_ok.1 h
    obtain ⟨t, h2, h⟩ := Res.bind_eq_ok.1 h
    obtain ⟨more, h3, h⟩ := Res.bind_eq_ok.1 h
    simp only [Res.ok.injEq] at h
    subst h
    have hl := outputLoop_length _ _ _ _ _ _ _ _ _ h3
    have ih := outputLoop_unended db opt d i hi box lay n (j + 1) vf' h3
    intro x hx
    cases more with
    | nil =>
      simp only [List.getLast?_singleton, Option.some.injEq] at hx
      subst hx
      simp only [List.length_nil] at hl
      simp [hi, ← hl]
    | cons y more => exact ih x (by simpa [List.getLast?_cons_cons] using hx)

theorem outputBox_unended {db : CharDb} {opt : Opt} {d : Design} {i : Input} (hi : i.finalNewline = false) {box : Sides Shape} {out : List (Bxs × Str)}
    (h : outputBox db opt d i box = .ok out) : ∀ x, out.getLast? = some x → x.2 = [] := by
  unfold outputBox at h
  obtain ⟨⟨a, b, c⟩, h1, h⟩ := Res.bind_eq_ok.1 h
  obtain ⟨⟨e, f⟩, h2, h⟩ := Res.bind_eq_ok.1 h
  obtain ⟨stop, h3, h⟩ := Res.bind_eq_ok.1 h
  exact outputLoop_unended db opt d i hi box _ _ _ _ h

/-- has the last piece a line break? -/
def finalBreak (ss : List Str) : Bool :=
  match ss.getLast? with
  | some s => hasLinebreak s
  | none => false

theorem readAll_eq (db : CharDb) (opt : Opt) (junk : Nat) (ss : List Str) : readAllInput db opt junk ss =
    (do let ls ← readLines db opt junk ss
        .ok { ({ lines := ls, maxline := 0, indent := lineMaxBytes } : Input) with finalNewline := finalBreak ss } : Res Input) := rfl

theorem finalBreak_iff (ss : List Str) : finalBreak ss = true ↔ EndsInBreak ss := by
  unfold EndsInBreak finalBreak
  constructor
  · intro h
    cases hl : ss.getLast? with
    | none => simp [hl] at h
    | some s =>
      simp only [hl, hasLinebreak] at h
      cases hc : s.getLast? with
      | none => simp [hc] at h
      | some c =>
        simp only [hc, Bool.or_eq_true, beq_iff_eq] at h
        obtain ⟨a, rfl⟩ := List.getLast?_eq_some_iff.1 hl
        obtain ⟨p, rfl⟩ := List.getLast?_eq_some_iff.1 hc
        exact ⟨a, p, c, rfl, h.elim .inr .inl⟩
  · rintro ⟨a, p, c, rfl, h⟩
    simp only [List.getLast?_append, List.getLast?_singleton, Option.some_or, hasLinebreak, Bool.or_eq_true, beq_iff_eq]
    exact h.elim .inr .inl

/-- drawing does not depend on the blanks at the ends of the lines -/
theorem drawOnce_blanks (db : CharDb) (opt : Opt) (hr : opt.r = false) (d : Design) (rules : List Subst) (junk fuel : Nat) {ss ss' : List Str}
    (h : SameStarts db ss ss') :
    ((EndsInBreak ss ↔ EndsInBreak ss') → drawOnce db opt d rules junk ss' fuel = drawOnce db opt d rules junk ss fuel) ∧
    (EndsInBreak ss → ¬ EndsInBreak ss' → drawOnce db opt d rules junk ss fuel =
      (drawOnce db opt d rules junk ss' fuel).map (fun r => (do let out ← r; .ok (endLast opt.eol out) : Res (List (Bxs × Str))))) ∧
    (¬ EndsInBreak ss' → ∀ out, drawOnce db opt d rules junk ss' fuel = some (.ok out) → ∀ x, out.getLast? = some x → x.2 = []) := by
  have f1 := finalBreak_iff ss
  have f2 := finalBreak_iff ss'
  have hb := readLines_blanks db opt hr junk ss ss' h
  refine ⟨fun he => ?_, fun h1 h2 => ?_, fun h2 out ho => ?_⟩
  · have e : readAllInput db opt junk ss' = readAllInput db opt junk ss := by
      rw [readAll_eq, readAll_eq, hb]
      have : finalBreak ss' = finalBreak ss := by rw [Bool.eq_iff_iff, f1, f2, he]
      rw [this]
    unfold drawOnce
    rw [e]
  · have e1 := f1.2 h1
    have e2 : finalBreak ss' = false := by
      cases hf : finalBreak ss' with
      | false => rfl
      | true => exact absurd (f2.1 hf) h2
    unfold drawOnce
    rw [readAll_eq, readAll_eq, hb, e1, e2]
    cases readLines db opt junk ss' with
    | fail k => rfl
    | ub => rfl
    | ok ls =>
      simp only [Res.ok_bind]
      have b1 := analyzeInput_final db opt d rules { lines := ls, maxline := 0, indent := lineMaxBytes } true
      have b2 := analyzeInput_final db opt d rules { lines := ls, maxline := 0, indent := lineMaxBytes } false
      simp only at b1 b2
      rw [b1, b2]
      cases analyzeInput db opt d rules { lines := ls, maxline := 0, indent := lineMaxBytes } with
      | fail k => rfl
      | ub => rfl
      | ok j =>
        simp only [Res.ok_bind]
        by_cases hj : j.lines = []
        · rw [if_pos hj, if_pos hj]; rfl
        · rw [if_neg hj, if_neg hj]
          unfold handleGenerateBox
          have a1 : adjustSizeAndPadding opt d { j with finalNewline := true } = adjustSizeAndPadding opt d { j with finalNewline := false } := rfl
          rw [a1]
          generalize adjustSizeAndPadding opt d { j with finalNewline := false } = d'
          have a2 : generateBox db d' { j with finalNewline := true } fuel = generateBox db d' { j with finalNewline := false } fuel := rfl
          rw [a2]
          cases generateBox db d' { j with finalNewline := false } fuel with
          | none => rfl
          | some r =>
            cases r with
            | fail k => rfl
            | ub => rfl
            | ok box =>
              simp only [Option.map_some, Res.ok_bind, outputBox_final]
  · have e2 : finalBreak ss' = false := by
      cases hf : finalBreak ss' with
      | false => rfl
      | true => exact absurd (f2.1 hf) h2
    unfold drawOnce at ho
    rw [readAll_eq, e2] at ho
    cases hl : readLines db opt junk ss' with
    | fail k => simp [hl] at ho
    | ub => simp [hl] at ho
    | ok ls =>
      rw [hl] at ho
      simp only [Res.ok_bind] at ho
      have b2 := analyzeInput_final db opt d rules { lines := ls, maxline := 0, indent := lineMaxBytes } false
      simp only at b2
      rw [b2] at ho
      cases ha : analyzeInput db opt d rules { lines := ls, maxline := 0, indent := lineMaxBytes } with
      | fail k => simp [ha] at ho
      | ub => simp [ha] at ho
      | ok j =>
        rw [ha] at ho
        simp only [Res.ok_bind] at ho
        by_cases hj : j.lines = []
        · rw [if_pos hj] at ho
          simp only [Option.some.injEq, Res.ok.injEq] at ho
          subst ho; simp
        · rw [if_neg hj] at ho
          unfold handleGenerateBox at ho
          obtain ⟨r, hr1, hr2⟩ := Option.map_eq_some_iff.1 ho
          obtain ⟨box, rfl, hr3⟩ := Res.bind_eq_ok.1 hr2
          exact outputBox_unended rfl hr3


/-- the main task when it draws -/
theorem mainTask_blanks (m : Machine) (input' : Option Str → List Str) (a : Args) (hm : a.opt.mend = 0) (hr : a.opt.r = false)
    (h : SameStarts m.db (m.input a.infile) (input' a.infile)) (file : Bxs) (ds : List DesignDef) (ps : List Bxs) (f : Bxs) (fuel : Nat) :
    ((EndsInBreak (m.input a.infile) ↔ EndsInBreak (input' a.infile)) →
      mainTask { m with input := input' } a file ds ps f fuel = mainTask m a file ds ps f fuel) ∧
    (EndsInBreak (m.input a.infile) → ¬ EndsInBreak (input' a.infile) → a.l = false → a.query.getD [] = [] → ∀ t, t ≠ [] →
      mainTask { m with input := input' } a file ds ps f fuel = some (.ok t) → mainTask m a file ds ps f fuel = some (.ok (t ++ a.opt.eol))) := by
  unfold mainTask
  simp only
  by_cases hl : a.l = true
  · simp [hl]
  · by_cases hq : a.query.getD [] ≠ []
    · simp [hl, hq]
    · simp only [hl, hq, if_false, Bool.false_eq_true]
      have hrules : ∀ g : DesignDef → List Rule, rulesOf { m with input := input' } g ds = rulesOf m g ds := fun _ => rfl
      cases ds with
      | nil => simp [runProgram]
      | cons d ds =>
        cases fuel with
        | zero => simp [runProgram, mainLoop]
        | succ n =>
          simp only [List.map_cons, hrules]
          rw [run_draw _ _ hm hr, run_draw _ _ hm hr]
          simp only
          obtain ⟨b1, b2, b3⟩ := drawOnce_blanks m.db a.opt hr (prepareDesign a.opt d.core) (rulesOf m (fun x => x.reprules) (d :: ds) 0) m.junk (n + 1) h
          refine ⟨fun he => by rw [b1 he], fun h1 h2 _ _ t ht hrun => ?_⟩
          rw [b2 h1 h2]
          obtain ⟨r, e1, e2⟩ := Option.map_eq_some_iff.1 hrun
          obtain ⟨out, rfl, e3⟩ := Res.bind_eq_ok.1 e2
          rw [e1]
          simp only [Option.map_some, Res.ok_bind, Option.some.injEq]
          cases hx : out.getLast? with
          | none =>
            rw [List.getLast?_eq_none_iff] at hx
            subst hx
            simp only [renderBox, Res.ok.injEq] at e3
            exact absurd e3.symm ht
          | some x =>
            rw [renderBox_final _ _ out hx (b3 h2 out e1 x hx), e3]
            rfl

theorem sameStarts_nil (db : CharDb) : SameStarts db [] [] := ⟨rfl, fun i s s' h => by simp at h⟩

theorem sameStarts_cons {db : CharDb} {q v y y' : Str} {ss ss' : List Str} (hq : Text q v) (hy : ∀ c ∈ y ++ y', c ≠ 0x1b ∧ db.white c = true)
    (h : SameStarts db ss ss') : SameStarts db ((q ++ y) :: ss) ((q ++ y') :: ss') := by
  refine ⟨by simp [h.1], fun i s s' hs hs' => ?_⟩
  cases i with
  | zero =>
    simp only [List.getElem?_cons_zero, Option.some.injEq] at hs hs'
    exact ⟨q, v, y, y', hs.symm, hs'.symm, hq, hy⟩
  | succ i => exact h.2 i s s' (by simpa using hs) (by simpa using hs')

end Boxes
