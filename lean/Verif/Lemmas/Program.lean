import Verif.Model.Program

/-!
Helper lemmas: one round of the main loop.
-/
namespace Boxes
open ShapeName
set_option linter.unusedSimpArgs false

theorem mainPhase_mend {s : Setup} {sw sh : Nat} {w w' : World} {done : Bool} {ev : List Event}
    (h : mainPhase s sw sh w = some (.ok (done, w', ev))) : w'.opt.mend = w.opt.mend - 1 := by
  unfold mainPhase at h
  simp only at h
  split at h
  · simp at h
  · split at h
    · simp at h
    · simp at h
    · rename_i q hq
      split at h
      · simp only [Option.some.injEq, Res.ok.injEq, Prod.mk.injEq] at h
        obtain ⟨-, rfl, -⟩ := h
        rfl
      · by_cases hr : (if w.opt.mend = 1 then false else w.opt.r) = true
        · rw [if_pos hr] at h
          split at h
          · simp at h
          · simp at h
          · rename_i r hr
            simp only [Option.some.injEq, Res.ok.injEq, Prod.mk.injEq] at h
            obtain ⟨-, rfl, -⟩ := h
            unfold removePhase at hr
            simp only [Res.bind_eq_ok, Res.ok.injEq] at hr
            obtain ⟨_, _, _, _, _, _, rfl⟩ := hr
            rfl
        · rw [if_neg hr, Option.map_eq_some_iff] at h
          obtain ⟨r, hr, h⟩ := h
          simp only [Res.bind_eq_ok, Res.ok.injEq, Prod.mk.injEq] at h
          obtain ⟨out, _, -, rfl, -⟩ := h
          rfl

/-- what one round of the loop does -/
theorem mainPhase_spec {s : Setup} {sw sh : Nat} {w w' : World} {done : Bool} {ev : List Event}
    (h : mainPhase s sw sh w = some (.ok (done, w', ev))) :
    ∃ d0 i ev1, w.designs[w.cur]? = some d0 ∧
      let opt := { w.opt with r := if w.opt.mend = 1 then false else w.opt.r, mend := w.opt.mend - 1 }
      let d := { d0 with minwidth := sw, minheight := sh }
      ((w.opt.mend ≠ 1 ∧ ev1 = [.read] ∧ ∃ raw, readAllInput s.db opt s.junk s.pieces = .ok raw ∧
          analyzeInput s.db opt d (s.rules w.cur) raw = .ok i) ∨
        (w.opt.mend = 1 ∧ ev1 = [] ∧ analyzeInput s.db opt d (s.rules w.cur) w.input = .ok i)) ∧
      ((i.lines = [] ∧ done = true ∧ ev = ev1) ∨
       (i.lines ≠ [] ∧ done = false ∧ opt.r = false ∧ ∃ out, ev = ev1 ++ [.drawn out] ∧
          handleGenerateBox s.db opt (adjustSizeAndPadding opt d i) i s.fuel = some (.ok out)) ∨
       (i.lines ≠ [] ∧ done = false ∧ opt.r = true ∧ ∃ ds k d' j out, ev = ev1 ++ [.removed out] ∧
          detectDesignIfNeeded s.db (w.designs.set w.cur (adjustSizeAndPadding opt d i)) i.lines (if s.byUser then some w.cur else none) =
            .ok (k, ds) ∧ ds[k]? = some d' ∧
          handleRemoveBox s.db { opt with killblank := killblankDefault opt.killblank d } d' (s.revRules k) i = .ok (j, out) ∧
          w' = { opt := { opt with killblank := killblankDefault opt.killblank d }, designs := ds, cur := k, input := j })) := by
  unfold mainPhase at h
  simp only at h
  split at h
  · simp at h
  rename_i d0 hd0
  split at h
  · simp at h
  · simp at h
  rename_i q hq
  have hin : (w.opt.mend ≠ 1 ∧ q.2 = [.read] ∧ ∃ raw, readAllInput s.db { w.opt with r := if w.opt.mend = 1 then false else w.opt.r, mend := w.opt.mend - 1 } s.junk s.pieces = .ok raw ∧
          analyzeInput s.db { w.opt with r := if w.opt.mend = 1 then false else w.opt.r, mend := w.opt.mend - 1 } { d0 with minwidth := sw, minheight := sh } (s.rules w.cur) raw = .ok q.1) ∨
        (w.opt.mend = 1 ∧ q.2 = [] ∧ analyzeInput s.db { w.opt with r := if w.opt.mend = 1 then false else w.opt.r, mend := w.opt.mend - 1 } { d0 with minwidth := sw, minheight := sh } (s.rules w.cur) w.input = .ok q.1) := by
    unfold handleInput at hq
    simp only at hq
    by_cases hm : w.opt.mend = 1
    · rw [if_neg (by omega)] at hq
      simp only [Res.bind_eq_ok, Res.ok.injEq] at hq
      obtain ⟨i, hi, rfl⟩ := hq
      exact .inr ⟨hm, rfl, hi⟩
    · rw [if_pos (by omega)] at hq
      simp only [Res.bind_eq_ok, Res.ok.injEq] at hq
      obtain ⟨raw, hraw, i, hi, rfl⟩ := hq
      exact .inl ⟨hm, rfl, raw, hraw, hi⟩
  refine ⟨d0, q.1, q.2, hd0, hin, ?_⟩
  split at h
  · rename_i hl
    simp only [Option.some.injEq, Res.ok.injEq, Prod.mk.injEq] at h
    obtain ⟨rfl, -, rfl⟩ := h
    exact .inl ⟨hl, rfl, rfl⟩
  rename_i hl
  right
  by_cases hr : (if w.opt.mend = 1 then false else w.opt.r) = true
  · right
    rw [if_pos hr] at h
    split at h
    · simp at h
    · simp at h
    rename_i r hrm
    simp only [Option.some.injEq, Res.ok.injEq, Prod.mk.injEq] at h
    obtain ⟨rfl, rfl, rfl⟩ := h
    unfold removePhase at hrm
    simp only [Res.bind_eq_ok, Res.ok.injEq] at hrm
    obtain ⟨p, hp, d', hd', y, hy, rfl⟩ := hrm
    refine ⟨hl, rfl, hr, p.2, p.1, d', y.1, y.2, rfl, ?_, ?_, ?_, ?_⟩
    · simpa using hp
    · cases hg : p.2[p.1]? with
      | none => rw [hg] at hd'; simp at hd'
      | some x => rw [hg] at hd'; simpa using hd'
    · exact hy
    · rfl
  · left
    rw [if_neg hr, Option.map_eq_some_iff] at h
    obtain ⟨r, hrg, h⟩ := h
    simp only [Res.bind_eq_ok, Res.ok.injEq, Prod.mk.injEq] at h
    obtain ⟨out, rfl, rfl, -, rfl⟩ := h
    exact ⟨hl, rfl, by simpa using hr, out, rfl, hrg⟩

end Boxes
