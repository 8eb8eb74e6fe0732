import Verif.Lemmas.Alike
import Verif.Props.Hits
import Verif.Props.Restored
import Verif.Spec.Found

/-!
# Finding the design of a box
-/
namespace Boxes
open Spec ShapeName
set_option linter.unusedSimpArgs false

/-! ## the designs are the same afterwards, except for the caches -/

theorem isBlankward_bare {db : CharDb} {d : Design} {n : ShapeName} {i : Nat} {l : Bool} {q : Bool × Design}
    (h : isBlankward db d n i l = .ok q) : bare q.2 = bare d := by
  unfold isBlankward at h
  dsimp only at h
  split at h
  · simp only [Res.ok.injEq] at h; subst h; rfl
  · split at h
    · simp only [Res.ok.injEq] at h; subst h; rfl
    · simp only [Res.bind_eq_ok] at h
      obtain ⟨r, -, h⟩ := h
      split at h
      · simp only [Res.ok.injEq] at h
        subst h
        unfold bare Design.setShape
        simp only
        congr 1
        funext m
        by_cases hm : m = n
        · subst hm
          simp only [if_pos, Shape.setCache]
          split <;> rfl
        · simp only [if_neg hm]
      · cases h

theorem horizLoop_keeps {db : CharDb} {lines : List Line} {c : CompType} {x : ShapeName} : ∀ (n j : Nat) {d : Design} {q : Nat × Design},
    horizLoop db lines c x n j d = .ok q → bare q.2 = bare d
  | 0, _, d, q, h => by simp only [horizLoop, Res.ok.injEq] at h; subst h; rfl
  | n + 1, j, d, q, h => by
    simp only [horizLoop, Res.bind_eq_ok] at h
    obtain ⟨b, -, h⟩ := h
    split at h
    · exact horizLoop_keeps n (j + 1) h
    · simp only [Res.bind_eq_ok, Res.ok.injEq] at h
      obtain ⟨q1, h1, q2, h2, s, -, hits, -, more, h3, rfl⟩ := h
      exact (horizLoop_keeps n (j + 1) h3).trans ((isBlankward_bare h2).trans (isBlankward_bare h1))

theorem matchShape_keeps {db : CharDb} {lines : List Line} {c : CompType} {s : Sides Bool} {x : ShapeName} {d : Design} {q : Nat × Design}
    (h : matchShape db d lines c s x = .ok q) : bare q.2 = bare d := by
  cases x
  case NNW | N | NNE | SSE | S | SSW =>
    simp only [matchShape, findHorizontalShape] at h
    split at h
    · simp only [Res.ok.injEq] at h; subst h; rfl
    · exact horizLoop_keeps _ _ h
  all_goals
    simp only [matchShape, Res.bind_eq_ok, Res.ok.injEq] at h
    obtain ⟨x, -, rfl⟩ := h
    rfl

theorem matchShapes_keeps {db : CharDb} {lines : List Line} {c : CompType} {s : Sides Bool} : ∀ (l : List ShapeName) {d : Design} {q : Nat × Design},
    matchShapes db lines c s l d = .ok q → bare q.2 = bare d
  | [], d, q, h => by simp only [matchShapes, Res.ok.injEq] at h; subst h; rfl
  | x :: l, d, q, h => by
    simp only [matchShapes, Res.bind_eq_ok, Res.ok.injEq] at h
    obtain ⟨q1, h1, q2, h2, rfl⟩ := h
    exact (matchShapes_keeps l h2).trans (matchShape_keeps h1)

theorem matchDesign_keeps {db : CharDb} {d : Design} {lines : List Line} {c : CompType} {q : Nat × Design}
    (h : matchDesign db d lines c = .ok q) : bare q.2 = bare d := matchShapes_keeps _ h

/-! ## one round -/

theorem detectRound_stays {D : Type} {score : D → Res (Nat × D)} {viable : D → Res Bool} : ∀ (ds : List D) (i : Nat) (b : Option Nat × Nat),
    (∀ d ∈ ds, ∃ v, viable d = .ok v ∧ (v = true → ∃ q, score d = .ok q ∧ q.1 ≤ b.2)) → ∃ ds', detectRound score viable ds i b = .ok (b, ds')
  | [], _, b, _ => ⟨[], rfl⟩
  | d :: r, i, b, h => by
    obtain ⟨ds', hr⟩ := detectRound_stays r (i + 1) b (fun x hx => h x (by simp [hx]))
    obtain ⟨v, h1, h2⟩ := h d (by simp)
    unfold detectRound
    simp only [h1, Res.ok_bind]
    cases v with
    | false => exact ⟨d :: ds', by simp [hr]⟩
    | true =>
      obtain ⟨q, h3, h4⟩ := h2 rfl
      refine ⟨q.2 :: ds', ?_⟩
      simp only [if_true, h3, Res.ok_bind]
      rw [if_neg (by omega), hr]
      rfl

theorem detectRound_wins {D : Type} {score : D → Res (Nat × D)} {viable : D → Res Bool} {w w' : D} {m : Nat}
    (hw : viable w = .ok true) (hs : score w = .ok (m, w')) : ∀ (ds : List D) (i k : Nat) (b : Option Nat × Nat), b.2 < m → ds[k]? = some w →
    (∀ (j : Nat) d, ds[j]? = some d → ∃ v, viable d = .ok v ∧ (v = true → ∃ q, score d = .ok q ∧ (j ≠ k → q.1 ≤ m ∧ (j < k → q.1 < m)))) →
    ∃ ds', detectRound score viable ds i b = .ok ((some (i + k), m), ds') ∧ ds'[k]? = some w'
  | [], _, k, _, _, h, _ => by simp at h
  | d :: r, i, 0, b, hb, hk, h => by
    simp only [List.getElem?_cons_zero, Option.some.injEq] at hk
    subst hk
    obtain ⟨ds', hr⟩ := detectRound_stays (score := score) (viable := viable) r (i + 1) (some i, m) (by
      intro x hx
      obtain ⟨j, hj⟩ := List.getElem?_of_mem hx
      obtain ⟨v, h1, h2⟩ := h (j + 1) x (by simpa using hj)
      refine ⟨v, h1, fun hv => ?_⟩
      obtain ⟨q, h3, h4⟩ := h2 hv
      exact ⟨q, h3, (h4 (by omega)).1⟩)
    refine ⟨w' :: ds', ?_, by simp⟩
    unfold detectRound
    simp only [hw, Res.ok_bind, if_true, hs]
    rw [if_pos (by omega), hr]
    rfl
  | d :: r, i, k + 1, b, hb, hk, h => by
    obtain ⟨v, h1, h2⟩ := h 0 d (by simp)
    have key : ∀ b' : Option Nat × Nat, b'.2 < m → ∃ ds', detectRound score viable r (i + 1) b' = .ok ((some (i + (k + 1)), m), ds') ∧ ds'[k]? = some w' := by
      intro b' hb'
      obtain ⟨ds', e1, e2⟩ := detectRound_wins hw hs r (i + 1) k b' hb' (by simpa using hk) (by
        intro j x hj
        obtain ⟨v, a1, a2⟩ := h (j + 1) x (by simpa using hj)
        refine ⟨v, a1, fun hv => ?_⟩
        obtain ⟨q, a3, a4⟩ := a2 hv
        exact ⟨q, a3, fun hne => ⟨(a4 (by omega)).1, fun hlt => (a4 (by omega)).2 (by omega)⟩⟩)
      exact ⟨ds', by rw [e1]; congr 4; omega, e2⟩
    unfold detectRound
    simp only [h1, Res.ok_bind]
    cases v with
    | false =>
      obtain ⟨ds', e1, e2⟩ := key b hb
      exact ⟨d :: ds', by simp [e1], by simpa using e2⟩
    | true =>
      obtain ⟨q, h3, h4⟩ := h2 rfl
      have hlt := (h4 (by omega)).2 (by omega)
      simp only [if_true, h3, Res.ok_bind]
      by_cases hq : q.1 > b.2
      · rw [if_pos hq]
        obtain ⟨ds', e1, e2⟩ := key (some i, q.1) hlt
        exact ⟨q.2 :: ds', by simp [e1], by simpa using e2⟩
      · rw [if_neg hq]
        obtain ⟨ds', e1, e2⟩ := key b hb
        exact ⟨q.2 :: ds', by simp [e1], by simpa using e2⟩

/-! ## colour -/

theorem inputIsMono_plain : ∀ (lines : List Line), (∀ l ∈ lines, ∃ b, l.text = some b ∧ b.invis = 0) → inputIsMono lines = .ok true
  | [], _ => rfl
  | l :: r, h => by
    obtain ⟨b, h1, h2⟩ := h l (by simp)
    simp only [inputIsMono, h1, Res.get_some, Res.ok_bind, h2]
    rw [if_neg (by omega)]
    exact inputIsMono_plain r (fun x hx => h x (by simp [hx]))

theorem shapeIsMono_total (ls : List Bxs) : ∀ n i, i + n ≤ ls.length → ∃ m, shapeIsMono ls n i = .ok m
  | 0, _, _ => ⟨true, rfl⟩
  | n + 1, i, h => by
    obtain ⟨m, hm⟩ := shapeIsMono_total ls n (i + 1) (by omega)
    simp only [shapeIsMono, List.getElem?_eq_getElem (show i < ls.length by omega), Res.get_some, Res.ok_bind]
    split
    · exact ⟨_, rfl⟩
    · exact ⟨m, hm⟩

theorem designIsMono_counted {d : Design} (h : ∀ n, (d.shape n).lines.length = (d.shape n).height) : ∃ m, designIsMono d = .ok m := by
  unfold designIsMono
  generalize allShapes = l
  induction l with
  | nil => exact ⟨true, rfl⟩
  | cons n r ih =>
    unfold shapesAreMono
    split
    · exact ih
    · obtain ⟨m, hm⟩ := shapeIsMono_total (d.shape n).lines (d.shape n).height 0 (by rw [h]; omega)
      simp only [hm, Res.ok_bind]
      cases m with
      | true => simpa using ih
      | false => exact ⟨_, rfl⟩

end Boxes
