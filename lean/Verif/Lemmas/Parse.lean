import Verif.Spec.Parse
import Verif.Lemmas.Precalc
import Verif.Lemmas.Box

/-!
# Lemmas about the parser: checks and completion of shapes
-/
namespace Boxes
open Spec ShapeName
set_option linter.unusedSimpArgs false

theorem isEmpty_iff_not_present (s : Shape) : s.isEmpty = true ↔ ¬ Present s := by
  rw [← present_iff]; simp

theorem sameMeasure_iff (l : List Nat) : sameMeasure l = true ↔ ∀ a ∈ l, ∀ b ∈ l, a ≠ 0 → b ≠ 0 → a = b := by
  induction l with
  | nil => simp [sameMeasure]
  | cons x rest ih =>
    unfold sameMeasure
    rw [Bool.and_eq_true, ih]
    constructor
    · rintro ⟨h1, h2⟩ a ha b hb ha0 hb0
      have key : ∀ b ∈ rest, x ≠ 0 → b ≠ 0 → x = b := by
        intro b hb hx hb0
        simp only [Bool.or_eq_true, beq_iff_eq, List.all_eq_true] at h1
        rcases h1 with h | h
        · exact absurd h hx
        · rcases h b hb with h' | h'
          · exact absurd h' hb0
          · exact h'
      rcases List.mem_cons.1 ha with ea | ha' <;> rcases List.mem_cons.1 hb with eb | hb'
      · rw [ea, eb]
      · rw [ea] at ha0 ⊢; exact key b hb' ha0 hb0
      · rw [eb] at hb0 ⊢; exact (key a ha' hb0 ha0).symm
      · exact h2 a ha' b hb' ha0 hb0
    · intro h
      refine ⟨?_, fun a ha b hb => h a (List.mem_cons_of_mem _ ha) b (List.mem_cons_of_mem _ hb)⟩
      simp only [Bool.or_eq_true, beq_iff_eq, List.all_eq_true]
      by_cases hx : x = 0
      · exact Or.inl hx
      · right
        intro b hb
        by_cases hb0 : b = 0
        · exact Or.inl hb0
        · exact Or.inr (h x List.mem_cons_self b (List.mem_cons_of_mem _ hb) hx hb0)

/-- the check of one side -/
theorem side_check (shape : ShapeName → Shape) (a b c : ShapeName)
    (hex : ∀ n, (shape n).elastic = true → Present (shape n)) :
    ((((List.filter (fun n => (shape n).elastic) [a, b, c]).length == 1 || (List.filter (fun n => (shape n).elastic) [a, b, c]).length == 2)
      && adjoiningLoop shape [a, b, c] false) = true) ↔ Stretchable (shape a) (shape b) (shape c) := by
  unfold Stretchable
  have ha := hex a; have hb := hex b; have hc := hex c
  rw [← present_iff] at ha hb hc
  rw [← present_iff]
  cases h1 : (shape a).elastic <;> cases h2 : (shape b).elastic <;> cases h3 : (shape c).elastic <;>
    cases e1 : (shape a).isEmpty <;> cases e2 : (shape b).isEmpty <;> cases e3 : (shape c).isEmpty <;>
    simp_all [adjoiningLoop, List.filter]

theorem seCheck_iff (shape : ShapeName → Shape) : seCheck shape = true ↔ ElasticOk shape := by
  have hall : elasticsExist shape = true ↔ ∀ n, (shape n).elastic = true → Present (shape n) := by
    unfold elasticsExist
    rw [List.all_eq_true]
    constructor
    · intro h n hn
      have := h n (by cases n <;> simp [allShapes])
      rw [← present_iff]
      simpa [hn] using this
    · intro h n _
      have := h n
      rw [← present_iff] at this
      cases he : (shape n).elastic
      · simp
      · simp [this he]
  unfold seCheck
  constructor
  · intro h
    simp only [Bool.and_eq_true] at h
    obtain ⟨⟨⟨h1, h2⟩, h3⟩, h4⟩ := h
    have hex := hall.1 h1
    have hs : ∀ side ∈ sideList, ∀ a b c, midShapes side = [a, b, c] → Stretchable (shape a) (shape b) (shape c) := by
      intro side hside a b c hm
      rw [← side_check shape a b c hex, Bool.and_eq_true]
      unfold sufficientElasticity at h3
      unfold noAdjoiningElastics at h4
      have h3' := List.all_eq_true.1 h3 side hside
      have h4' := List.all_eq_true.1 h4 side hside
      rw [hm] at h3' h4'
      exact ⟨h3', h4'⟩
    refine ⟨hex, ?_, hs northSide (by simp [sideList]) _ _ _ rfl, hs eastSide (by simp [sideList]) _ _ _ rfl,
      hs southSide (by simp [sideList]) _ _ _ rfl, hs westSide (by simp [sideList]) _ _ _ rfl⟩
    intro n hn
    have := List.all_eq_true.1 h2 n hn
    simpa using this
  · intro h
    have hex := h.exist
    simp only [Bool.and_eq_true]
    have t := (side_check shape _ _ _ hex).2 h.top
    have r := (side_check shape _ _ _ hex).2 h.right
    have b := (side_check shape _ _ _ hex).2 h.bottom
    have l := (side_check shape _ _ _ hex).2 h.left
    rw [Bool.and_eq_true] at t r b l
    refine ⟨⟨⟨hall.2 hex, ?_⟩, ?_⟩, ?_⟩
    · unfold cornerCheck
      rw [List.all_eq_true]
      intro n hn
      simp [h.corner n hn]
    · unfold sufficientElasticity
      rw [List.all_eq_true]
      intro side hside
      simp only [sideList, List.mem_cons, List.not_mem_nil, or_false] at hside
      rcases hside with rfl | rfl | rfl | rfl
      · exact t.1
      · exact r.1
      · exact b.1
      · exact l.1
    · unfold noAdjoiningElastics
      rw [List.all_eq_true]
      intro side hside
      simp only [sideList, List.mem_cons, List.not_mem_nil, or_false] at hside
      rcases hside with rfl | rfl | rfl | rfl
      · exact t.2
      · exact r.2
      · exact b.2
      · exact l.2

theorem Spec.Solid.zero {s : Shape} (h : Solid s) (hp : ¬ Present s) : s.lines = [] ∧ s.width = 0 ∧ s.height = 0 := by
  have hl : s.lines = [] := by
    cases hl : s.lines with
    | nil => rfl
    | cons b bs =>
      exact absurd ⟨by simp [hl], h.wide (by simp [hl]), by rw [← h.lines, hl]; simp⟩ hp
  exact ⟨hl, h.nothing hl, by rw [← h.lines, hl]; rfl⟩

theorem Spec.Solid.height_ne {s : Shape} (h : Solid s) : s.height ≠ 0 ↔ Present s := by
  constructor
  · intro hh
    by_cases hp : Present s
    · exact hp
    · exact absurd (h.zero hp).2.2 hh
  · intro hp; have := hp.2.2; omega

theorem Spec.Solid.width_ne {s : Shape} (h : Solid s) : s.width ≠ 0 ↔ Present s := by
  constructor
  · intro hh
    by_cases hp : Present s
    · exact hp
    · exact absurd (h.zero hp).2.1 hh
  · intro hp; have := hp.2.1; omega

theorem sameMeasure_map (shape : ShapeName → Shape) (side : List ShapeName) (size : Shape → Nat)
    (hs : ∀ n, size (shape n) ≠ 0 ↔ Present (shape n)) :
    sameMeasure (side.map (fun n => size (shape n))) = true ↔
      ∀ m ∈ side, ∀ n ∈ side, Present (shape m) → Present (shape n) → size (shape m) = size (shape n) := by
  rw [sameMeasure_iff]
  constructor
  · intro h m hm n hn pm pn
    exact h _ (List.mem_map_of_mem hm) _ (List.mem_map_of_mem hn) ((hs m).2 pm) ((hs n).2 pn)
  · intro h a ha b hb ha0 hb0
    obtain ⟨m, hm, rfl⟩ := List.mem_map.1 ha
    obtain ⟨n, hn, rfl⟩ := List.mem_map.1 hb
    exact h m hm n hn ((hs m).1 ha0) ((hs n).1 hb0)

theorem checkSizes_iff (shape : ShapeName → Shape) (hs : ∀ n, Solid (shape n)) : checkSizes shape = true ↔ SizesAgree shape := by
  unfold checkSizes
  simp only [Bool.and_eq_true]
  rw [sameMeasure_map shape northSide (·.height) (fun n => (hs n).height_ne),
    sameMeasure_map shape southSide (·.height) (fun n => (hs n).height_ne),
    sameMeasure_map shape eastSide (·.width) (fun n => (hs n).width_ne),
    sameMeasure_map shape westSide (·.width) (fun n => (hs n).width_ne)]
  constructor
  · rintro ⟨⟨⟨a, b⟩, c⟩, d⟩; exact ⟨a, b, c, d⟩
  · rintro ⟨a, b, c, d⟩; exact ⟨⟨⟨a, b⟩, c⟩, d⟩

/-! ## completion -/

/-- `new` is `old` with some missing shapes replaced by blank ones. -/
structure Completion (old new : ShapeName → Shape) : Prop where
  keep : ∀ n, Present (old n) → new n = old n
  made : ∀ n, ¬ Present (old n) → new n = old n ∨ ∃ w h e, 0 < w ∧ 0 < h ∧ (e = true ↔ n ∉ [NW, NE, SE, SW]) ∧
    n ∈ [NW, NE, SE, SW, N, E, S, W] ∧
    new n = { old n with lines := List.replicate h (fromAscii (nspaces w)), width := w, height := h, elastic := e }

theorem Completion.refl (s : ShapeName → Shape) : Completion s s := ⟨fun _ _ => rfl, fun _ _ => Or.inl rfl⟩

theorem present_blank (s : Shape) (w h : Nat) (e : Bool) (hw : 0 < w) (hh : 0 < h) :
    Present { s with lines := List.replicate h (fromAscii (nspaces w)), width := w, height := h, elastic := e } := by
  refine ⟨?_, hw, hh⟩
  intro hc
  have := congrArg List.length hc
  simp at this; omega

theorem Completion.present {old new : ShapeName → Shape} (h : Completion old new) {n : ShapeName} (hp : Present (old n)) :
    Present (new n) := by rw [h.keep n hp]; exact hp

theorem Completion.trans {a b c : ShapeName → Shape} (h1 : Completion a b) (h2 : Completion b c) : Completion a c := by
  constructor
  · intro n hp
    rw [h2.keep n (h1.present hp), h1.keep n hp]
  · intro n hp
    rcases h1.made n hp with he | ⟨w, h, e, hw, hh, hc, hm, he⟩
    · have hp' : ¬ Present (b n) := by rw [he]; exact hp
      rw [← he]
      exact h2.made n hp'
    · right
      refine ⟨w, h, e, hw, hh, hc, hm, ?_⟩
      rw [h2.keep n (by rw [he]; exact present_blank _ _ _ _ hw hh), he]

theorem genShape_ok {w h : Nat} {l : List Bxs} (hg : genShape w h = some l) :
    0 < w ∧ 0 < h ∧ w ≤ lineMaxBytes ∧ l = List.replicate h (fromAscii (nspaces w)) := by
  unfold genShape at hg
  split at hg
  · simp at hg
  · rename_i hn
    simp only [Bool.or_eq_true, decide_eq_true_eq, not_or] at hn
    simp only [Option.some.injEq] at hg
    exact ⟨by omega, by omega, by omega, hg.symm⟩

/-- the corner at the end of a side -/
def endCorner (side : Nat) : ShapeName := (nthSide side).getD 4 NW

theorem endCorner_mem (side : Nat) : endCorner side ∈ [NW, NE, SE, SW] := by
  unfold endCorner nthSide
  match side with
  | 0 => decide
  | 1 => decide
  | 2 => decide
  | 3 => decide
  | n + 4 => simp [sideList]

theorem fillCorner_ok {beyond : Shape} {shape shape' : ShapeName → Shape} {side : Nat} {f : ShapeName}
    (h : fillCorner beyond shape side f = .ok shape') :
    Completion shape shape' ∧ Present (shape' (endCorner side)) ∧ ∀ n, n ≠ endCorner side → shape' n = shape n := by
  unfold fillCorner at h
  simp only at h
  change (if (!(shape (endCorner side)).isEmpty) = true then _ else _) = _ at h
  by_cases he : (shape (endCorner side)).isEmpty = true
  · rw [if_neg (by simp [he])] at h
    split at h
    · simp at h
    · rename_i lines hg
      obtain ⟨hw, hh, -, hl⟩ := genShape_ok hg
      simp only [Res.ok.injEq] at h
      change (fun n => if n = endCorner side then _ else _) = shape' at h
      subst h
      have hnp := (isEmpty_iff_not_present _).1 he
      refine ⟨⟨?_, ?_⟩, ?_, ?_⟩
      · intro n hp
        rw [if_neg]
        rintro rfl; exact hnp hp
      · intro n _
        by_cases hn : n = endCorner side
        · right
          refine ⟨_, _, false, hw, hh, ?_, ?_, ?_⟩
          · rw [hn]; constructor
            · intro hc; simp at hc
            · intro hc; exact absurd (endCorner_mem side) hc
          · rw [hn]
            exact List.mem_append_left [N, E, S, W] (endCorner_mem side)
          · rw [if_pos hn, hl, hn]; rfl
        · left; rw [if_neg hn]
      · show Present (if _ then _ else _)
        rw [if_pos rfl, hl]
        exact present_blank _ _ _ _ hw hh
      · intro n hn; exact if_neg hn
  · rw [if_pos (by simpa using he)] at h
    simp only [Res.ok.injEq] at h
    subst h
    refine ⟨Completion.refl _, ?_, fun _ _ => rfl⟩
    rw [← present_iff]; simpa using he

/-- the middle shape of a side -/
def midShape (side : Nat) : ShapeName := (nthSide side).getD 2 NW

theorem fillMiddle_ok {shape shape' : ShapeName → Shape} {side : Nat} (hs : side < 4)
    (h : fillMiddle shape side = .ok shape') :
    Completion shape shape' ∧ (∃ n ∈ midShapes (nthSide side), Present (shape' n)) ∧
      (∀ n, n ≠ midShape side → shape' n = shape n) ∧
      ((∃ n ∈ midShapes (nthSide side), Present (shape n)) → shape' = shape) := by
  unfold fillMiddle at h
  by_cases ha : (midShapes (nthSide side)).any (fun n => !(shape n).isEmpty) = true
  · rw [if_pos ha] at h
    simp only [Res.ok.injEq] at h
    subst h
    obtain ⟨n, hn, he⟩ := List.any_eq_true.1 ha
    exact ⟨Completion.refl _, ⟨n, hn, by rw [← present_iff]; simpa using he⟩, fun _ _ => rfl, fun _ => rfl⟩
  · rw [if_neg ha] at h
    simp only at h
    split at h
    · simp at h
    · rename_i lines hg
      obtain ⟨hw, hh, -, hl⟩ := genShape_ok hg
      simp only [Res.ok.injEq] at h
      change (fun n => if n = midShape side then _ else _) = shape' at h
      subst h
      have hno : ∀ n ∈ midShapes (nthSide side), ¬ Present (shape n) := by
        intro n hn hp
        apply ha
        rw [List.any_eq_true]
        exact ⟨n, hn, by simp [(present_iff _).2 hp]⟩
      have hmem : midShape side ∈ midShapes (nthSide side) ∧ midShape side ∉ [NW, NE, SE, SW] ∧
          midShape side ∈ [NW, NE, SE, SW, N, E, S, W] := by
        match side, hs with
        | 0, _ => decide
        | 1, _ => decide
        | 2, _ => decide
        | 3, _ => decide
      refine ⟨⟨?_, ?_⟩, ⟨midShape side, hmem.1, ?_⟩, ?_, ?_⟩
      · intro n hp
        rw [if_neg]
        rintro rfl; exact hno _ hmem.1 hp
      · intro n _
        by_cases hn : n = midShape side
        · right
          refine ⟨_, _, true, hw, hh, ?_, ?_, ?_⟩
          · rw [hn]; simp only [true_iff]; exact hmem.2.1
          · rw [hn]; exact hmem.2.2
          · rw [if_pos hn, hl, hn]; rfl
        · left; rw [if_neg hn]
      · show Present (if _ then _ else _)
        rw [if_pos rfl, hl]
        exact present_blank _ _ _ _ hw hh
      · intro n hn; exact if_neg hn
      · rintro ⟨n, hn, hp⟩; exact absurd hp (hno n hn)

theorem fillCorners_ok {beyond : Shape} (k : Nat) : ∀ {shape shape' : ShapeName → Shape} {side : Nat} {f : ShapeName},
    side < 4 → fillCorners beyond k shape side f = .ok shape' →
    Completion shape shape' ∧ (∀ i, i < k → Present (shape' (endCorner ((side + i) % 4)))) ∧
      ∀ n, n ∉ [NW, NE, SE, SW] → shape' n = shape n := by
  induction k with
  | zero =>
    intro shape shape' side f _ h
    simp only [fillCorners, Res.ok.injEq] at h
    subst h
    exact ⟨Completion.refl _, fun i hi => absurd hi (by omega), fun _ _ => rfl⟩
  | succ k ih =>
    intro shape shape' side f hside h
    unfold fillCorners at h
    obtain ⟨s1, h1, h2⟩ := Res.bind_eq_ok.1 h
    obtain ⟨c1, p1, o1⟩ := fillCorner_ok h1
    obtain ⟨c2, p2, o2⟩ := ih (by omega) h2
    refine ⟨c1.trans c2, ?_, ?_⟩
    · intro i hi
      cases i with
      | zero =>
        have : (side + 0) % 4 = side := by omega
        rw [this]; exact c2.present p1
      | succ i =>
        have := p2 i (by omega)
        have e : (side + (i + 1)) % 4 = ((side + 1) % 4 + i) % 4 := by omega
        rw [e]; exact this
    · intro n hn
      rw [o2 n hn, o1 n]
      rintro rfl; exact hn (endCorner_mem side)

theorem fillMiddles_ok : ∀ (l : List Nat) {shape shape' : ShapeName → Shape}, (∀ s ∈ l, s < 4) →
    fillMiddles l shape = .ok shape' →
    Completion shape shape' ∧ (∀ s ∈ l, ∃ n ∈ midShapes (nthSide s), Present (shape' n)) ∧
      ∀ n, n ∉ [N, E, S, W] → shape' n = shape n := by
  intro l
  induction l with
  | nil =>
    intro shape shape' _ h
    simp only [fillMiddles, Res.ok.injEq] at h
    subst h
    exact ⟨Completion.refl _, by simp, fun _ _ => rfl⟩
  | cons s rest ih =>
    intro shape shape' hs h
    unfold fillMiddles at h
    obtain ⟨s1, h1, h2⟩ := Res.bind_eq_ok.1 h
    obtain ⟨c1, p1, o1, -⟩ := fillMiddle_ok (hs s List.mem_cons_self) h1
    obtain ⟨c2, p2, o2⟩ := ih (fun x hx => hs x (List.mem_cons_of_mem _ hx)) h2
    refine ⟨c1.trans c2, ?_, ?_⟩
    · intro x hx
      rcases List.mem_cons.1 hx with rfl | hx
      · obtain ⟨n, hn, hp⟩ := p1
        exact ⟨n, hn, c2.present hp⟩
      · exact p2 x hx
    · intro n hn
      rw [o2 n hn, o1 n]
      rintro rfl
      have hs4 := hs s List.mem_cons_self
      apply hn
      match s, hs4 with
      | 0, _ => decide
      | 1, _ => decide
      | 2, _ => decide
      | 3, _ => decide

theorem onSide_lt (n : ShapeName) : onSide n 0 < 4 := by cases n <;> decide

/-- What is known after a SHAPES block was processed -/
theorem finalize_ok {env : ParseEnv} {st st' : ParseState} (h : finalizeShapes env st = .ok st') :
    ∃ shape2 : ShapeName → Shape, Completion st.cur.core.shape shape2 ∧ (∀ n ∈ [NW, NE, SE, SW], Present (shape2 n)) ∧
      (∀ side, side < 4 → ∃ n ∈ midShapes (nthSide side), Present (shape2 n)) ∧
      checkSizes shape2 = true ∧ (st.seChecks + 1 > 1 → seCheck shape2 = true) ∧ 1 ≤ st.shapeSpecs ∧
      st' = { st with
            mandatory := st.mandatory + 1
            seChecks := st.seChecks + 1
            cur := { st.cur with
              maxshapeheight := allShapes.foldl
                (fun m n => if (shape2 n).isEmpty then m else raise m (shape2 n).height) st.cur.maxshapeheight
              core := { st.cur.core with
                minwidth := raise (raise st.cur.core.minwidth (sideSum shape2 (·.width) northSide)) (sideSum shape2 (·.width) southSide)
                minheight := raise (raise st.cur.core.minheight (sideSum shape2 (·.height) eastSide)) (sideSum shape2 (·.height) westSide)
                shape := fun n => { shape2 n with name := n } } } } := by
  unfold finalizeShapes at h
  by_cases h0 : st.shapeSpecs < 1
  · rw [if_pos h0] at h; simp at h
  rw [if_neg h0] at h
  simp only at h
  split at h
  · simp at h
  rename_i f hf
  obtain ⟨s1, h1, h⟩ := Res.bind_eq_ok.1 h
  obtain ⟨s2, h2, h⟩ := Res.bind_eq_ok.1 h
  obtain ⟨c1, p1, o1⟩ := fillCorners_ok 4 (onSide_lt f) h1
  obtain ⟨c2, p2, o2⟩ := fillMiddles_ok [0, 1, 2, 3] (by decide) h2
  by_cases h3 : checkSizes s2 = true
  · rw [if_neg (by simp [h3])] at h
    by_cases h4 : (decide (st.seChecks + 1 > 1) && !seCheck s2) = true
    · rw [if_pos h4] at h; simp at h
    · rw [if_neg h4] at h
      simp only [Res.ok.injEq] at h
      refine ⟨s2, c1.trans c2, ?_, ?_, h3, ?_, by omega, h.symm⟩
      · intro n hn
        have hlt := onSide_lt f
        have : ∃ i, i < 4 ∧ endCorner ((onSide f 0 + i) % 4) = n := by
          generalize onSide f 0 = k at hlt
          have hk : k = 0 ∨ k = 1 ∨ k = 2 ∨ k = 3 := by omega
          simp only [List.mem_cons, List.not_mem_nil, or_false] at hn
          rcases hk with rfl | rfl | rfl | rfl <;> rcases hn with rfl | rfl | rfl | rfl <;> decide
        obtain ⟨i, hi, rfl⟩ := this
        exact c2.present (p1 i hi)
      · intro side hside
        exact p2 side (by simp; omega)
      · intro h5
        simpa [h5] using h4
  · rw [if_pos (by simpa using h3)] at h; simp at h

end Boxes
