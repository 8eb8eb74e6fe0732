import Verif.Lemmas.ParseInv

/-!
# Lemmas about the parser: which shapes are generated
-/
namespace Boxes
open Spec ShapeName
set_option linter.unusedSimpArgs false

/-- the extent of a shape across the given side -/
def breadth (side : Nat) (s : Shape) : Nat := if isVertical side then s.width else s.height

/-- the extent of a side -/
def ext (shape : ShapeName → Shape) (side : Nat) : Nat := across (breadth side) shape (nthSide side)

theorem across_some {size : Shape → Nat} {shape : ShapeName → Shape} {side : List ShapeName} {n : ShapeName}
    (hagree : ∀ m ∈ side, ∀ n ∈ side, Present (shape m) → Present (shape n) → size (shape m) = size (shape n))
    (hn : n ∈ side) (hp : Present (shape n)) : across size shape side = size (shape n) := by
  unfold across
  cases hf : side.find? (fun n => decide (Present (shape n))) with
  | none =>
    have := List.find?_eq_none.1 hf n hn
    simp [hp] at this
  | some m =>
    have hm := List.mem_of_find?_eq_some hf
    have hpm := List.find?_some hf
    simp only [decide_eq_true_eq] at hpm
    exact hagree m hm n hn hpm hp

theorem across_none {size : Shape → Nat} {shape : ShapeName → Shape} {side : List ShapeName}
    (h : ∀ n ∈ side, ¬ Present (shape n)) : across size shape side = 1 := by
  unfold across
  have : side.find? (fun n => decide (Present (shape n))) = none := by
    rw [List.find?_eq_none]; intro n hn; simp [h n hn]
  rw [this]

theorem across_pos {size : Shape → Nat} {shape : ShapeName → Shape} {side : List ShapeName}
    (h : ∀ n, Present (shape n) → 0 < size (shape n)) : 0 < across size shape side := by
  unfold across
  split
  · rename_i n hf
    have hpm := List.find?_some hf
    simp only [decide_eq_true_eq] at hpm
    exact h n hpm
  · omega

theorem breadth_pos (side : Nat) (s : Shape) (h : Present s) : 0 < breadth side s := by
  unfold breadth; split
  · exact h.2.1
  · exact h.2.2

theorem ext_pos (shape : ShapeName → Shape) (side : Nat) : 0 < ext shape side := across_pos (fun n h => breadth_pos side _ h)

/-- all existing shapes of a side have its extent -/
def Agree (shape : ShapeName → Shape) : Prop :=
  ∀ side, side < 4 → ∀ m ∈ nthSide side, ∀ n ∈ nthSide side, Present (shape m) → Present (shape n) →
    breadth side (shape m) = breadth side (shape n)

theorem agree_iff (shape : ShapeName → Shape) : Agree shape ↔ SizesAgree shape := by
  constructor
  · intro h
    exact ⟨h 0 (by omega), h 1 (by omega), h 2 (by omega), h 3 (by omega)⟩
  · intro h side hs
    match side, hs with
    | 0, _ => exact h.top
    | 1, _ => exact h.right
    | 2, _ => exact h.bottom
    | 3, _ => exact h.left

theorem Agree.ext {shape : ShapeName → Shape} (h : Agree shape) {side : Nat} (hs : side < 4) {n : ShapeName}
    (hn : n ∈ nthSide side) (hp : Present (shape n)) : breadth side (shape n) = ext shape side :=
  (across_some (h side hs) hn hp).symm

theorem present_blankInstead (s : Shape) {w h : Nat} (e : Bool) (hw : 0 < w) (hh : 0 < h) : Present (blankInstead s w h e) :=
  present_blank s w h e hw hh

/-- the extent of the first existing shape of a list, or 1 -/
theorem first_size (l : List Shape) (size : Shape → Nat) (v : Nat) (h1 : ∀ s ∈ l, Present s → size s = v)
    (h2 : (∀ s ∈ l, ¬ Present s) → v = 1) : (match l[findShape l]? with | none => 1 | some s => size s) = v := by
  unfold findShape
  by_cases he : ∃ s ∈ l, (!s.isEmpty) = true
  · have hlt := List.findIdx_lt_length_of_exists he
    rw [List.getElem?_eq_getElem hlt]
    have hg := List.findIdx_getElem (w := hlt)
    simp only [Bool.not_eq_true'] at hg
    exact h1 _ (List.getElem_mem hlt) ((present_iff _).1 hg)
  · have hno : ∀ s ∈ l, ¬ Present s := by
      intro s hs hp
      exact he ⟨s, hs, by simp [(present_iff s).2 hp]⟩
    have : l[List.findIdx (fun s => !s.isEmpty) l]? = none := by
      rw [List.getElem?_eq_none_iff]
      have : List.findIdx (fun s : Shape => !s.isEmpty) l = l.length := by
        rw [List.findIdx_eq_length]
        intro s hs
        have := (isEmpty_iff_not_present s).2 (hno s hs)
        simp [this]
      omega
    rw [this]
    exact (h2 hno).symm

/-- the corner at the end of a side belongs to this and to the next side -/
theorem endCorner_sides {side : Nat} (hs : side < 4) : endCorner side ∈ nthSide side ∧ endCorner side ∈ nthSide ((side + 1) % 4) := by
  match side, hs with
  | 0, _ => decide
  | 1, _ => decide
  | 2, _ => decide
  | 3, _ => decide

/-- what is generated for the corner at the end of a side -/
def newCorner (old : ShapeName → Shape) (side : Nat) : Shape :=
  blankInstead (old (endCorner side)) (if isVertical side then ext old side else ext old ((side + 1) % 4))
    (if isVertical side then ext old ((side + 1) % 4) else ext old side) false

theorem completed_corner (old : ShapeName → Shape) {side : Nat} (hs : side < 4) :
    completed old (endCorner side) = if Present (old (endCorner side)) then old (endCorner side) else newCorner old side := by
  match side, hs with
  | 0, _ => rfl
  | 1, _ => rfl
  | 2, _ => rfl
  | 3, _ => rfl

theorem completed_corner_present (old : ShapeName → Shape) {side : Nat} (hs : side < 4) : Present (completed old (endCorner side)) := by
  rw [completed_corner old hs]
  split
  · assumption
  · unfold newCorner
    apply present_blankInstead
    · split <;> exact ext_pos _ _
    · split <;> exact ext_pos _ _

theorem completed_corner_breadth {old : ShapeName → Shape} (h : Agree old) {side : Nat} (hs : side < 4) :
    breadth side (completed old (endCorner side)) = ext old side ∧
      breadth ((side + 1) % 4) (completed old (endCorner side)) = ext old ((side + 1) % 4) := by
  rw [completed_corner old hs]
  split
  · rename_i hp
    exact ⟨h.ext hs (endCorner_sides hs).1 hp, h.ext (by omega) (endCorner_sides hs).2 hp⟩
  · match side, hs with
    | 0, _ => exact ⟨rfl, rfl⟩
    | 1, _ => exact ⟨rfl, rfl⟩
    | 2, _ => exact ⟨rfl, rfl⟩
    | 3, _ => exact ⟨rfl, rfl⟩

/-- the shapes after the shapes in `done` have been dealt with -/
def partly (old : ShapeName → Shape) (done : List ShapeName) (n : ShapeName) : Shape :=
  if n ∈ done then completed old n else old n

theorem completed_of_present {old : ShapeName → Shape} {n : ShapeName} (hp : Present (old n)) : completed old n = old n := by
  unfold completed; simp only [if_pos hp]

theorem partly_skip {old : ShapeName → Shape} {done : List ShapeName} {c : ShapeName} (h : c ∈ done ∨ completed old c = old c) :
    partly old (c :: done) = partly old done := by
  funext n
  unfold partly
  by_cases hc : n = c
  · subst hc
    rcases h with h | h
    · simp [h]
    · simp [h]
  · simp [hc]

/-- Everything that is looked at when the size of a corner is determined -/
theorem five_shapes (sh : ShapeName → Shape) (beyond : Shape) {side : Nat} (hs : side < 4) :
    (shapesFrom sh beyond (endCorner side)).take 5 =
      if side = 2 then [sh SW, sh WSW, sh W, sh WNW, beyond] else (nthSide ((side + 1) % 4)).map sh := by
  match side, hs with
  | 0, _ => rfl
  | 1, _ => rfl
  | 2, _ => rfl
  | 3, _ => rfl

/-- one round of the loop over the corners -/
theorem fillCorner_step {old : ShapeName → Shape} {beyond : Shape} {done : List ShapeName} {side : Nat} {f : ShapeName}
    (hs : side < 4) (ha : Agree old) (hdone : ∀ n ∈ done, n ∈ [NW, NE, SE, SW])
    (hb : ¬ Present beyond) (hf : breadth side (partly old done f) = ext old side)
    (hlim : ext old 1 ≤ lineMaxBytes ∧ ext old 3 ≤ lineMaxBytes)
    (hwest : Present (old SW) ∨ Present (old WSW) ∨ Present (old W) ∨ Present (old WNW) ∨ ext old 3 = 1) :
    fillCorner beyond (partly old done) side f = .ok (partly old (endCorner side :: done)) := by
  unfold fillCorner
  simp only
  change (if (!(partly old done (endCorner side)).isEmpty) = true then _ else _) = _
  by_cases he : Present (partly old done (endCorner side))
  · rw [if_pos (by simp [(present_iff _).2 he])]
    congr 1
    rw [partly_skip]
    by_cases hd : endCorner side ∈ done
    · exact Or.inl hd
    · right
      unfold partly at he
      rw [if_neg hd] at he
      exact completed_of_present he
  · rw [if_neg (by simp [(isEmpty_iff_not_present _).2 he])]
    have hd : endCorner side ∉ done := by
      intro hd
      unfold partly at he
      rw [if_pos hd] at he
      exact he (completed_corner_present old hs)
    have hold : ¬ Present (old (endCorner side)) := by
      unfold partly at he; rw [if_neg hd] at he; exact he
    have hpc : partly old done (endCorner side) = old (endCorner side) := by unfold partly; rw [if_neg hd]
    -- what is found on the next side
    have hbr : ∀ n ∈ nthSide ((side + 1) % 4), Present (partly old done n) →
        breadth ((side + 1) % 4) (partly old done n) = ext old ((side + 1) % 4) := by
      intro n hn hp
      unfold partly at hp ⊢
      by_cases hnd : n ∈ done
      · rw [if_pos hnd] at hp ⊢
        have hc := hdone n hnd
        have : ∃ s, s < 4 ∧ endCorner s = n ∧ ((side + 1) % 4 = s ∨ (side + 1) % 4 = (s + 1) % 4) := by
          have hh : side = 0 ∨ side = 1 ∨ side = 2 ∨ side = 3 := by omega
          simp only [List.mem_cons, List.not_mem_nil, or_false] at hc
          rcases hh with rfl | rfl | rfl | rfl <;> rcases hc with rfl | rfl | rfl | rfl <;>
            first
            | exact absurd hn (by decide)
            | exact ⟨0, by decide⟩
            | exact ⟨1, by decide⟩
            | exact ⟨2, by decide⟩
            | exact ⟨3, by decide⟩
        obtain ⟨s, hs4, rfl, h1 | h1⟩ := this
        · rw [h1]; exact (completed_corner_breadth ha hs4).1
        · rw [h1]; exact (completed_corner_breadth ha hs4).2
      · rw [if_neg hnd] at hp ⊢
        exact ha.ext (by omega) hn hp
    have hnone : (∀ n ∈ nthSide ((side + 1) % 4), ¬ Present (partly old done n)) → ext old ((side + 1) % 4) = 1 := by
      intro h
      apply across_none
      intro n hn hp
      apply h n hn
      unfold partly
      split
      · rw [completed_of_present hp]; exact hp
      · exact hp
    have hnext : (match ((shapesFrom (partly old done) beyond (endCorner side)).take 5)[findShape
          ((shapesFrom (partly old done) beyond (endCorner side)).take 5)]? with
        | none => 1 | some s => breadth ((side + 1) % 4) s) = ext old ((side + 1) % 4) := by
      apply first_size
      · intro s hsm hp
        rw [five_shapes _ _ hs] at hsm
        split at hsm
        · rename_i h2
          subst h2
          simp only [List.mem_cons, List.not_mem_nil, or_false] at hsm
          rcases hsm with rfl | rfl | rfl | rfl | rfl
          · exact hbr SW (by decide) hp
          · exact hbr WSW (by decide) hp
          · exact hbr W (by decide) hp
          · exact hbr WNW (by decide) hp
          · exact absurd hp hb
        · obtain ⟨n, hn, rfl⟩ := List.mem_map.1 hsm
          exact hbr n hn hp
      · intro hno
        rw [five_shapes _ _ hs] at hno
        by_cases h2 : side = 2
        · rw [if_pos h2] at hno
          subst h2
          have hold' : ∀ n, n ∉ [NW, NE, SE, SW] → partly old done n = old n := by
            intro n hn
            unfold partly; rw [if_neg]; intro hd; exact hn (hdone n hd)
          have w1 := hno (partly old done WSW) (by simp)
          have w2 := hno (partly old done W) (by simp)
          have w3 := hno (partly old done WNW) (by simp)
          rw [hold' _ (by decide)] at w1 w2 w3
          rcases hwest with h | h | h | h | h
          · exact absurd h hold
          · exact absurd h w1
          · exact absurd h w2
          · exact absurd h w3
          · exact h
        · rw [if_neg h2] at hno
          exact hnone (fun n hn => hno _ (List.mem_map_of_mem hn))
    have e0 := ext_pos old side
    have e1 := ext_pos old ((side + 1) % 4)
    -- the measures
    have hw : (if isVertical side = true then (partly old done f).width
        else match ((shapesFrom (partly old done) beyond (endCorner side)).take 5)[findShape
          ((shapesFrom (partly old done) beyond (endCorner side)).take 5)]? with
        | none => 1 | some s => s.width) = (if isVertical side then ext old side else ext old ((side + 1) % 4)) := by
      match side, hs with
      | 0, _ => exact hnext
      | 1, _ => exact hf
      | 2, _ => exact hnext
      | 3, _ => exact hf
    have hh : (if isVertical side = true then (match ((shapesFrom (partly old done) beyond (endCorner side)).take 5)[findShape
          ((shapesFrom (partly old done) beyond (endCorner side)).take 5)]? with
        | none => 1 | some s => s.height) else (partly old done f).height) =
          (if isVertical side then ext old ((side + 1) % 4) else ext old side) := by
      match side, hs with
      | 0, _ => exact hf
      | 1, _ => exact hnext
      | 2, _ => exact hf
      | 3, _ => exact hnext
    have hgen : genShape (if isVertical side then ext old side else ext old ((side + 1) % 4))
        (if isVertical side then ext old ((side + 1) % 4) else ext old side) =
        some (List.replicate (if isVertical side then ext old ((side + 1) % 4) else ext old side)
          (fromAscii (nspaces (if isVertical side then ext old side else ext old ((side + 1) % 4))))) := by
      unfold genShape
      rw [if_neg]
      simp only [Bool.or_eq_true, decide_eq_true_eq, not_or]
      match side, hs with
      | 0, _ => simp [isVertical] at e0 e1 ⊢; omega
      | 1, _ => simp [isVertical] at e0 e1 ⊢; omega
      | 2, _ => simp [isVertical] at e0 e1 ⊢; omega
      | 3, _ => simp [isVertical] at e0 e1 ⊢; omega
    change (match genShape (if isVertical side = true then (partly old done f).width
        else match ((shapesFrom (partly old done) beyond (endCorner side)).take 5)[findShape
          ((shapesFrom (partly old done) beyond (endCorner side)).take 5)]? with
        | none => 1 | some s => s.width) (if isVertical side = true then (match ((shapesFrom (partly old done) beyond (endCorner side)).take 5)[findShape
          ((shapesFrom (partly old done) beyond (endCorner side)).take 5)]? with
        | none => 1 | some s => s.height) else (partly old done f).height) with
      | none => Res.fail rcAbort
      | some lines => Res.ok (fun n => if n = endCorner side then { partly old done (endCorner side) with
          lines := lines
          width := (if isVertical side = true then (partly old done f).width
        else match ((shapesFrom (partly old done) beyond (endCorner side)).take 5)[findShape
          ((shapesFrom (partly old done) beyond (endCorner side)).take 5)]? with
        | none => 1 | some s => s.width)
          height := (if isVertical side = true then (match ((shapesFrom (partly old done) beyond (endCorner side)).take 5)[findShape
          ((shapesFrom (partly old done) beyond (endCorner side)).take 5)]? with
        | none => 1 | some s => s.height) else (partly old done f).height)
          elastic := false } else partly old done n)) = _
    rw [hw, hh, hgen]
    simp only
    congr 1
    funext n
    by_cases hn : n = endCorner side
    · rw [if_pos hn, hpc, hn]
      show _ = partly old (endCorner side :: done) (endCorner side)
      unfold partly
      rw [if_pos List.mem_cons_self, completed_corner old hs, if_neg hold]
      rfl
    · rw [if_neg hn]
      unfold partly
      simp [hn]

theorem fillCorners_steps {old : ShapeName → Shape} {beyond : Shape} (ha : Agree old) (hb : ¬ Present beyond)
    (hlim : ext old 1 ≤ lineMaxBytes ∧ ext old 3 ≤ lineMaxBytes)
    (hwest : Present (old SW) ∨ Present (old WSW) ∨ Present (old W) ∨ Present (old WNW) ∨ ext old 3 = 1) :
    ∀ (k : Nat) (done : List ShapeName) (side : Nat) (f : ShapeName), side < 4 → (∀ n ∈ done, n ∈ [NW, NE, SE, SW]) →
      breadth side (partly old done f) = ext old side →
      ∃ done', fillCorners beyond k (partly old done) side f = .ok (partly old done') ∧ (∀ n ∈ done', n ∈ [NW, NE, SE, SW]) ∧
        (∀ n ∈ done, n ∈ done') ∧ ∀ i, i < k → endCorner ((side + i) % 4) ∈ done' := by
  intro k
  induction k with
  | zero =>
    intro done side f _ hd _
    exact ⟨done, rfl, hd, fun _ h => h, fun i hi => absurd hi (by omega)⟩
  | succ k ih =>
    intro done side f hs hd hf
    have h1 := fillCorner_step hs ha hd hb hf hlim hwest
    obtain ⟨done', h2, h3, h4, h5⟩ := ih (endCorner side :: done) ((side + 1) % 4) (endCorner side) (by omega)
      (by intro n hn; rcases List.mem_cons.1 hn with rfl | hn
          · exact endCorner_mem side
          · exact hd n hn)
      (by unfold partly
          rw [if_pos List.mem_cons_self]
          exact (completed_corner_breadth ha hs).2)
    refine ⟨done', ?_, h3, fun n hn => h4 n (List.mem_cons_of_mem _ hn), ?_⟩
    · unfold fillCorners
      rw [h1]
      exact h2
    · intro i hi
      cases i with
      | zero =>
        have : (side + 0) % 4 = side := by omega
        rw [this]; exact h4 _ List.mem_cons_self
      | succ i =>
        have := h5 i (by omega)
        have e : (side + (i + 1)) % 4 = ((side + 1) % 4 + i) % 4 := by omega
        rw [e]; exact this

/-! ## middle shapes -/

/-- the corner at the beginning of a side -/
def startCorner (side : Nat) : ShapeName := (nthSide side).getD 0 NW

theorem fillMiddle_step {old : ShapeName → Shape} {done : List ShapeName} {side : Nat} (hs : side < 4) (ha : Agree old)
    (hdone : ∀ n ∈ done, n ∈ [NW, NE, SE, SW, N, E, S, W]) (hcor : ∀ n ∈ [NW, NE, SE, SW], n ∈ done) (hmid : midShape side ∉ done)
    (hlim : ext old 1 ≤ lineMaxBytes ∧ ext old 3 ≤ lineMaxBytes) :
    fillMiddle (partly old done) side = .ok (partly old (midShape side :: done)) := by
  -- the three shapes are still the old ones
  have hthree : ∀ n ∈ midShapes (nthSide side), partly old done n = old n := by
    intro n hn
    unfold partly
    rw [if_neg]
    intro hd
    have h1 := hdone n hd
    match side, hs with
    | 0, _ => simp [midShapes, nthSide, sideList, northSide] at hn h1; rcases hn with rfl | rfl | rfl <;> simp at h1 ; exact hmid hd
    | 1, _ => simp [midShapes, nthSide, sideList, eastSide] at hn h1; rcases hn with rfl | rfl | rfl <;> simp at h1 ; exact hmid hd
    | 2, _ => simp [midShapes, nthSide, sideList, southSide] at hn h1; rcases hn with rfl | rfl | rfl <;> simp at h1 ; exact hmid hd
    | 3, _ => simp [midShapes, nthSide, sideList, westSide] at hn h1; rcases hn with rfl | rfl | rfl <;> simp at h1 ; exact hmid hd
  have hstart : breadth side (partly old done (startCorner side)) = ext old side := by
    have : ∃ s, s < 4 ∧ endCorner s = startCorner side ∧ (s + 1) % 4 = side := by
      match side, hs with
      | 0, _ => exact ⟨3, by decide⟩
      | 1, _ => exact ⟨0, by decide⟩
      | 2, _ => exact ⟨1, by decide⟩
      | 3, _ => exact ⟨2, by decide⟩
    obtain ⟨s, hs4, h1, h2⟩ := this
    unfold partly
    rw [if_pos (hcor _ (h1 ▸ endCorner_mem s)), ← h1]
    have := (completed_corner_breadth ha hs4).2
    rw [h2] at this
    exact this
  have hmidmem : midShape side ∈ midShapes (nthSide side) := by
    match side, hs with
    | 0, _ => decide
    | 1, _ => decide
    | 2, _ => decide
    | 3, _ => decide
  unfold fillMiddle
  by_cases hany : ∃ n ∈ midShapes (nthSide side), Present (old n)
  · have h1 : ((midShapes (nthSide side)).any fun n => !(partly old done n).isEmpty) = true := by
      obtain ⟨n, hn, hp⟩ := hany
      rw [List.any_eq_true]
      exact ⟨n, hn, by rw [hthree n hn]; simp [(present_iff _).2 hp]⟩
    rw [if_pos h1, partly_skip]
    right
    by_cases hp : Present (old (midShape side))
    · exact completed_of_present hp
    · obtain ⟨n, hn, hpn⟩ := hany
      match side, hs with
      | 0, _ =>
        simp [midShapes, nthSide, sideList, northSide] at hn
        unfold completed; simp only [midShape, nthSide, sideList, northSide] at hp ⊢
        simp at hp ⊢
        rcases hn with rfl | rfl | rfl <;> simp_all
      | 1, _ =>
        simp [midShapes, nthSide, sideList, eastSide] at hn
        unfold completed; simp only [midShape, nthSide, sideList, eastSide] at hp ⊢
        simp at hp ⊢
        rcases hn with rfl | rfl | rfl <;> simp_all
      | 2, _ =>
        simp [midShapes, nthSide, sideList, southSide] at hn
        unfold completed; simp only [midShape, nthSide, sideList, southSide] at hp ⊢
        simp at hp ⊢
        rcases hn with rfl | rfl | rfl <;> simp_all
      | 3, _ =>
        simp [midShapes, nthSide, sideList, westSide] at hn
        unfold completed; simp only [midShape, nthSide, sideList, westSide] at hp ⊢
        simp at hp ⊢
        rcases hn with rfl | rfl | rfl <;> simp_all
  · have hno : ∀ n ∈ midShapes (nthSide side), ¬ Present (old n) := fun n hn hp => hany ⟨n, hn, hp⟩
    have h1 : ¬ ((midShapes (nthSide side)).any fun n => !(partly old done n).isEmpty) = true := by
      rw [List.any_eq_true]
      rintro ⟨n, hn, hp⟩
      rw [hthree n hn] at hp
      simp only [Bool.not_eq_true'] at hp
      exact hno n hn ((present_iff _).1 hp)
    rw [if_neg h1]
    simp only
    have e0 := ext_pos old side
    have hw : (if isVertical side = true then (partly old done (startCorner side)).width else 1) =
        (if isVertical side then ext old side else 1) := by
      match side, hs with
      | 0, _ => rfl
      | 1, _ => exact hstart
      | 2, _ => rfl
      | 3, _ => exact hstart
    have hh : (if isVertical side = true then 1 else (partly old done (startCorner side)).height) =
        (if isVertical side then 1 else ext old side) := by
      match side, hs with
      | 0, _ => exact hstart
      | 1, _ => rfl
      | 2, _ => exact hstart
      | 3, _ => rfl
    have hgen : genShape (if isVertical side then ext old side else 1) (if isVertical side then 1 else ext old side) =
        some (List.replicate (if isVertical side then 1 else ext old side)
          (fromAscii (nspaces (if isVertical side then ext old side else 1)))) := by
      unfold genShape
      rw [if_neg]
      simp only [Bool.or_eq_true, decide_eq_true_eq, not_or]
      match side, hs with
      | 0, _ => simp [isVertical, lineMaxBytes] at e0 ⊢; omega
      | 1, _ => simp [isVertical] at e0 ⊢; omega
      | 2, _ => simp [isVertical, lineMaxBytes] at e0 ⊢; omega
      | 3, _ => simp [isVertical] at e0 ⊢; omega
    change (match genShape (if isVertical side = true then (partly old done (startCorner side)).width else 1)
        (if isVertical side = true then 1 else (partly old done (startCorner side)).height) with
      | none => Res.fail rcAbort
      | some lines => Res.ok (fun n => if n = midShape side then { partly old done (midShape side) with
          lines := lines
          width := (if isVertical side = true then (partly old done (startCorner side)).width else 1)
          height := (if isVertical side = true then 1 else (partly old done (startCorner side)).height)
          elastic := true } else partly old done n)) = _
    rw [hw, hh, hgen, hthree _ hmidmem]
    simp only
    congr 1
    funext n
    by_cases hn : n = midShape side
    · rw [if_pos hn, hn]
      show _ = partly old (midShape side :: done) (midShape side)
      unfold partly
      rw [if_pos List.mem_cons_self]
      match side, hs with
      | 0, _ =>
        have a := hno NNW (by decide); have b := hno N (by decide); have c := hno NNE (by decide)
        show _ = completed old N
        unfold completed; simp only [if_neg b, a, c, or_self, if_false]; rfl
      | 1, _ =>
        have a := hno ENE (by decide); have b := hno E (by decide); have c := hno ESE (by decide)
        show _ = completed old E
        unfold completed; simp only [if_neg b, a, c, or_self, if_false]; rfl
      | 2, _ =>
        have a := hno SSE (by decide); have b := hno S (by decide); have c := hno SSW (by decide)
        show _ = completed old S
        unfold completed; simp only [if_neg b, a, c, or_self, if_false]; rfl
      | 3, _ =>
        have a := hno WSW (by decide); have b := hno W (by decide); have c := hno WNW (by decide)
        show _ = completed old W
        unfold completed; simp only [if_neg b, a, c, or_self, if_false]; rfl
    · rw [if_neg hn]
      unfold partly
      simp [hn]

theorem fillMiddles_steps {old : ShapeName → Shape} (ha : Agree old) (hlim : ext old 1 ≤ lineMaxBytes ∧ ext old 3 ≤ lineMaxBytes)
    {done : List ShapeName} (hdone : ∀ n ∈ done, n ∈ [NW, NE, SE, SW]) (hcor : ∀ n ∈ [NW, NE, SE, SW], n ∈ done) :
    fillMiddles [0, 1, 2, 3] (partly old done) = .ok (completed old) := by
  have hno : ∀ n, n ∉ [NW, NE, SE, SW] → n ∉ done := fun n hn hd => hn (hdone n hd)
  have s0 := fillMiddle_step (old := old) (done := done) (side := 0) (by omega) ha
    (fun n hn => List.mem_append_left [N, E, S, W] (hdone n hn)) hcor (hno _ (by decide)) hlim
  have s1 := fillMiddle_step (old := old) (done := N :: done) (side := 1) (by omega) ha
    (by intro n hn; rcases List.mem_cons.1 hn with rfl | hn
        · decide
        · exact List.mem_append_left [N, E, S, W] (hdone n hn))
    (fun n hn => List.mem_cons_of_mem _ (hcor n hn))
    (by intro h; rcases List.mem_cons.1 h with h | h
        · exact absurd h (by decide)
        · exact hno _ (by decide) h) hlim
  have s2 := fillMiddle_step (old := old) (done := E :: N :: done) (side := 2) (by omega) ha
    (by intro n hn
        rcases List.mem_cons.1 hn with rfl | hn
        · decide
        rcases List.mem_cons.1 hn with rfl | hn
        · decide
        · exact List.mem_append_left [N, E, S, W] (hdone n hn))
    (fun n hn => List.mem_cons_of_mem _ (List.mem_cons_of_mem _ (hcor n hn)))
    (by intro h
        rcases List.mem_cons.1 h with h | h
        · exact absurd h (by decide)
        rcases List.mem_cons.1 h with h | h
        · exact absurd h (by decide)
        · exact hno _ (by decide) h) hlim
  have s3 := fillMiddle_step (old := old) (done := S :: E :: N :: done) (side := 3) (by omega) ha
    (by intro n hn
        rcases List.mem_cons.1 hn with rfl | hn
        · decide
        rcases List.mem_cons.1 hn with rfl | hn
        · decide
        rcases List.mem_cons.1 hn with rfl | hn
        · decide
        · exact List.mem_append_left [N, E, S, W] (hdone n hn))
    (fun n hn => List.mem_cons_of_mem _ (List.mem_cons_of_mem _ (List.mem_cons_of_mem _ (hcor n hn))))
    (by intro h
        rcases List.mem_cons.1 h with h | h
        · exact absurd h (by decide)
        rcases List.mem_cons.1 h with h | h
        · exact absurd h (by decide)
        rcases List.mem_cons.1 h with h | h
        · exact absurd h (by decide)
        · exact hno _ (by decide) h) hlim
  have e0 : midShape 0 = N := rfl
  have e1 : midShape 1 = E := rfl
  have e2 : midShape 2 = S := rfl
  have e3 : midShape 3 = W := rfl
  rw [e0] at s0; rw [e1] at s1; rw [e2] at s2; rw [e3] at s3
  simp only [fillMiddles, s0, s1, s2, s3, Res.ok_bind, Res.ok.injEq]
  funext n
  unfold partly
  by_cases hn : n ∈ W :: S :: E :: N :: done
  · rw [if_pos hn]
  · rw [if_neg hn]
    simp only [List.mem_cons, not_or] at hn
    obtain ⟨h1, h2, h3, h4, h5⟩ := hn
    have hc : n ∉ [NW, NE, SE, SW] := fun h => h5 (hcor n h)
    unfold completed
    simp only
    cases n <;> first | rfl | (exfalso; exact hc (by decide)) | contradiction | (split <;> rfl)

theorem completed_breadth {old : ShapeName → Shape} (ha : Agree old) {side : Nat} (hs : side < 4) {n : ShapeName}
    (hn : n ∈ nthSide side) (hp : Present (completed old n)) : breadth side (completed old n) = ext old side := by
  by_cases ho : Present (old n)
  · rw [completed_of_present ho]; exact ha.ext hs hn ho
  · by_cases hc : n ∈ [NW, NE, SE, SW]
    · have : ∃ s, s < 4 ∧ endCorner s = n ∧ (side = s ∨ side = (s + 1) % 4) := by
        have hh : side = 0 ∨ side = 1 ∨ side = 2 ∨ side = 3 := by omega
        simp only [List.mem_cons, List.not_mem_nil, or_false] at hc
        rcases hh with rfl | rfl | rfl | rfl <;> rcases hc with rfl | rfl | rfl | rfl <;>
          first
          | exact absurd hn (by decide)
          | exact ⟨0, by decide⟩
          | exact ⟨1, by decide⟩
          | exact ⟨2, by decide⟩
          | exact ⟨3, by decide⟩
      obtain ⟨s, hs4, rfl, h1 | h1⟩ := this
      · rw [h1]; exact (completed_corner_breadth ha hs4).1
      · rw [h1]; exact (completed_corner_breadth ha hs4).2
    · unfold completed at hp ⊢
      simp only [if_neg ho] at hp ⊢
      match side, hs with
      | 0, _ =>
        simp [nthSide, sideList, northSide] at hn
        rcases hn with rfl | rfl | rfl | rfl | rfl
        · exact absurd (by decide) hc
        · exact absurd hp ho
        · simp only at hp ⊢
          split at hp
          · exact absurd hp ho
          · rename_i h; rw [if_neg h]; rfl
        · exact absurd hp ho
        · exact absurd (by decide) hc
      | 1, _ =>
        simp [nthSide, sideList, eastSide] at hn
        rcases hn with rfl | rfl | rfl | rfl | rfl
        · exact absurd (by decide) hc
        · exact absurd hp ho
        · simp only at hp ⊢
          split at hp
          · exact absurd hp ho
          · rename_i h; rw [if_neg h]; rfl
        · exact absurd hp ho
        · exact absurd (by decide) hc
      | 2, _ =>
        simp [nthSide, sideList, southSide] at hn
        rcases hn with rfl | rfl | rfl | rfl | rfl
        · exact absurd (by decide) hc
        · exact absurd hp ho
        · simp only at hp ⊢
          split at hp
          · exact absurd hp ho
          · rename_i h; rw [if_neg h]; rfl
        · exact absurd hp ho
        · exact absurd (by decide) hc
      | 3, _ =>
        simp [nthSide, sideList, westSide] at hn
        rcases hn with rfl | rfl | rfl | rfl | rfl
        · exact absurd (by decide) hc
        · exact absurd hp ho
        · simp only at hp ⊢
          split at hp
          · exact absurd hp ho
          · rename_i h; rw [if_neg h]; rfl
        · exact absurd hp ho
        · exact absurd (by decide) hc

theorem completed_agree {old : ShapeName → Shape} (ha : Agree old) : Agree (completed old) := by
  intro side hs m hm n hn hpm hpn
  rw [completed_breadth ha hs hm hpm, completed_breadth ha hs hn hpn]

theorem solid_blankInstead (s : Shape) {w h : Nat} (e : Bool) (hw : 0 < w) (hh : 0 < h) : Solid (blankInstead s w h e) := by
  refine ⟨by simp [blankInstead], ?_, ?_, fun _ => hw⟩
  · intro b hb
    have := List.eq_of_mem_replicate hb
    subst this
    simp [fromAscii, blankInstead]
  · intro hl
    have := congrArg List.length hl
    simp [blankInstead] at this; omega

theorem completed_solid {old : ShapeName → Shape} (h : ∀ n, Solid (old n)) (n : ShapeName) : Solid (completed old n) := by
  have p0 := ext_pos old 0
  have p1 := ext_pos old 1
  have p2 := ext_pos old 2
  have p3 := ext_pos old 3
  unfold completed
  simp only
  split
  · exact h n
  · cases n <;> simp only <;>
      first
      | exact h _
      | exact solid_blankInstead _ _ p3 p0
      | exact solid_blankInstead _ _ p1 p0
      | exact solid_blankInstead _ _ p1 p2
      | exact solid_blankInstead _ _ p3 p2
      | (split
         · exact h _
         · first
           | exact solid_blankInstead _ _ (by decide) p0
           | exact solid_blankInstead _ _ (by decide) p2
           | exact solid_blankInstead _ _ p1 (by decide)
           | exact solid_blankInstead _ _ p3 (by decide))

/-- Consistent shapes are completed. -/
theorem finalize_completes {env : ParseEnv} {st : ParseState} (hspec : 1 ≤ st.shapeSpecs) (hsome : ∃ n, Present (st.cur.core.shape n))
    (hsolid : ∀ n, Solid (st.cur.core.shape n)) (ha : Agree st.cur.core.shape) (hb : ¬ Present env.beyond)
    (hlim : ext st.cur.core.shape 1 ≤ lineMaxBytes ∧ ext st.cur.core.shape 3 ≤ lineMaxBytes)
    (hwest : Present (st.cur.core.shape SW) ∨ Present (st.cur.core.shape WSW) ∨ Present (st.cur.core.shape W) ∨
      Present (st.cur.core.shape WNW) ∨ ext st.cur.core.shape 3 = 1)
    (hse : 1 ≤ st.seChecks → seCheck (completed st.cur.core.shape) = true) :
    ∃ st', finalizeShapes env st = .ok st' ∧ ∀ n, st'.cur.core.shape n = { completed st.cur.core.shape n with name := n } := by
  unfold finalizeShapes
  rw [if_neg (by omega)]
  simp only
  obtain ⟨n0, hn0⟩ := hsome
  have hex : ∃ s ∈ allShapes.map st.cur.core.shape, (!s.isEmpty) = true :=
    ⟨st.cur.core.shape n0, List.mem_map_of_mem (a := n0) (by cases n0 <;> decide), by simp [(present_iff _).2 hn0]⟩
  have hlt := List.findIdx_lt_length_of_exists hex
  have hlt' : findShape (allShapes.map st.cur.core.shape) < allShapes.length := by
    unfold findShape; simpa using hlt
  rw [List.getElem?_eq_getElem hlt']
  simp only
  generalize hf : allShapes[findShape (allShapes.map st.cur.core.shape)] = f
  have hfp : Present (st.cur.core.shape f) := by
    have hg := List.findIdx_getElem (w := hlt)
    simp only [Bool.not_eq_true', List.getElem_map] at hg
    rw [← hf]
    exact (present_iff _).1 hg
  have hmem : f ∈ nthSide (onSide f 0) := by cases f <;> decide
  obtain ⟨done', h1, h2, -, h4⟩ := fillCorners_steps ha hb hlim hwest 4 [] (onSide f 0) f (onSide_lt f) (by simp)
    (by show breadth _ (st.cur.core.shape f) = _; exact ha.ext (onSide_lt f) hmem hfp)
  have h1' : fillCorners env.beyond 4 st.cur.core.shape (onSide f 0) f = .ok (partly st.cur.core.shape done') := h1
  have hcor : ∀ n ∈ [NW, NE, SE, SW], n ∈ done' := by
    intro n hn
    have hlt := onSide_lt f
    have : ∃ i, i < 4 ∧ endCorner ((onSide f 0 + i) % 4) = n := by
      generalize onSide f 0 = k at hlt
      have hk : k = 0 ∨ k = 1 ∨ k = 2 ∨ k = 3 := by omega
      simp only [List.mem_cons, List.not_mem_nil, or_false] at hn
      rcases hk with rfl | rfl | rfl | rfl <;> rcases hn with rfl | rfl | rfl | rfl <;> decide
    obtain ⟨i, hi, rfl⟩ := this
    exact h4 i hi
  rw [h1', Res.ok_bind, fillMiddles_steps ha hlim h2 hcor, Res.ok_bind]
  have hchk : checkSizes (completed st.cur.core.shape) = true :=
    (checkSizes_iff _ (completed_solid hsolid)).2 ((agree_iff _).1 (completed_agree ha))
  rw [if_neg (by simp [hchk])]
  rw [if_neg]
  · exact ⟨_, rfl, fun _ => rfl⟩
  · simp only [Bool.and_eq_true, decide_eq_true_eq, Bool.not_eq_true', not_and, Bool.not_eq_false]
    intro h; exact hse (by omega)

end Boxes
