import Verif.Model.Generate
import Verif.Spec.Layout

/-!
# Lemmas about the precalculation
-/
namespace Boxes
open Spec
set_option linter.unusedSimpArgs false

/-- number of copies of a cell after `i` steps -/
def copies (two : Bool) (first : Bool) (x : Cell) (i : Nat) : Nat :=
  if x.exist then
    if x.elastic then (if two then (if first then (i + 1) / 2 else i / 2) else i) else min i 1
  else 0

/-- a cell after `i` steps -/
def cellAt (two first : Bool) (x : Cell) (i : Nat) : Cell := { x with fill := copies two first x i * x.size }

/-- two elastic shapes -/
def isTwo (a b c : Cell) : Bool := a.exist && b.exist && c.exist && a.elastic && c.elastic

/-- a side after `i` steps -/
def sideAt (a b c : Cell) (i : Nat) : SideSt :=
  let t := isTwo a b c
  { cells := [cellAt t true a i, cellAt t false b i, cellAt t false c i]
    len := copies t true a i * a.size + copies t false b i * b.size + copies t false c i * c.size
    toggle := if t && i % 2 = 1 then 3 else 1 }

/-- cells that form a side that is fine -/
def GoodCells (a b c : Cell) : Prop :=
  (∀ x ∈ [a, b, c], x.exist → 0 < x.size) ∧ (∀ x ∈ [a, b, c], x.fill = 0) ∧
  ((a.exist = true ∧ a.elastic = true ∧ ¬ (b.exist = true ∧ b.elastic = true) ∧ ¬ (c.exist = true ∧ c.elastic = true)) ∨
   (b.exist = true ∧ b.elastic = true ∧ ¬ (a.exist = true ∧ a.elastic = true) ∧ ¬ (c.exist = true ∧ c.elastic = true)) ∨
   (c.exist = true ∧ c.elastic = true ∧ ¬ (a.exist = true ∧ a.elastic = true) ∧ ¬ (b.exist = true ∧ b.elastic = true)) ∨
   (a.exist = true ∧ a.elastic = true ∧ b.exist = true ∧ b.elastic = false ∧ c.exist = true ∧ c.elastic = true))

theorem sideAt_zero {a b c : Cell} (h : GoodCells a b c) : sideAt a b c 0 = ⟨[a, b, c], 0, 1⟩ := by
  obtain ⟨-, hf, -⟩ := h
  have h1 := hf a (by simp); have h2 := hf b (by simp); have h3 := hf c (by simp)
  cases a; cases b; cases c
  simp_all [sideAt, cellAt, copies]

theorem advance_at {a b c : Cell} (h : GoodCells a b c) (target other i : Nat)
    (hg : i = 0 ∨ (sideAt a b c i).len < target ∨ (sideAt a b c i).len ≠ other) :
    advance target other (sideAt a b c i) = some (sideAt a b c (i + 1)) := by
  obtain ⟨hs, hf, h⟩ := h
  have h1 := hf a (by simp); have h2 := hf b (by simp); have h3 := hf c (by simp)
  have s1 : a.size = 0 → a.exist = false := fun h0 => by
    cases he : a.exist with | false => rfl | true => have := hs a (by simp) he; omega
  have s2 : b.size = 0 → b.exist = false := fun h0 => by
    cases he : b.exist with | false => rfl | true => have := hs b (by simp) he; omega
  have s3 : c.size = 0 → c.exist = false := fun h0 => by
    cases he : c.exist with | false => rfl | true => have := hs c (by simp) he; omega
  obtain ⟨ae, al, as, af⟩ := a
  obtain ⟨be, bl, bs, bf⟩ := b
  obtain ⟨ce, cl, cs, cf⟩ := c
  simp only at h1 h2 h3 s1 s2 s3
  subst h1 h2 h3
  clear hs hf
  have hpar : (i % 2 = 1 ∧ (i + 1) / 2 = i / 2 + 1 ∧ (i + 1 + 1) / 2 = i / 2 + 1 ∧ (i + 1) % 2 = 0) ∨
      (i % 2 = 0 ∧ (i + 1) / 2 = i / 2 ∧ (i + 1 + 1) / 2 = i / 2 + 1 ∧ (i + 1) % 2 = 1) := by omega
  cases ae <;> cases al <;> cases be <;> cases bl <;> cases ce <;> cases cl <;> simp at h s1 s2 s3 <;>
  (rcases Nat.eq_zero_or_pos i with rfl | hi
   · simp [advance, sideAt, cellAt, copies, isTwo, addFirst, addAll, addAt, needMore, List.countP_cons]
     try omega
   · have hm : min i 1 = 1 := by omega
     have hm' : min (i + 1) 1 = 1 := by omega
     have hi0 : i ≠ 0 := by omega
     simp [sideAt, cellAt, copies, isTwo, hm] at hg
     rcases hg with hg | hg | hg
     · omega
     all_goals
       simp [advance, sideAt, cellAt, copies, isTwo, addFirst, addAll, addAt, needMore, List.countP_cons, hm, hm',
         Nat.add_mul, s1, s2, s3, hg, hi0]
       try omega
     all_goals
       rcases hpar with ⟨p1, p2, p3, p4⟩ | ⟨p1, p2, p3, p4⟩ <;> simp [p2, Nat.add_mul] at hg <;>
       simp [p1, p2, p3, p4, addAt, needMore, hg, Nat.add_mul] <;> omega)

/-- length of a side after `i` steps -/
theorem len_lt {a b c : Cell} (h : GoodCells a b c) (i : Nat) : (sideAt a b c i).len < (sideAt a b c (i + 1)).len := by
  obtain ⟨hs, -, h⟩ := h
  have s1 : a.exist = false ∨ 0 < a.size := by
    cases he : a.exist with | false => simp | true => exact .inr (hs a (by simp) he)
  have s2 : b.exist = false ∨ 0 < b.size := by
    cases he : b.exist with | false => simp | true => exact .inr (hs b (by simp) he)
  have s3 : c.exist = false ∨ 0 < c.size := by
    cases he : c.exist with | false => simp | true => exact .inr (hs c (by simp) he)
  obtain ⟨ae, al, as, af⟩ := a
  obtain ⟨be, bl, bs, bf⟩ := b
  obtain ⟨ce, cl, cs, cf⟩ := c
  clear hs
  have hm' : min (i + 1) 1 = 1 := by omega
  have hmb : ∀ x, min i 1 * x ≤ x := fun x => by
    rcases Nat.eq_zero_or_pos i with rfl | hi
    · simp
    · rw [show min i 1 = 1 by omega]; omega
  have h1 := hmb as
  have h2 := hmb bs
  have h3 := hmb cs
  have hpar : ((i + 1) / 2 = i / 2 + 1 ∧ (i + 1 + 1) / 2 = i / 2 + 1) ∨
      ((i + 1) / 2 = i / 2 ∧ (i + 1 + 1) / 2 = i / 2 + 1) := by omega
  cases ae <;> cases al <;> cases be <;> cases bl <;> cases ce <;> cases cl <;> simp at h s1 s2 s3 <;>
  simp [sideAt, copies, isTwo, hm', Nat.add_mul] <;> (try omega) <;>
  (rcases hpar with ⟨p1, p2⟩ | ⟨p1, p2⟩ <;> simp only [p1, p2, Nat.add_mul] <;> omega)

theorem mono_of_step {f : Nat → Nat} (h : ∀ i, f i < f (i + 1)) {i j : Nat} (hij : i < j) : f i < f j := by
  induction j with
  | zero => omega
  | succ j ih =>
    rcases Nat.lt_succ_iff_lt_or_eq.1 hij with hlt | rfl
    · exact Nat.lt_trans (ih hlt) (h j)
    · exact h i

theorem le_of_step {f : Nat → Nat} (h : ∀ i, f i < f (i + 1)) {i j : Nat} (hij : f i ≤ f j) : i ≤ j := by
  rcases Nat.lt_or_ge j i with hlt | hge
  · have := mono_of_step h hlt; omega
  · exact hge

section Loop
variable {a b c a' b' c' : Cell} (h : GoodCells a b c) (h' : GoodCells a' b' c') (target : Nat)

/-- a common length of the two sides -/
def Meet (a b c a' b' c' : Cell) (target i k : Nat) : Prop :=
  0 < i ∧ 0 < k ∧ (sideAt a b c i).len = (sideAt a' b' c' k).len ∧ target ≤ (sideAt a b c i).len

/-- the loop is not finished -/
def Open (a b c a' b' c' : Cell) (target i k : Nat) : Prop :=
  (i = 0 ∧ k = 0) ∨ (sideAt a b c i).len ≠ (sideAt a' b' c' k).len ∨ (sideAt a b c i).len < target ∨
    (sideAt a' b' c' k).len < target

include h h' in
/-- One round of the loop in terms of the numbers of steps. -/
theorem round_eq {i k : Nat} (ho : Open a b c a' b' c' target i k) (fuel : Nat) :
    precalcLoop target (fuel + 1) (sideAt a b c i) (sideAt a' b' c' k) =
      let p := if (sideAt a b c i).len > (sideAt a' b' c' k).len then (i, k + 1) else (i + 1, k)
      if (sideAt a b c p.1).len ≠ (sideAt a' b' c' p.2).len ∨ (sideAt a b c p.1).len < target ∨
          (sideAt a' b' c' p.2).len < target then
        precalcLoop target fuel (sideAt a b c p.1) (sideAt a' b' c' p.2)
      else some (.ok (sideAt a b c p.1, sideAt a' b' c' p.2)) := by
  rw [precalcLoop]
  by_cases hgt : (sideAt a b c i).len > (sideAt a' b' c' k).len
  · rw [if_pos hgt, advance_at h' target _ k (by omega)]
    simp only [hgt, if_true, Option.map_some]
  · rw [if_neg hgt, advance_at h target _ i (by unfold Open at ho; omega)]
    simp only [hgt, if_false, Option.map_some]

include h h' in
theorem loop_sound : ∀ (fuel i k : Nat) (r : Res (SideSt × SideSt)), Open a b c a' b' c' target i k →
    (∀ I K, Meet a b c a' b' c' target I K → i ≤ I ∧ k ≤ K) →
    precalcLoop target fuel (sideAt a b c i) (sideAt a' b' c' k) = some r →
    ∃ i' k', r = .ok (sideAt a b c i', sideAt a' b' c' k') ∧ Meet a b c a' b' c' target i' k' ∧
      ∀ I K, Meet a b c a' b' c' target I K → i' ≤ I ∧ k' ≤ K := by
  intro fuel
  induction fuel with
  | zero => intro i k r _ _ hr; simp [precalcLoop] at hr
  | succ fuel ih =>
    intro i k r ho hmin hr
    rw [round_eq h h' target ho] at hr
    have hf := len_lt h
    have hg := len_lt h'
    have f0 : (sideAt a b c 0).len = 0 := by rw [sideAt_zero h]
    have g0 : (sideAt a' b' c' 0).len = 0 := by rw [sideAt_zero h']
    generalize hp : (if (sideAt a b c i).len > (sideAt a' b' c' k).len then (i, k + 1) else (i + 1, k)) = p at hr
    -- the next pair is still below every meeting point
    have hmin' : ∀ I K, Meet a b c a' b' c' target I K → p.1 ≤ I ∧ p.2 ≤ K := by
      intro I K hm
      obtain ⟨h1, h2⟩ := hmin I K hm
      obtain ⟨hI, hK, he, ht⟩ := hm
      subst hp
      by_cases hgt : (sideAt a b c i).len > (sideAt a' b' c' k).len
      · rw [if_pos hgt]
        refine ⟨h1, ?_⟩
        rcases Nat.lt_or_ge k K with hlt | hge
        · exact hlt
        · have : k = K := by omega
          subst this
          have := le_of_step hf (i := i) (j := I)
          rcases Nat.lt_or_ge i I with h3 | h3
          · have := mono_of_step hf h3; omega
          · have : i = I := by omega
            subst this; omega
      · rw [if_neg hgt]
        refine ⟨?_, h2⟩
        rcases Nat.lt_or_ge i I with hlt | hge
        · exact hlt
        · have : i = I := by omega
          subst this
          rcases Nat.lt_or_ge k K with h3 | h3
          · have := mono_of_step hg h3; omega
          · have : k = K := by omega
            subst this
            unfold Open at ho; omega
    have hpos : p.1 ≠ 0 := by
      subst hp
      split
      · intro h0
        have h0 : i = 0 := h0
        subst h0
        omega
      · simp
    simp only at hr
    split at hr
    · rename_i hcond
      exact ih p.1 p.2 r (.inr hcond) hmin' hr
    · rename_i hcond
      injection hr with hr
      refine ⟨p.1, p.2, hr.symm, ⟨by omega, ?_, by omega, by omega⟩, hmin'⟩
      have := mono_of_step hf (i := 0) (j := p.1) (by omega)
      rcases Nat.eq_zero_or_pos p.2 with h0 | h0
      · rw [h0] at hcond; omega
      · exact h0

include h h' in
theorem loop_finishes {I K : Nat} (hm : Meet a b c a' b' c' target I K) :
    ∀ (fuel i k : Nat), Open a b c a' b' c' target i k → i ≤ I → k ≤ K → (I - i) + (K - k) ≤ fuel →
    ∃ r, precalcLoop target fuel (sideAt a b c i) (sideAt a' b' c' k) = some r := by
  obtain ⟨hI, hK, he, ht⟩ := hm
  have hf := len_lt h
  have hg := len_lt h'
  intro fuel
  induction fuel with
  | zero =>
    intro i k ho h1 h2 hle
    have e1 : i = I := by omega
    have e2 : k = K := by omega
    subst e1 e2
    unfold Open at ho; omega
  | succ fuel ih =>
    intro i k ho h1 h2 hle
    rw [round_eq h h' target ho]
    by_cases hgt : (sideAt a b c i).len > (sideAt a' b' c' k).len
    · simp only [hgt, if_true]
      split
      · rename_i hcond
        have : k + 1 ≤ K := by
          rcases Nat.lt_or_ge k K with hlt | hge
          · exact hlt
          · have : k = K := by omega
            subst this
            rcases Nat.lt_or_ge i I with h3 | h3
            · have := mono_of_step hf h3; omega
            · have : i = I := by omega
              subst this; omega
        exact ih i (k + 1) (.inr hcond) h1 this (by omega)
      · exact ⟨_, rfl⟩
    · simp only [hgt, if_false]
      split
      · rename_i hcond
        have : i + 1 ≤ I := by
          rcases Nat.lt_or_ge i I with hlt | hge
          · exact hlt
          · have : i = I := by omega
            subst this
            rcases Nat.lt_or_ge k K with h3 | h3
            · have := mono_of_step hg h3; omega
            · have : k = K := by omega
              subst this
              unfold Open at ho; omega
        exact ih (i + 1) k (.inr hcond) this h2 (by omega)
      · exact ⟨_, rfl⟩

end Loop

/-- the slot of a cell -/
def slotC (x : Cell) : Slot := if x.exist then some (x.size, x.elastic) else none

theorem goodCells_of {a b c : Cell} (hf : ∀ x ∈ [a, b, c], x.fill = 0)
    (h : GoodSide [slotC a, slotC b, slotC c]) : GoodCells a b c := by
  have key : ∀ x : Cell, ¬ (slotC x).Elastic → ¬ (x.exist = true ∧ x.elastic = true) := by
    intro x hx ⟨h1, h2⟩
    apply hx; simp [slotC, h1, h2, Slot.Elastic]
  have keyE : ∀ (x : Cell) n e, slotC x = some (n, e) → x.exist = true ∧ x.elastic = e ∧ x.size = n := by
    intro x n e hx
    unfold slotC at hx
    split at hx
    · simp at hx; rename_i he; exact ⟨he, hx.2, hx.1⟩
    · simp at hx
  have keyS : ∀ x : Cell, (slotC x ≠ none → 0 < (slotC x).size) → x.exist = true → 0 < x.size := by
    intro x hx he
    simpa [slotC, he, Slot.size] using hx
  generalize e1 : slotC a = sa at h
  generalize e2 : slotC b = sb at h
  generalize e3 : slotC c = sc at h
  cases h with
  | left n _ _ h0 hb hc hs =>
    obtain ⟨p1, p2, p3⟩ := keyE _ _ _ e1
    subst e2 e3
    refine ⟨?_, hf, .inl ⟨p1, p2, key _ hb, key _ hc⟩⟩
    intro x hx
    simp only [List.mem_cons, List.not_mem_nil, or_false] at hx
    rcases hx with rfl | rfl | rfl
    · intro _; omega
    · exact keyS _ (hs _ (by simp))
    · exact keyS _ (hs _ (by simp))
  | mid _ n _ h0 ha hc hs =>
    obtain ⟨p1, p2, p3⟩ := keyE _ _ _ e2
    subst e1 e3
    refine ⟨?_, hf, .inr (.inl ⟨p1, p2, key _ ha, key _ hc⟩)⟩
    intro x hx
    simp only [List.mem_cons, List.not_mem_nil, or_false] at hx
    rcases hx with rfl | rfl | rfl
    · exact keyS _ (hs _ (by simp))
    · intro _; omega
    · exact keyS _ (hs _ (by simp))
  | right _ _ n h0 ha hb hs =>
    obtain ⟨p1, p2, p3⟩ := keyE _ _ _ e3
    subst e1 e2
    refine ⟨?_, hf, .inr (.inr (.inl ⟨p1, p2, key _ ha, key _ hb⟩))⟩
    intro x hx
    simp only [List.mem_cons, List.not_mem_nil, or_false] at hx
    rcases hx with rfl | rfl | rfl
    · exact keyS _ (hs _ (by simp))
    · exact keyS _ (hs _ (by simp))
    · intro _; omega
  | outer l m n h1 h2 h3 =>
    obtain ⟨p1, p2, p3⟩ := keyE _ _ _ e1
    obtain ⟨q1, q2, q3⟩ := keyE _ _ _ e2
    obtain ⟨r1, r2, r3⟩ := keyE _ _ _ e3
    refine ⟨?_, hf, .inr (.inr (.inr ⟨p1, p2, q1, q2, r1, r2⟩))⟩
    intro x hx
    simp only [List.mem_cons, List.not_mem_nil, or_false] at hx
    rcases hx with rfl | rfl | rfl <;> intro _ <;> omega

theorem sum_fill (a b c : Cell) (i : Nat) : ((sideAt a b c i).cells.map (·.fill)).sum = (sideAt a b c i).len := by
  simp [sideAt, cellAt]; omega

/-- The fillings of a side are those reached after one or more steps. -/
theorem fills_iff {a b c : Cell} (h : GoodCells a b c) (f : List Nat) :
    Fills [slotC a, slotC b, slotC c] f ↔ ∃ i, 0 < i ∧ f = (sideAt a b c i).cells.map (·.fill) := by
  obtain ⟨hs, hf, h⟩ := h
  obtain ⟨ae, al, as, af⟩ := a
  obtain ⟨be, bl, bs, bf⟩ := b
  obtain ⟨ce, cl, cs, cf⟩ := c
  clear hs hf
  constructor
  · intro hF
    generalize e1 : slotC _ = sa at hF
    generalize e2 : slotC _ = sb at hF
    generalize e3 : slotC _ = sc at hF
    cases hF with
    | one _ _ _ i j k hne o1 o2 o3 =>
      subst e1 e2 e3
      cases ae <;> cases al <;> cases be <;> cases bl <;> cases ce <;> cases cl <;>
        simp at h <;> simp [slotC, Slot.Elastic, Occurs, Slot.size] at hne o1 o2 o3 ⊢ <;>
        first
        | exact ⟨i, o1, by simp [sideAt, cellAt, copies, isTwo, *] <;> omega⟩
        | exact ⟨j, o2, by simp [sideAt, cellAt, copies, isTwo, *] <;> omega⟩
        | exact ⟨k, o3, by simp [sideAt, cellAt, copies, isTwo, *] <;> omega⟩
    | two l m n i k hi hik =>
      have keyE : ∀ (x : Cell) n e, slotC x = some (n, e) → x.exist = true ∧ x.elastic = e ∧ x.size = n := by
        intro x n e hx
        unfold slotC at hx
        split at hx
        · simp at hx; rename_i he; exact ⟨he, hx.2, hx.1⟩
        · simp at hx
      obtain ⟨p1, p2, p3⟩ := keyE _ _ _ e1
      obtain ⟨q1, q2, q3⟩ := keyE _ _ _ e2
      obtain ⟨r1, r2, r3⟩ := keyE _ _ _ e3
      simp only at p1 p2 p3 q1 q2 q3 r1 r2 r3
      subst p1 p2 p3 q1 q2 q3 r1 r2 r3
      refine ⟨i + k, by omega, ?_⟩
      have t1 : (i + k + 1) / 2 = i := by omega
      have t2 : (i + k) / 2 = k := by omega
      have t3 : min (i + k) 1 = 1 := by omega
      simp [sideAt, cellAt, copies, isTwo, t1, t2, t3]
  · rintro ⟨i, hi, rfl⟩
    have t3 : min i 1 = 1 := by omega
    cases ae <;> cases al <;> cases be <;> cases bl <;> cases ce <;> cases cl <;> simp at h <;>
      simp [slotC, sideAt, cellAt, copies, isTwo, t3] <;>
      first
      | exact Fills.two as bs cs ((i + 1) / 2) (i / 2) (by omega) (by omega)
      | (have := Fills.one none none (some (cs, true)) 0 0 i (by simp [Slot.Elastic]) rfl rfl hi
         simpa [Slot.size] using this)
      | (have := Fills.one none (some (bs, true)) none 0 i 0 (by simp [Slot.Elastic]) rfl hi rfl
         simpa [Slot.size] using this)
      | (have := Fills.one (some (as, true)) none none i 0 0 (by simp [Slot.Elastic]) hi rfl rfl
         simpa [Slot.size] using this)
      | (have := Fills.one none (some (bs, false)) (some (cs, true)) 0 1 i (by simp [Slot.Elastic]) rfl rfl hi
         simpa [Slot.size] using this)
      | (have := Fills.one none (some (bs, true)) (some (cs, false)) 0 i 1 (by simp [Slot.Elastic]) rfl hi rfl
         simpa [Slot.size] using this)
      | (have := Fills.one (some (as, false)) none (some (cs, true)) 1 0 i (by simp [Slot.Elastic]) rfl rfl hi
         simpa [Slot.size] using this)
      | (have := Fills.one (some (as, true)) none (some (cs, false)) i 0 1 (by simp [Slot.Elastic]) hi rfl rfl
         simpa [Slot.size] using this)
      | (have := Fills.one (some (as, false)) (some (bs, true)) none 1 i 0 (by simp [Slot.Elastic]) rfl hi rfl
         simpa [Slot.size] using this)
      | (have := Fills.one (some (as, true)) (some (bs, false)) none i 1 0 (by simp [Slot.Elastic]) hi rfl rfl
         simpa [Slot.size] using this)
      | (have := Fills.one (some (as, false)) (some (bs, false)) (some (cs, true)) 1 1 i (by simp [Slot.Elastic]) rfl rfl hi
         simpa [Slot.size] using this)
      | (have := Fills.one (some (as, false)) (some (bs, true)) (some (cs, false)) 1 i 1 (by simp [Slot.Elastic]) rfl hi rfl
         simpa [Slot.size] using this)
      | (have := Fills.one (some (as, true)) (some (bs, false)) (some (cs, false)) i 1 1 (by simp [Slot.Elastic]) hi rfl rfl
         simpa [Slot.size] using this)

/-- the cell of a shape -/
def cellOf (size : Shape → Nat) (s : Shape) : Cell := { exist := !s.isEmpty, elastic := s.elastic, size := size s, fill := 0 }

theorem present_iff (s : Shape) : s.isEmpty = false ↔ Present s := by
  unfold Shape.isEmpty Present
  cases s.lines <;> simp
  omega

theorem slotC_cellOf (size : Shape → Nat) (s : Shape) : slotC (cellOf size s) = slotOf size s := by
  unfold slotC cellOf slotOf
  by_cases h : Present s
  · have := (present_iff s).2 h
    simp [h, this]
  · have : s.isEmpty = true := by
      cases he : s.isEmpty with | true => rfl | false => exact absurd ((present_iff s).1 he) h
    simp [h, this]

/-- The precalculation for two sides of three shapes each. -/
theorem precalc_spec (size : Shape → Nat) (x y z x' y' z' : Shape) (target : Nat)
    (h : GoodSide [slotOf size x, slotOf size y, slotOf size z])
    (h' : GoodSide [slotOf size x', slotOf size y', slotOf size z']) :
    let run := fun fuel => precalcLoop target fuel (initSide size [x, y, z]) (initSide size [x', y', z'])
    let s1 := [slotOf size x, slotOf size y, slotOf size z]
    let s2 := [slotOf size x', slotOf size y', slotOf size z']
    (∀ fuel r, run fuel = some r → ∃ t b, r = .ok (t, b) ∧ t.len = b.len ∧
      Fills s1 (t.cells.map (·.fill)) ∧ (t.cells.map (·.fill)).sum = t.len ∧
      Fills s2 (b.cells.map (·.fill)) ∧ (b.cells.map (·.fill)).sum = t.len ∧ target ≤ t.len ∧
      ∀ n, Common s1 s2 target n → t.len ≤ n) ∧
    ((∃ fuel r, run fuel = some r) ↔ ∃ n, Common s1 s2 target n) := by
  intro run s1 s2
  have hg : GoodCells (cellOf size x) (cellOf size y) (cellOf size z) :=
    goodCells_of (by simp [cellOf]) (by simpa only [slotC_cellOf] using h)
  have hg' : GoodCells (cellOf size x') (cellOf size y') (cellOf size z') :=
    goodCells_of (by simp [cellOf]) (by simpa only [slotC_cellOf] using h')
  have hrun : ∀ fuel, run fuel = precalcLoop target fuel
      (sideAt (cellOf size x) (cellOf size y) (cellOf size z) 0)
      (sideAt (cellOf size x') (cellOf size y') (cellOf size z') 0) := by
    intro fuel
    rw [sideAt_zero hg, sideAt_zero hg']; rfl
  have hs1 : s1 = [slotC (cellOf size x), slotC (cellOf size y), slotC (cellOf size z)] := by
    simp only [slotC_cellOf]; rfl
  have hs2 : s2 = [slotC (cellOf size x'), slotC (cellOf size y'), slotC (cellOf size z')] := by
    simp only [slotC_cellOf]; rfl
  clear_value run s1 s2
  subst hs1 hs2
  generalize cellOf size x = a at *
  generalize cellOf size y = b at *
  generalize cellOf size z = c at *
  generalize cellOf size x' = a' at *
  generalize cellOf size y' = b' at *
  generalize cellOf size z' = c' at *
  have hmeet : ∀ n, Common [slotC a, slotC b, slotC c] [slotC a', slotC b', slotC c'] target n →
      ∃ i k, Meet a b c a' b' c' target i k ∧ (sideAt a b c i).len = n := by
    rintro n ⟨ht, ⟨f1, hf1, hn1⟩, ⟨f2, hf2, hn2⟩⟩
    obtain ⟨i, hi, rfl⟩ := (fills_iff hg f1).1 hf1
    obtain ⟨k, hk, rfl⟩ := (fills_iff hg' f2).1 hf2
    rw [sum_fill] at hn1 hn2
    exact ⟨i, k, ⟨hi, hk, by omega, by omega⟩, hn1⟩
  have hsound : ∀ fuel r, run fuel = some r → ∃ i k, r = .ok (sideAt a b c i, sideAt a' b' c' k) ∧
      Meet a b c a' b' c' target i k ∧ ∀ I K, Meet a b c a' b' c' target I K → i ≤ I ∧ k ≤ K := by
    intro fuel r hr
    rw [hrun] at hr
    exact loop_sound hg hg' target fuel 0 0 r (.inl ⟨rfl, rfl⟩) (fun _ _ _ => ⟨by omega, by omega⟩) hr
  refine ⟨?_, ?_, ?_⟩
  · intro fuel r hr
    obtain ⟨i, k, rfl, ⟨hi, hk, he, ht⟩, hmin⟩ := hsound fuel r hr
    refine ⟨_, _, rfl, he, (fills_iff hg _).2 ⟨i, hi, rfl⟩, sum_fill .., (fills_iff hg' _).2 ⟨k, hk, rfl⟩,
      by rw [sum_fill, he], ht, ?_⟩
    intro n hn
    obtain ⟨I, K, hm, rfl⟩ := hmeet n hn
    have := (hmin I K hm).1
    rcases Nat.lt_or_eq_of_le this with hlt | rfl
    · exact Nat.le_of_lt (mono_of_step (len_lt hg) hlt)
    · exact Nat.le_refl _
  · rintro ⟨fuel, r, hr⟩
    obtain ⟨i, k, rfl, ⟨hi, hk, he, ht⟩, -⟩ := hsound fuel r hr
    exact ⟨_, ht, ⟨_, (fills_iff hg _).2 ⟨i, hi, rfl⟩, sum_fill ..⟩, ⟨_, (fills_iff hg' _).2 ⟨k, hk, rfl⟩,
      by rw [sum_fill, he]⟩⟩
  · rintro ⟨n, hn⟩
    obtain ⟨I, K, hm, -⟩ := hmeet n hn
    obtain ⟨r, hr⟩ := loop_finishes hg hg' target hm (I + K) 0 0 (.inl ⟨rfl, rfl⟩) (by omega) (by omega) (by omega)
    exact ⟨I + K, r, by rw [hrun]; exact hr⟩

end Boxes
