import Verif.Lemmas.Precalc

/-!
# Lemmas about assembling the sides
-/
namespace Boxes
open Spec
set_option linter.unusedSimpArgs false

/-! ## order of the shapes in a horizontal side -/

theorem shapeSeq_zero (width fuel j : Nat) (s : Shape) (rest : List (Shape × Nat)) :
    shapeSeq width fuel j ((s, 0) :: rest) = shapeSeq width fuel j rest := by
  cases fuel with
  | zero => rw [shapeSeq, shapeSeq]
  | succ fuel =>
    rw [shapeSeq, shapeSeq]
    have hdw : ((s, 0) :: rest).dropWhile (fun p => p.2 == 0) = rest.dropWhile (fun p => p.2 == 0) := by
      simp [List.dropWhile_cons]
    rw [hdw]

theorem shapeSeq_copies (width : Nat) (s : Shape) (rest : List (Shape × Nat)) (hs : 0 < s.width) :
    ∀ (n fuel j : Nat), j + n * s.width ≤ width → width - j ≤ fuel →
    ∃ fuel', width - (j + n * s.width) ≤ fuel' ∧
      shapeSeq width fuel j ((s, n * s.width) :: rest) =
        (shapeSeq width fuel' (j + n * s.width) rest).bind (fun l => .ok (List.replicate n s ++ l))
  | 0, fuel, j, _, hf => ⟨fuel, by omega, by
      rw [Nat.zero_mul, shapeSeq_zero, Nat.add_zero]
      cases shapeSeq width fuel j rest <;> simp [Res.bind]⟩
  | n + 1, fuel, j, hj, hf => by
    rw [Nat.add_mul, Nat.one_mul] at hj
    match fuel, hf with
    | 0, hf => omega
    | fuel + 1, hf =>
      obtain ⟨fuel', h1, h2⟩ := shapeSeq_copies width s rest hs n fuel (j + s.width) (by omega) (by omega)
      have he : j + s.width + n * s.width = j + (n + 1) * s.width := by rw [Nat.add_mul]; omega
      rw [he] at h1 h2
      refine ⟨fuel', h1, ?_⟩
      rw [shapeSeq, if_neg (by omega)]
      have hne : (n + 1) * s.width ≠ 0 := by rw [Nat.add_mul]; omega
      have hdw : ((s, (n + 1) * s.width) :: rest).dropWhile (fun p => p.2 == 0) = (s, (n + 1) * s.width) :: rest := by
        simp [List.dropWhile_cons, hne]
      rw [hdw]
      simp only
      rw [Res.sub_ok (by rw [Nat.add_mul]; omega)]
      simp only [Res.ok_bind]
      rw [show (n + 1) * s.width - s.width = n * s.width by rw [Nat.add_mul]; omega, h2]
      cases shapeSeq width fuel' (j + (n + 1) * s.width) rest <;> simp [Res.bind, List.replicate_succ]

/-- The shapes are taken in order, each as often as computed. -/
theorem shapeSeq_eq (width : Nat) : ∀ (l : List (Shape × Nat)) (fuel j : Nat), (∀ p ∈ l, p.2 = 0 ∨ 0 < p.1.width) →
    j + (l.map (fun p => p.2 * p.1.width)).sum = width → width - j ≤ fuel →
    shapeSeq width fuel j (l.map (fun p => (p.1, p.2 * p.1.width))) = .ok (l.flatMap (fun p => List.replicate p.2 p.1))
  | [], fuel, j, _, hj, _ => by
    simp at hj
    cases fuel <;> rw [shapeSeq, if_pos (by omega)] <;> simp
  | (s, n) :: l, fuel, j, hw, hj, hf => by
    simp only [List.map_cons, List.sum_cons] at hj
    simp only [List.map_cons, List.flatMap_cons]
    rcases hw (s, n) (by simp) with h0 | hs
    · simp only at h0
      subst h0
      rw [Nat.zero_mul, shapeSeq_zero, List.replicate_zero, List.nil_append]
      exact shapeSeq_eq width l fuel j (fun p hp => hw p (by simp [hp])) (by omega) hf
    · obtain ⟨fuel', h1, h2⟩ := shapeSeq_copies width s (l.map (fun p => (p.1, p.2 * p.1.width))) hs n fuel j (by omega) hf
      rw [h2, shapeSeq_eq width l fuel' _ (fun p hp => hw p (by simp [hp])) (by omega) h1]
      rfl

/-! ## lines of a horizontal side -/

/-- line `i` of a shape, empty if there is none -/
def lineAt (i : Nat) (s : Shape) : Bxs := s.lines[i]?.getD emptyBxs

theorem lineOf_eq (i : Nat) : ∀ (l : List Shape), (∀ s ∈ l, i < s.lines.length) → lineOf i l = .ok (l.map (lineAt i))
  | [], _ => rfl
  | s :: l, h => by
    have h1 := h s (by simp)
    rw [lineOf, List.getElem?_eq_getElem h1, lineOf_eq i l (fun s hs => h s (by simp [hs]))]
    simp [lineAt, List.getElem?_eq_getElem h1]

theorem charsRequired_le (l : List Shape) : ∀ (is : List Nat), (∀ i ∈ is, ∀ s ∈ l, i < s.lines.length) →
    ∃ n, charsRequired l is = .ok n ∧ ∀ i ∈ is, (l.map (fun s => (lineAt i s).numChars)).sum ≤ n
  | [], _ => ⟨0, rfl, by simp⟩
  | i :: is, h => by
    obtain ⟨n, h1, h2⟩ := charsRequired_le l is (fun i hi => h i (by simp [hi]))
    rw [charsRequired, lineOf_eq i l (h i (by simp)), h1]
    refine ⟨max _ n, rfl, ?_⟩
    intro k hk
    simp only [List.mem_cons] at hk
    rcases hk with rfl | hk
    · simp only [List.map_map]; exact Nat.le_max_left _ _
    · exact Nat.le_trans (h2 k hk) (Nat.le_max_right _ _)

theorem assembleLines_eq (db : CharDb) (l : List Shape) (maxChars width : Nat) : ∀ (is : List Nat),
    (∀ i ∈ is, ∀ s ∈ l, i < s.lines.length) →
    (∀ i ∈ is, (l.map (fun s => (lineAt i s).memory)).flatten.length ≤ maxChars) →
    (∀ i ∈ is, (l.map (fun s => (lineAt i s).ascii)).flatten.length ≤ width) →
    (∀ i ∈ is, ∃ b, fromUnicode db (l.map (fun s => (lineAt i s).memory)).flatten = some b) →
    ∃ r, assembleLines db l maxChars width is = .ok r ∧ r.length = is.length ∧
      ∀ (k : Nat) i, is[k]? = some i → ∃ b, r[k]? = some b ∧
        fromUnicode db (l.map (fun s => (lineAt i s).memory)).flatten = some b
  | [], _, _, _, _ => ⟨[], rfl, rfl, by simp⟩
  | i :: is, h, h1, h2, h3 => by
    obtain ⟨r, r1, r2, r3⟩ := assembleLines_eq db l maxChars width is (fun i hi => h i (by simp [hi]))
      (fun i hi => h1 i (by simp [hi])) (fun i hi => h2 i (by simp [hi])) (fun i hi => h3 i (by simp [hi]))
    obtain ⟨b, hb⟩ := h3 i (by simp)
    have e1 := h1 i (by simp)
    have e2 := h2 i (by simp)
    rw [assembleLines, lineOf_eq i l (h i (by simp))]
    simp only [Res.ok_bind, List.map_map]
    have c1 : (l.map ((·.memory) ∘ lineAt i)) = l.map (fun s => (lineAt i s).memory) := rfl
    have c2 : (l.map ((·.ascii) ∘ lineAt i)) = l.map (fun s => (lineAt i s).ascii) := rfl
    rw [c1, c2, if_neg (by omega), hb, r1]
    refine ⟨b :: r, rfl, by simp [r2], ?_⟩
    intro k x hk
    cases k with
    | zero => simp at hk; subst hk; exact ⟨b, rfl, hb⟩
    | succ k => simp at hk; obtain ⟨b', q1, q2⟩ := r3 k x hk; exact ⟨b', by simpa using q1, q2⟩

/-! ## lines of a vertical side -/

theorem sideLines_zero (n : Nat) (s : Shape) (rest : List (Shape × Nat)) (sc : Nat) :
    sideLines n ((s, 0) :: rest) sc = sideLines n rest 0 := by
  cases n with
  | zero => rw [sideLines, sideLines]
  | succ n =>
    rw [sideLines, sideLines]
    have hle : (rest.dropWhile (fun p => p.2 == 0)).length ≤ rest.length :=
      (List.dropWhile_sublist _).length_le
    have hdw : ((s, 0) :: rest).dropWhile (fun p => p.2 == 0) = rest.dropWhile (fun p => p.2 == 0) := by
      simp [List.dropWhile_cons]
    rw [hdw]
    have : ¬ (rest.dropWhile (fun p => p.2 == 0)).length = ((s, 0) :: rest).length := by simp; omega
    simp only [this, if_false, ite_self]

/-- one copy of the shape -/
theorem sideLines_copy (s : Shape) (rest : List (Shape × Nat)) (hl : s.lines.length = s.height) (m x : Nat) :
    ∀ k sc, 0 < k → k ≤ s.height → (sc = s.height - k ∨ (sc = s.height ∧ k = s.height)) →
    sideLines (k + m) ((s, k + x) :: rest) sc =
      (sideLines m ((s, x) :: rest) s.height).bind (fun l => .ok (s.lines.drop (s.height - k) ++ l))
  | 0, _, h0, _, _ => by omega
  | k + 1, sc, _, hk, hsc => by
    rw [show k + 1 + m = (k + m) + 1 by omega, sideLines]
    have hdw : ((s, k + 1 + x) :: rest).dropWhile (fun p => p.2 == 0) = (s, k + 1 + x) :: rest := by
      simp [List.dropWhile_cons]
    rw [hdw]
    simp only [if_true]
    have hsc' : (if sc = s.height then 0 else sc) = s.height - (k + 1) := by
      split <;> omega
    rw [hsc', List.getElem?_eq_getElem (by omega)]
    simp only [Res.get_some, Res.ok_bind]
    rw [show k + 1 + x - 1 = k + x by omega]
    have hd : s.lines.drop (s.height - (k + 1)) = s.lines[s.height - (k + 1)]'(by omega) :: s.lines.drop (s.height - k) := by
      rw [List.drop_eq_getElem_cons (by omega), show s.height - (k + 1) + 1 = s.height - k by omega]
    rw [hd, show s.height - (k + 1) + 1 = s.height - k by omega]
    rcases Nat.eq_zero_or_pos k with rfl | hkp
    · simp only [Nat.zero_add, Nat.sub_zero]
      have : s.lines.drop s.height = [] := by rw [← hl]; simp
      rw [this]
      cases sideLines m ((s, x) :: rest) s.height <;> simp [Res.bind]
    · rw [sideLines_copy s rest hl m x k (s.height - k) hkp (by omega) (.inl rfl)]
      cases sideLines m ((s, x) :: rest) s.height <;> simp [Res.bind]

theorem sideLines_copies (s : Shape) (rest : List (Shape × Nat)) (hl : s.lines.length = s.height) (hs : 0 < s.height)
    (m : Nat) : ∀ n sc, (sc = 0 ∨ sc = s.height) →
    sideLines (n * s.height + m) ((s, n * s.height) :: rest) sc =
      (sideLines m rest 0).bind (fun l => .ok ((List.replicate n s.lines).flatten ++ l))
  | 0, sc, _ => by
    rw [Nat.zero_mul, Nat.zero_add, sideLines_zero]
    cases sideLines m rest 0 <;> simp [Res.bind]
  | n + 1, sc, hsc => by
    have h1 := sideLines_copy s rest hl (n * s.height + m) (n * s.height) s.height sc hs (by omega) (by omega)
    rw [show (n + 1) * s.height + m = s.height + (n * s.height + m) by rw [Nat.add_mul]; omega,
      show (n + 1) * s.height = s.height + n * s.height by rw [Nat.add_mul]; omega, h1,
      sideLines_copies s rest hl hs m n s.height (.inr rfl)]
    cases sideLines m rest 0 <;> simp [Res.bind, List.replicate_succ]

/-- The shapes are taken from top to bottom, each as often as computed, line by line. -/
theorem sideLines_eq : ∀ (l : List (Shape × Nat)), (∀ p ∈ l, p.2 = 0 ∨ (0 < p.1.height ∧ p.1.lines.length = p.1.height)) →
    sideLines (l.map (fun p => p.2 * p.1.height)).sum (l.map (fun p => (p.1, p.2 * p.1.height))) 0 =
      .ok (l.flatMap (fun p => (List.replicate p.2 p.1.lines).flatten))
  | [], _ => rfl
  | (s, n) :: l, h => by
    simp only [List.map_cons, List.sum_cons, List.flatMap_cons]
    have ih := sideLines_eq l (fun p hp => h p (by simp [hp]))
    rcases h (s, n) (by simp) with h0 | ⟨h1, h2⟩
    · simp only at h0
      subst h0
      rw [Nat.zero_mul, sideLines_zero, Nat.zero_add, ih]
      simp
    · rw [sideLines_copies s _ h2 h1 _ n 0 (.inl rfl), ih]
      rfl

end Boxes
