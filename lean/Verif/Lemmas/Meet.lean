import Verif.Spec.Layout

/-!
# Lemmas: when two sides can have the same extent
-/
namespace Boxes
open Spec
set_option linter.unusedSimpArgs false

theorem bezout (a b : Nat) : ∃ x y : Int, (a : Int) * x + b * y = (Nat.gcd a b : Nat) := by
  induction a, b using Nat.gcd.induction with
  | H0 n => exact ⟨0, 1, by simp⟩
  | H1 m n hm ih =>
    obtain ⟨x, y, h⟩ := ih
    rw [Nat.gcd_rec, ← h]
    refine ⟨y - (n / m : Nat) * x, x, ?_⟩
    have hd := Nat.div_add_mod n m
    have : (n : Int) = m * (n / m : Nat) + (n % m : Nat) := by exact_mod_cast hd.symm
    generalize (n / m : Nat) = q at *
    generalize (n % m : Nat) = r at *
    rw [this]
    simp only [Int.mul_sub, Int.add_mul, Int.mul_assoc]
    omega

/-- Two arithmetic progressions meet beyond any bound iff the gcd of their steps divides the difference of their starts. -/
theorem progressions_meet {p q : Nat} (hp : 0 < p) (hq : 0 < q) (o o' target : Nat) :
    (∃ i k, 1 ≤ i ∧ 1 ≤ k ∧ o + i * p = o' + k * q ∧ target ≤ o + i * p) ↔ ((Nat.gcd p q : Nat) : Int) ∣ (o : Int) - o' := by
  constructor
  · rintro ⟨i, k, -, -, he, -⟩
    have h1 : ((Nat.gcd p q : Nat) : Int) ∣ (p : Int) := Int.ofNat_dvd.2 (Nat.gcd_dvd_left p q)
    have h2 : ((Nat.gcd p q : Nat) : Int) ∣ (q : Int) := Int.ofNat_dvd.2 (Nat.gcd_dvd_right p q)
    have : (o : Int) - o' = q * k - p * i := by
      have : (o : Int) + i * p = o' + k * q := by exact_mod_cast he
      rw [Int.mul_comm (q : Int), Int.mul_comm (p : Int)]; omega
    rw [this]
    exact Int.dvd_sub (Int.dvd_mul_of_dvd_left h2) (Int.dvd_mul_of_dvd_left h1)
  · rintro ⟨c, hc⟩
    obtain ⟨x, y, hxy⟩ := bezout p q
    -- (o - o') = c * (p x + q y), hence o + p (-c x) = o' + q (c y)
    rw [← hxy] at hc
    generalize hX : -(x * c) = X at *
    generalize hY : y * c = Y at *
    have h0 : (o : Int) + p * X = o' + q * Y := by
      rw [← hX, ← hY]
      simp only [Int.add_mul, Int.mul_assoc] at hc
      rw [Int.mul_neg]; omega
    have ht : ∃ t : Nat, X.natAbs + Y.natAbs + target + 1 = t := ⟨_, rfl⟩
    obtain ⟨t, ht⟩ := ht
    have hqt : (t : Int) ≤ q * t := by
      have : 1 * t ≤ q * t := Nat.mul_le_mul_right t hq
      exact_mod_cast (by omega : t ≤ q * t)
    have hpt : (t : Int) ≤ p * t := by
      have : 1 * t ≤ p * t := Nat.mul_le_mul_right t hp
      exact_mod_cast (by omega : t ≤ p * t)
    have hi : ∃ i : Nat, (i : Int) = X + q * t := ⟨(X + q * t).toNat, by omega⟩
    have hk : ∃ k : Nat, (k : Int) = Y + p * t := ⟨(Y + p * t).toNat, by omega⟩
    obtain ⟨i, hi⟩ := hi
    obtain ⟨k, hk⟩ := hk
    refine ⟨i, k, by omega, by omega, ?_, ?_⟩
    · have : (o : Int) + i * p = o' + k * q := by
        rw [hi, hk, Int.add_mul, Int.add_mul, Int.mul_comm X, Int.mul_comm Y, Int.mul_comm (q * (t : Int)) p,
          Int.mul_comm (p * (t : Int)) q, ← Int.mul_assoc, ← Int.mul_assoc, Int.mul_comm (q : Int) p]
        omega
      exact_mod_cast this
    · have : i * 1 ≤ i * p := Nat.mul_le_mul_left i hp
      omega

/-- a slot that is not elastic -/
theorem notElastic {s : Slot} (h : ¬ s.Elastic) : s = none ∨ ∃ m, s = some (m, false) := by
  match s with
  | none => exact .inl rfl
  | some (m, false) => exact .inr ⟨m, rfl⟩
  | some (_, true) => exact absurd trivial h

theorem fills_sum {s : List Slot} (h : GoodSide s) :
    0 < period s ∧
    (∀ f, Fills s f → ∃ o ∈ offsets s, ∃ k, f.sum = o + k * period s) ∧
    (∀ o ∈ offsets s, ∀ k, 1 ≤ k → ∃ f, Fills s f ∧ f.sum = o + k * period s) := by
  cases h with
  | left n b c h0 hb hc hs =>
    refine ⟨by simp [period, Slot.Elastic, Slot.size]; omega, ?_, ?_⟩
    · intro f hf
      rcases notElastic hb with rfl | ⟨m, rfl⟩ <;> rcases notElastic hc with rfl | ⟨m', rfl⟩ <;> cases hf with
      | one _ _ _ i j k hne o1 o2 o3 =>
        simp [Occurs] at o1 o2 o3
        refine ⟨_, by simp [offsets]; rfl, i, ?_⟩
        simp [o2, o3, fixedPart, period, Slot.Elastic, Slot.size] <;> omega
    · intro o ho k hk
      rcases notElastic hb with rfl | ⟨m, rfl⟩ <;> rcases notElastic hc with rfl | ⟨m', rfl⟩ <;>
        simp [offsets] at ho <;> subst ho
      · exact ⟨_, .one _ _ _ k 0 0 (by simp [Slot.Elastic]) hk rfl rfl, by simp [fixedPart, period, Slot.Elastic, Slot.size]⟩
      · exact ⟨_, .one _ _ _ k 0 1 (by simp [Slot.Elastic]) hk rfl rfl,
          by simp [fixedPart, period, Slot.Elastic, Slot.size]; omega⟩
      · exact ⟨_, .one _ _ _ k 1 0 (by simp [Slot.Elastic]) hk rfl rfl,
          by simp [fixedPart, period, Slot.Elastic, Slot.size]; omega⟩
      · exact ⟨_, .one _ _ _ k 1 1 (by simp [Slot.Elastic]) hk rfl rfl,
          by simp [fixedPart, period, Slot.Elastic, Slot.size]; omega⟩
  | mid a n c h0 hb hc hs =>
    refine ⟨by simp [period, Slot.Elastic, Slot.size]; omega, ?_, ?_⟩
    · intro f hf
      rcases notElastic hb with rfl | ⟨m, rfl⟩ <;> rcases notElastic hc with rfl | ⟨m', rfl⟩ <;> cases hf with
      | one _ _ _ i j k hne o1 o2 o3 =>
        simp [Occurs] at o1 o2 o3
        refine ⟨_, by simp [offsets]; rfl, j, ?_⟩
        simp [o1, o3, fixedPart, period, Slot.Elastic, Slot.size] <;> omega
    · intro o ho k hk
      rcases notElastic hb with rfl | ⟨m, rfl⟩ <;> rcases notElastic hc with rfl | ⟨m', rfl⟩ <;>
        simp [offsets] at ho <;> subst ho
      · exact ⟨_, .one _ _ _ 0 k 0 (by simp [Slot.Elastic]) rfl hk rfl, by simp [fixedPart, period, Slot.Elastic, Slot.size]⟩
      · exact ⟨_, .one _ _ _ 0 k 1 (by simp [Slot.Elastic]) rfl hk rfl,
          by simp [fixedPart, period, Slot.Elastic, Slot.size]; omega⟩
      · exact ⟨_, .one _ _ _ 1 k 0 (by simp [Slot.Elastic]) rfl hk rfl,
          by simp [fixedPart, period, Slot.Elastic, Slot.size] <;> omega⟩
      · exact ⟨_, .one _ _ _ 1 k 1 (by simp [Slot.Elastic]) rfl hk rfl,
          by simp [fixedPart, period, Slot.Elastic, Slot.size]; omega⟩
  | right a b n h0 hb hc hs =>
    refine ⟨by simp [period, Slot.Elastic, Slot.size]; omega, ?_, ?_⟩
    · intro f hf
      rcases notElastic hb with rfl | ⟨m, rfl⟩ <;> rcases notElastic hc with rfl | ⟨m', rfl⟩ <;> cases hf with
      | one _ _ _ i j k hne o1 o2 o3 =>
        simp [Occurs] at o1 o2 o3
        refine ⟨_, by simp [offsets]; rfl, k, ?_⟩
        simp [o1, o2, fixedPart, period, Slot.Elastic, Slot.size] <;> omega
    · intro o ho k hk
      rcases notElastic hb with rfl | ⟨m, rfl⟩ <;> rcases notElastic hc with rfl | ⟨m', rfl⟩ <;>
        simp [offsets] at ho <;> subst ho
      · exact ⟨_, .one _ _ _ 0 0 k (by simp [Slot.Elastic]) rfl rfl hk, by simp [fixedPart, period, Slot.Elastic, Slot.size]⟩
      · exact ⟨_, .one _ _ _ 0 1 k (by simp [Slot.Elastic]) rfl rfl hk,
          by simp [fixedPart, period, Slot.Elastic, Slot.size] <;> omega⟩
      · exact ⟨_, .one _ _ _ 1 0 k (by simp [Slot.Elastic]) rfl rfl hk,
          by simp [fixedPart, period, Slot.Elastic, Slot.size] <;> omega⟩
      · exact ⟨_, .one _ _ _ 1 1 k (by simp [Slot.Elastic]) rfl rfl hk,
          by simp [fixedPart, period, Slot.Elastic, Slot.size] <;> omega⟩
  | outer l m n h1 h2 h3 =>
    refine ⟨by simp [period, Slot.Elastic, Slot.size]; omega, ?_, ?_⟩
    · intro f hf
      cases hf with
      | one _ _ _ i j k hne o1 o2 o3 => exact absurd ⟨trivial, trivial⟩ hne
      | two _ _ _ i k hi hik =>
        rcases hik with rfl | rfl
        · refine ⟨m, by simp [offsets], i, ?_⟩
          simp [period, Slot.Elastic, Slot.size, Nat.mul_add]; omega
        · refine ⟨m + l, by simp [offsets], k, ?_⟩
          simp [period, Slot.Elastic, Slot.size, Nat.mul_add, Nat.add_mul]; omega
    · intro o ho k hk
      simp [offsets] at ho
      rcases ho with rfl | rfl
      · refine ⟨_, .two l o n k k hk (.inl rfl), ?_⟩
        simp [period, Slot.Elastic, Slot.size, Nat.mul_add]; omega
      · refine ⟨_, .two l m n (k + 1) k (by omega) (.inr rfl), ?_⟩
        simp [period, Slot.Elastic, Slot.size, Nat.mul_add, Nat.add_mul]; omega

theorem common_iff {s s' : List Slot} (h : GoodSide s) (h' : GoodSide s') (target : Nat) :
    (∃ n, Common s s' target n) ↔
      ∃ o ∈ offsets s, ∃ o' ∈ offsets s', ((Nat.gcd (period s) (period s') : Nat) : Int) ∣ (o : Int) - o' := by
  obtain ⟨p0, p1, p2⟩ := fills_sum h
  obtain ⟨q0, q1, q2⟩ := fills_sum h'
  constructor
  · rintro ⟨n, ht, ⟨f, hf, hn⟩, ⟨f', hf', hn'⟩⟩
    obtain ⟨o, ho, k, hk⟩ := p1 f hf
    obtain ⟨o', ho', k', hk'⟩ := q1 f' hf'
    refine ⟨o, ho, o', ho', ?_⟩
    have h1 : ((Nat.gcd (period s) (period s') : Nat) : Int) ∣ (period s : Int) := Int.ofNat_dvd.2 (Nat.gcd_dvd_left _ _)
    have h2 : ((Nat.gcd (period s) (period s') : Nat) : Int) ∣ (period s' : Int) := Int.ofNat_dvd.2 (Nat.gcd_dvd_right _ _)
    have : (o : Int) - o' = k' * period s' - k * period s := by
      have : (o : Int) + k * period s = o' + k' * period s' := by
        have : o + k * period s = o' + k' * period s' := by omega
        exact_mod_cast this
      omega
    rw [this]
    exact Int.dvd_sub (Int.dvd_mul_of_dvd_right h2) (Int.dvd_mul_of_dvd_right h1)
  · rintro ⟨o, ho, o', ho', hd⟩
    obtain ⟨i, k, hi, hk, he, ht⟩ := (progressions_meet p0 q0 o o' target).2 hd
    obtain ⟨f, hf, hn⟩ := p2 o ho i hi
    obtain ⟨f', hf', hn'⟩ := q2 o' ho' k hk
    exact ⟨_, ht, ⟨f, hf, hn⟩, ⟨f', hf', by omega⟩⟩

end Boxes
