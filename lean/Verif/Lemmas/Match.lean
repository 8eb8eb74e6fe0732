import Verif.Spec.Match
import Verif.Lemmas.Tools2
import Verif.Lemmas.Remove
import Verif.Props.Tools

/-!
# Lemmas on recognising box lines
-/
set_option linter.unusedSimpArgs false
namespace Boxes
open Spec

/-! ## shorten -/

/-- blank at a position -/
def blankAt (db : CharDb) (m : Str) (i : Nat) : Bool := m[i]?.elim false (isBlank db)

theorem blankAt_iff (db : CharDb) (m : Str) (i : Nat) : blankAt db m i = true ↔ ∃ c, m[i]? = some c ∧ Blank db c := by
  unfold blankAt
  cases h : m[i]? with
  | none => simp
  | some c => simp [isBlank_iff]

theorem shortenLoop_spec (db : CharDb) (m : Str) (pl al ar : Bool) (hpl : pl = true → al = true) : ∀ n s e, s ≤ e → e ≤ m.length →
    ∃ l r, shortenLoop db m pl al ar n s e = (s + l, e - r) ∧ s + l + r ≤ e ∧ l + r ≤ n ∧
      (∀ i, s ≤ i → i < s + l → blankAt db m i = true) ∧ (∀ i, e - r ≤ i → i < e → blankAt db m i = true) ∧
      (al = false → l = 0) ∧ (ar = false → r = 0) ∧
      (pl = true → 0 < r → blankAt db m (s + l) = false) ∧
      (pl = false → 0 < l → ar = true → blankAt db m (e - r - 1) = false) ∧
      (l + r < n → s + l < e - r → (al = true → blankAt db m (s + l) = false) ∧ (ar = true → blankAt db m (e - r - 1) = false)) := by
  intro n
  induction n with
  | zero =>
    intro s e h1 h2
    exact ⟨0, 0, by simp [shortenLoop], by omega, by omega, by intro i; omega, by intro i; omega, by simp, by simp, by simp, by simp, by simp⟩
  | succ n ih =>
    intro s e h1 h2
    have stepL : s < e → blankAt db m s = true → al = true → (pl = false → ar = true → blankAt db m (e - 1) = false) →
        ∃ l r, shortenLoop db m pl al ar n (s + 1) e = (s + l, e - r) ∧ s + l + r ≤ e ∧ l + r ≤ n + 1 ∧
      (∀ i, s ≤ i → i < s + l → blankAt db m i = true) ∧ (∀ i, e - r ≤ i → i < e → blankAt db m i = true) ∧
      (al = false → l = 0) ∧ (ar = false → r = 0) ∧
      (pl = true → 0 < r → blankAt db m (s + l) = false) ∧
      (pl = false → 0 < l → ar = true → blankAt db m (e - r - 1) = false) ∧
      (l + r < n + 1 → s + l < e - r → (al = true → blankAt db m (s + l) = false) ∧ (ar = true → blankAt db m (e - r - 1) = false)) := by
      intro hse hb hal hp
      obtain ⟨l, r, a1, a2, a3, a4, a5, a6, a7, a8, a9, a10⟩ := ih (s + 1) e (by omega) h2
      refine ⟨l + 1, r, by rw [a1]; simp; omega, by omega, by omega, ?_, a5, by simp [hal], a7, ?_, ?_, ?_⟩
      · intro i h3 h4
        by_cases h : i = s
        · rw [h]; exact hb
        · exact a4 i (by omega) (by omega)
      · intro h3 h4; rw [show s + (l + 1) = s + 1 + l by omega]; exact a8 h3 h4
      · intro h3 h4 h5
        by_cases hr : r = 0
        · rw [hr, Nat.sub_zero]; exact hp h3 h5
        · have h6 := hp h3 h5
          have h7 := a5 (e - 1) (by omega) (by omega)
          rw [h6] at h7; simp at h7
      · intro h3 h4
        rw [show s + (l + 1) = s + 1 + l by omega]
        exact a10 (by omega) (by omega)
    have stepR : s < e → blankAt db m (e - 1) = true → ar = true → (pl = true → blankAt db m s = false) →
        ∃ l r, shortenLoop db m pl al ar n s (e - 1) = (s + l, e - r) ∧ s + l + r ≤ e ∧ l + r ≤ n + 1 ∧
      (∀ i, s ≤ i → i < s + l → blankAt db m i = true) ∧ (∀ i, e - r ≤ i → i < e → blankAt db m i = true) ∧
      (al = false → l = 0) ∧ (ar = false → r = 0) ∧
      (pl = true → 0 < r → blankAt db m (s + l) = false) ∧
      (pl = false → 0 < l → ar = true → blankAt db m (e - r - 1) = false) ∧
      (l + r < n + 1 → s + l < e - r → (al = true → blankAt db m (s + l) = false) ∧ (ar = true → blankAt db m (e - r - 1) = false)) := by
      intro hse hb har hp
      obtain ⟨l, r, a1, a2, a3, a4, a5, a6, a7, a8, a9, a10⟩ := ih s (e - 1) (by omega) (by omega)
      have er : e - (r + 1) = e - 1 - r := by omega
      refine ⟨l, r + 1, by rw [a1, er], by omega, by omega, a4, ?_, a6, by simp [har], ?_, ?_, ?_⟩
      · intro i h3 h4
        by_cases h : i = e - 1
        · rw [h]; exact hb
        · exact a5 i (by omega) (by omega)
      · intro h3 h4
        by_cases hl : l = 0
        · rw [hl, Nat.add_zero]; exact hp h3
        · have h6 := hp h3
          have h7 := a4 s (by omega) (by omega)
          rw [h6] at h7; simp at h7
      · intro h3 h4 h5; rw [er]; exact a9 h3 h4 h5
      · intro h3 h4
        rw [er] at h4 ⊢
        exact a10 (by omega) h4
    have stop : (s < e → (al = true → blankAt db m s = false) ∧ (ar = true → blankAt db m (e - 1) = false)) →
        ∃ l r, ((s, e) : Nat × Nat) = (s + l, e - r) ∧ s + l + r ≤ e ∧ l + r ≤ n + 1 ∧
      (∀ i, s ≤ i → i < s + l → blankAt db m i = true) ∧ (∀ i, e - r ≤ i → i < e → blankAt db m i = true) ∧
      (al = false → l = 0) ∧ (ar = false → r = 0) ∧
      (pl = true → 0 < r → blankAt db m (s + l) = false) ∧
      (pl = false → 0 < l → ar = true → blankAt db m (e - r - 1) = false) ∧
      (l + r < n + 1 → s + l < e - r → (al = true → blankAt db m (s + l) = false) ∧ (ar = true → blankAt db m (e - r - 1) = false)) := by
      intro h
      exact ⟨0, 0, by simp, by omega, by omega, by intro i; omega, by intro i; omega, by simp, by simp, by simp, by simp,
        fun _ h3 => h (by simpa using h3)⟩
    unfold shortenLoop
    rw [show (m[s]?.elim false (isBlank db)) = blankAt db m s from rfl, show (m[e - 1]?.elim false (isBlank db)) = blankAt db m (e - 1) from rfl]
    dsimp only
    by_cases hse : s < e
    · have hes : e > s := hse
      simp only [hse, hes, decide_true, Bool.true_and]
      cases pl with
      | true =>
        rw [if_pos rfl]
        have hal := hpl rfl
        cases hb : blankAt db m s with
        | true => rw [if_pos rfl]; exact stepL hse hb hal (by simp)
        | false =>
          rw [if_neg (by simp)]
          by_cases hr : (ar && blankAt db m (e - 1)) = true
          · rw [if_pos hr]
            simp at hr
            exact stepR hse hr.2 hr.1 (fun _ => hb)
          · rw [if_neg hr]
            refine stop (fun _ => ⟨fun _ => hb, fun h => ?_⟩)
            simpa [h] using hr
      | false =>
        rw [if_neg (by simp)]
        by_cases hr : (ar && blankAt db m (e - 1)) = true
        · rw [if_pos hr]
          simp at hr
          exact stepR hse hr.2 hr.1 (by simp)
        · rw [if_neg hr]
          have hr' : ar = true → blankAt db m (e - 1) = false := fun h => by simpa [h] using hr
          by_cases hl : (blankAt db m s && al) = true
          · rw [if_pos hl]
            simp at hl
            exact stepL hse hl.1 hl.2 (fun _ => hr')
          · rw [if_neg hl]
            refine stop (fun _ => ⟨fun h => ?_, hr'⟩)
            simpa [h] using hl
    · have hes : ¬ e > s := hse
      simp only [hse, hes, decide_false, Bool.false_and]
      cases pl with
      | true => rw [if_pos rfl, if_neg (by simp), if_neg (by simp)]; exact stop (fun h => absurd h hse)
      | false => rw [if_neg (by simp), if_neg (by simp), if_neg (by simp)]; exact stop (fun h => absurd h hse)

theorem blankAt_of_lt {db : CharDb} {m : Str} {i : Nat} (hi : i < m.length) :
    blankAt db m i = true ↔ ∀ c, m[i]? = some c → Blank db c := by
  rw [blankAt_iff]
  simp [List.getElem?_eq_getElem hi]

theorem blankAt_false {db : CharDb} {m : Str} {i : Nat} (hi : i < m.length) :
    blankAt db m i = false ↔ ∃ c, m[i]? = some c ∧ ¬ Blank db c := by
  rw [Bool.eq_false_iff, ne_eq, blankAt_of_lt hi]
  simp [List.getElem?_eq_getElem hi]

theorem not_blankAt {db : CharDb} {m : Str} {i : Nat} (h : ∃ c, m[i]? = some c ∧ ¬ Blank db c) : blankAt db m i = false := by
  obtain ⟨c, h1, h2⟩ := h
  rw [Bool.eq_false_iff, ne_eq, blankAt_iff]
  rintro ⟨c', h3, h4⟩
  rw [h1] at h3
  simp at h3
  exact h2 (h3 ▸ h4)

theorem Spec.Cut.front' {db : CharDb} {lf al ar : Bool} {m : Str} {l r : Nat} (h : Cut db lf al ar m l r) {i : Nat} (hi : i < l) :
    blankAt db m i = true := (blankAt_of_lt (by have := h.fits; omega)).2 (fun c hc => h.front i c hi hc)

theorem Spec.Cut.back' {db : CharDb} {lf al ar : Bool} {m : Str} {l r : Nat} (h : Cut db lf al ar m l r) {i : Nat} (hi : m.length - r ≤ i)
    (hl : i < m.length) : blankAt db m i = true := (blankAt_of_lt hl).2 (fun c hc => h.back i c hi hc)

/-- at most one way to cut a given number of characters -/
theorem Spec.Cut.unique {db : CharDb} {lf al ar : Bool} {m : Str} {l r l' r' : Nat} (h : Cut db lf al ar m l r) (h' : Cut db lf al ar m l' r')
    (hs : l + r = l' + r') : l = l' ∧ r = r' := by
  have key : ∀ {l r l' r'}, Cut db lf al ar m l r → Cut db lf al ar m l' r' → l + r = l' + r' → l < l' → False := by
    intro l r l' r' h h' hs hl
    have f := h.fits
    have f' := h'.fits
    have hr : 0 < r := by omega
    cases lf with
    | true =>
      have h1 := not_blankAt (h.leftOrder rfl hr)
      rw [h'.front' hl] at h1
      simp at h1
    | false =>
      have har : ar = true := by
        cases har : ar with
        | true => rfl
        | false => have := h.noRight har; omega
      have h1 := not_blankAt (h'.rightOrder rfl (by omega) har)
      rw [h.back' (by omega) (by omega)] at h1
      simp at h1
  rcases Nat.lt_trichotomy l l' with h1 | h1 | h1
  · exact (key h h' hs h1).elim
  · exact ⟨h1, by omega⟩
  · exact (key h' h hs.symm h1).elim

/-- `shorten` cuts one character more than before, if possible. -/
theorem shorten_iff (db : CharDb) (text : Bxs) (ht : text.numChars = text.memory.length) (q : Nat) (hq : q ≤ text.memory.length)
    (pl al ar : Bool) (s' : Str) (q' : Nat) :
    shorten db text q pl al ar = some (s', q') ↔ q' + 1 = q ∧ ∃ l r, Cut db (al && pl) al ar text.memory l r ∧
      l + r + q' = text.memory.length ∧ s' = remains text.memory l r := by
  have hpl : (if al = true then pl else false) = (al && pl) := by cases al <;> rfl
  obtain ⟨l, r, a1, a2, a3, a4, a5, a6, a7, a8, a9, a10⟩ := shortenLoop_spec db text.memory (al && pl) al ar (by simp; intro h _; exact h)
    (text.memory.length - q + 1) 0 text.memory.length (by omega) (by omega)
  simp only [Nat.zero_add] at a1 a2 a4 a8 a10
  have hcut : Cut db (al && pl) al ar text.memory l r :=
    { fits := a2
      front := fun i c h1 h2 => by
        obtain ⟨c', h3, h4⟩ := (blankAt_iff ..).1 (a4 i (by omega) h1)
        rw [h2] at h3; simp at h3; exact h3 ▸ h4
      back := fun i c h1 h2 => by
        obtain ⟨hi, -⟩ := List.getElem?_eq_some_iff.1 h2
        obtain ⟨c', h3, h4⟩ := (blankAt_iff ..).1 (a5 i h1 hi)
        rw [h2] at h3; simp at h3; exact h3 ▸ h4
      noLeft := a6
      noRight := a7
      leftOrder := fun h1 h2 => (blankAt_false (by omega)).1 (a8 h1 h2)
      rightOrder := fun h1 h2 h3 => (blankAt_false (by omega)).1 (a9 h1 h2 h3) }
  unfold shorten
  rw [ht, if_neg (by omega), hpl, a1]
  dsimp only
  constructor
  · intro h
    split at h
    · rename_i hlt
      simp at h
      obtain ⟨rfl, rfl⟩ := h
      refine ⟨by omega, l, r, hcut, by omega, ?_⟩
      unfold remains
      rw [show text.memory.length - r - l = text.memory.length - l - r by omega]
    · simp at h
  · rintro ⟨h1, l', r', h2, h3, rfl⟩
    have f := h2.fits
    have hsum : l + r = l' + r' := by
      by_cases hlt : l + r < text.memory.length - q + 1
      · exfalso
        by_cases hin : l < text.memory.length - r
        · have b := a10 hlt hin
          by_cases hl : l < l'
          · have al1 : al = true := by
              cases e : al with
              | true => rfl
              | false => have := h2.noLeft e; omega
            have := b.1 al1
            rw [h2.front' hl] at this
            simp at this
          · have har : ar = true := by
              cases e : ar with
              | true => rfl
              | false => have := h2.noRight e; omega
            have := b.2 har
            rw [h2.back' (by omega) (by omega)] at this
            simp at this
        · omega
      · omega
    obtain ⟨rfl, rfl⟩ := hcut.unique h2 hsum
    rw [if_pos (by omega)]
    unfold remains
    simp only [Option.some.injEq, Prod.mk.injEq]
    exact ⟨by rw [show text.memory.length - r - l = text.memory.length - l - r by omega], by omega⟩

/-! ## hmm -/

/-- cutting on the right only -/
theorem shorten_right (db : CharDb) (text : Bxs) (ht : text.numChars = text.memory.length) (q : Nat) (hq : q ≤ text.memory.length)
    (hb : ∀ c ∈ text.memory.drop q, Blank db c) :
    shorten db text q false false true =
      if 0 < q ∧ ∀ c ∈ text.memory.drop (q - 1), Blank db c then some (text.memory.take (q - 1), q - 1) else none := by
  split
  · rename_i h
    rw [shorten_iff db text ht q hq]
    refine ⟨by omega, 0, text.memory.length - (q - 1), ⟨by omega, by intro i; omega, ?_, by simp, by simp, by simp, by simp⟩, by omega, ?_⟩
    · intro i c h1 h2
      apply h.2
      rw [List.mem_iff_getElem?]
      exact ⟨i - (q - 1), by rw [List.getElem?_drop, ← h2]; congr 1; omega⟩
    · unfold remains
      rw [List.drop_zero]
      congr 1; omega
  · rename_i h
    cases hs : shorten db text q false false true with
    | none => rfl
    | some p =>
      obtain ⟨s', q'⟩ := p
      obtain ⟨h1, l, r, hc, h2, -⟩ := (shorten_iff db text ht q hq false false true s' q').1 hs
      exfalso
      apply h
      refine ⟨by omega, ?_⟩
      intro c hc'
      rw [List.mem_iff_getElem?] at hc'
      obtain ⟨i, hi⟩ := hc'
      rw [List.getElem?_drop] at hi
      have := hc.noLeft rfl
      exact hc.back (q - 1 + i) c (by omega) hi

theorem hmmFit_iff (db : CharDb) (line : Str) (cur : Nat) (text : Bxs) (aR : Bool) (ht : text.numChars = text.memory.length) (k : Nat) :
    ∀ fuel q, q < fuel → q ≤ text.memory.length → (∀ c ∈ text.memory.drop q, Blank db c) → (aR = true → q = text.memory.length) →
      (hmmFit db line cur text aR fuel (some (text.memory.take q)) q = some k ↔
        0 < k ∧ k ≤ q ∧ text.memory.take k <+: line.drop cur ∧ (∀ c ∈ text.memory.drop k, Blank db c) ∧
        (aR = true → k = text.memory.length) ∧
        ∀ j, k < j → j ≤ q → (aR = true → j = text.memory.length) → ¬ text.memory.take j <+: line.drop cur) := by
  intro fuel
  induction fuel with
  | zero => intro q h; omega
  | succ fuel ih =>
    intro q hf hq hb ha
    unfold hmmFit
    by_cases h0 : q = 0
    · rw [if_pos h0]
      simp
      intro h1 h2; omega
    · rw [if_neg h0]
      have hpre : strnEq q (line.drop cur) (text.memory.take q) = true ↔ text.memory.take q <+: line.drop cur := by
        have := strnEq_prefix (line.drop cur) (text.memory.take q)
        rwa [List.length_take, Nat.min_eq_left hq] at this
      by_cases hm : text.memory.take q <+: line.drop cur
      · rw [if_pos (hpre.2 hm)]
        constructor
        · intro h
          simp at h
          subst h
          exact ⟨by omega, Nat.le_refl _, hm, hb, ha, by intro j; omega⟩
        · rintro ⟨h1, h2, h3, h4, h5, h6⟩
          by_cases hk : k = q
          · rw [hk]
          · exact absurd hm (h6 q (by omega) (Nat.le_refl _) ha)
      · rw [if_neg (fun h => hm (hpre.1 h))]
        cases aR with
        | true =>
          simp only [Bool.not_true, Bool.false_eq_true, if_false]
          constructor
          · intro h; simp at h
          · rintro ⟨h1, h2, h3, h4, h5, h6⟩
            have := ha rfl
            have := h5 trivial
            exact absurd (by rw [show q = k by omega]; exact h3) hm
        | false =>
          simp only [Bool.not_false, if_true]
          rw [shorten_right db text ht q hq hb]
          split
          · rename_i s' q' he
            split at he
            · rename_i hc
              simp at he
              obtain ⟨rfl, rfl⟩ := he
              rw [ih (q - 1) (by omega) (by omega) hc.2 (by simp)]
              constructor
              · rintro ⟨h1, h2, h3, h4, h5, h6⟩
                refine ⟨h1, by omega, h3, h4, h5, ?_⟩
                intro j h7 h8 h9
                by_cases hj : j = q
                · rw [hj]; exact hm
                · exact h6 j h7 (by omega) h9
              · rintro ⟨h1, h2, h3, h4, h5, h6⟩
                have : k ≠ q := fun e => hm (e ▸ h3)
                exact ⟨h1, by omega, h3, h4, h5, fun j h7 h8 h9 => h6 j h7 (by omega) h9⟩
            · simp at he
          · rename_i he
            split at he
            · simp at he
            · rename_i hc
              constructor
              · intro h; simp at h
              · rintro ⟨h1, h2, h3, h4, h5, h6⟩
                have : k ≠ q := fun e => hm (e ▸ h3)
                exfalso
                apply hc
                refine ⟨by omega, fun c hcm => h4 c ?_⟩
                rw [List.mem_iff_getElem?] at hcm ⊢
                obtain ⟨i, hi⟩ := hcm
                exact ⟨q - 1 + i - k, by rw [List.getElem?_drop] at hi ⊢; rw [← hi]; congr 1; omega⟩

/-- the fit of a shape line in `hmm` -/
theorem hmmFit_longest (db : CharDb) (line : Str) (cur : Nat) (text : Bxs) (aR : Bool) (ht : text.numChars = text.memory.length) (k : Nat) :
    hmmFit db line cur text aR (text.numChars + 1) (some text.memory) text.numChars = some k ↔
      LongestFit db aR text.memory (line.drop cur) k := by
  have h := hmmFit_iff db line cur text aR ht k (text.numChars + 1) text.memory.length (by omega) (Nat.le_refl _) (by simp) (fun _ => rfl)
  rw [List.take_length] at h
  rw [ht] at h ⊢
  rw [h]
  constructor
  · rintro ⟨h1, h2, h3, h4, h5, h6⟩; exact ⟨h1, h2, h3, h4, h5, h6⟩
  · rintro ⟨h1, h2, h3, h4, h5, h6⟩; exact ⟨h1, h2, h3, h4, h5, h6⟩

theorem Spec.LongestFit.unique {db : CharDb} {w : Bool} {t r : Str} {q k : Nat} (h : LongestFit db w t r q) (h' : LongestFit db w t r k) :
    q = k := by
  rcases Nat.lt_trichotomy q k with h1 | h1 | h1
  · exact absurd h'.found (h.longest k h1 h'.inside h'.all)
  · exact h1
  · exact absurd h.found (h'.longest q h1 h.inside h.all)

theorem isShapeLineEmpty_iff (db : CharDb) (shapes : List ShapeLine) (idx : Nat) :
    isShapeLineEmpty db shapes idx = true ↔ ∀ sl, shapes[idx]? = some sl → Vanishing db sl := by
  unfold isShapeLineEmpty
  cases h : shapes[idx]? with
  | none => simp
  | some sl => simp [Vanishing]

theorem nonEmptyAfter_iff (db : CharDb) (shapes : List ShapeLine) (idx : Nat) :
    nonEmptyShapesAfter db shapes idx = false ↔ NothingFrom db shapes (idx + 1) 4 := by
  unfold nonEmptyShapesAfter NothingFrom
  rw [List.any_eq_false]
  constructor
  · intro h i sl h1 h2 h3
    have := h i (by rw [List.mem_range'_1]; omega)
    simp only [Bool.not_eq_true', Bool.not_eq_false] at this
    exact (isShapeLineEmpty_iff ..).1 this sl h3
  · intro h i hi
    rw [List.mem_range'_1] at hi
    simp only [Bool.not_eq_true', Bool.not_eq_false]
    exact (isShapeLineEmpty_iff ..).2 (fun sl h3 => h i sl (by omega) (by omega) h3)

theorem u32IsBlank_iff (db : CharDb) (s : Str) : u32IsBlank db s = true ↔ ∀ c ∈ s, Blank db c := by
  simp [u32IsBlank, isBlank_iff]

/-- the lengths recorded are those of the texts -/
def Sized (shapes : List ShapeLine) : Prop := ∀ sl ∈ shapes, sl.text.numChars = sl.text.memory.length

theorem hmmAnchored_iff (db : CharDb) (shapes : List ShapeLine) (line : Str) (endPos : Nat) (aR : Bool) (h5 : shapes.length = 5)
    (hs : Sized shapes) (he : endPos ≤ line.length) : ∀ fuel cur idx, idx ≤ 4 → endPos - cur + (4 - idx) < fuel →
      (hmmAnchored db shapes line endPos aR fuel cur idx = true ↔
        cur ≤ endPos ∧ SideRow db shapes aR (line.drop endPos) idx ((line.take endPos).drop cur)) := by
  intro fuel
  induction fuel with
  | zero => intro cur idx _ h; omega
  | succ fuel ih =>
    intro cur idx hidx hf
    unfold hmmAnchored
    by_cases h1 : cur > endPos
    · rw [if_pos h1]
      simp; omega
    · rw [if_neg h1]
      have hW : line.drop cur = (line.take endPos).drop cur ++ line.drop endPos := by
        conv => lhs; rw [← List.take_append_drop endPos line]
        rw [List.drop_append_of_le_length (by simp; omega)]
      have hlen : ((line.take endPos).drop cur).length = endPos - cur := by simp; omega
      by_cases h2 : cur = endPos
      · rw [if_pos h2]
        have hnil : (line.take endPos).drop cur = [] := by
          apply List.eq_nil_of_length_eq_zero; omega
        rw [hnil]
        simp only [Bool.or_eq_true, Bool.and_eq_true, beq_iff_eq, isShapeLineEmpty_iff, Bool.not_eq_true', nonEmptyAfter_iff]
        constructor
        · rintro (⟨rfl, hr⟩ | ⟨ha, hb⟩)
          · exact ⟨by omega, .corner hr⟩
          · refine ⟨by omega, .over ?_ ha⟩
            intro i sl h3 h4 h5
            by_cases hi : i = idx
            · exact ha sl (hi ▸ h5)
            · exact hb i sl (by omega) h4 h5
        · rintro ⟨-, h⟩
          generalize hw : ([] : Str) = w at h
          cases h with
          | corner hr => exact Or.inl ⟨rfl, hr⟩
          | over ha hb => exact Or.inr ⟨hb, fun i sl h3 h4 h5 => ha i sl (by omega) h4 h5⟩
          | blank _ hne _ => exact absurd hw.symm hne
          | skip _ hne => exact absurd hw.symm hne
          | last _ _ _ hl => have := hl.some; rw [← hw] at this; simp at this
          | once _ hne => exact absurd hw.symm hne
          | again _ hne => exact absurd hw.symm hne
      · rw [if_neg h2]
        have hne : (line.take endPos).drop cur ≠ [] := by
          intro h; rw [h] at hlen; simp at hlen; omega
        by_cases h3 : idx ≥ 4
        · rw [if_pos h3, u32IsBlank_iff, hW]
          constructor
          · intro h; exact ⟨by omega, .blank h3 hne h⟩
          · rintro ⟨-, h⟩
            generalize hw : (line.take endPos).drop cur = w at *
            cases h with
            | corner => exact absurd rfl hne
            | over => exact absurd rfl hne
            | blank _ _ h => exact h
            | skip h => omega
            | last h => omega
            | once h => omega
            | again h => omega
        · rw [if_neg h3]
          have hi : idx < shapes.length := by omega
          have hsome := List.getElem?_eq_getElem hi
          generalize shapes[idx] = sl at hsome
          rw [hsome]
          dsimp only
          by_cases hemp : sl.empty = true
          · rw [if_pos hemp, ih cur (idx + 1) (by omega) (by omega)]
            constructor
            · rintro ⟨h4, h5⟩; exact ⟨h4, .skip (by omega) hne hsome hemp h5⟩
            · rintro ⟨h4, h5⟩
              refine ⟨h4, ?_⟩
              generalize hw : (line.take endPos).drop cur = w at *
              cases h5 with
              | corner => exact absurd rfl hne
              | over => exact absurd rfl hne
              | blank h => omega
              | skip _ _ _ _ h => exact h
              | last _ hx hy => rw [hsome] at hx; simp at hx; subst hx; rw [hemp] at hy; simp at hy
              | once _ _ hx hy => rw [hsome] at hx; simp at hx; subst hx; rw [hemp] at hy; simp at hy
              | again _ _ hx hy => rw [hsome] at hx; simp at hx; subst hx; rw [hemp] at hy; simp at hy
          · rw [if_neg hemp]
            have hemp' : sl.empty = false := by simpa using hemp
            have hsz : sl.text.numChars = sl.text.memory.length := hs sl (List.mem_of_getElem? hsome)
            have hfit := hmmFit_longest db line cur sl.text aR hsz
            cases hq : hmmFit db line cur sl.text aR (sl.text.numChars + 1) (some sl.text.memory) sl.text.numChars with
            | none =>
              have hno : ∀ k, ¬ LongestFit db aR sl.text.memory (line.drop cur) k := fun k hk => by
                rw [← hfit, hq] at hk; simp at hk
              constructor
              · intro h; simp at h
              · rintro ⟨h4, h5⟩
                exfalso
                rw [hW] at hno
                generalize hw : (line.take endPos).drop cur = w at *
                cases h5 with
                | corner => exact absurd rfl hne
                | over => exact absurd rfl hne
                | blank h => omega
                | skip _ _ hx hy => rw [hsome] at hx; simp at hx; subst hx; exact hemp hy
                | last _ hx _ hy => rw [hsome] at hx; simp at hx; subst hx; exact hno _ hy
                | once _ _ hx _ hy => rw [hsome] at hx; simp at hx; subst hx; exact hno _ hy
                | again _ _ hx _ _ hy => rw [hsome] at hx; simp at hx; subst hx; exact hno _ hy
            | some q =>
              have hl := (hfit q).1 hq
              dsimp only
              have hq0 := hl.some
              have hcases : ∀ W, W = (line.take endPos).drop cur → ((cur ≤ endPos ∧ SideRow db shapes aR (line.drop endPos) idx W) ↔
                  ((cur + q = endPos ∧ NothingFrom db shapes (idx + 1) 4) ∨
                  (sl.elastic = true ∧ cur + q ≤ endPos ∧ SideRow db shapes aR (line.drop endPos) idx ((line.take endPos).drop (cur + q))) ∨
                  (cur + q ≤ endPos ∧ SideRow db shapes aR (line.drop endPos) (idx + 1) ((line.take endPos).drop (cur + q))))) := by
                intro W hWe
                have hsplit : cur + q ≤ endPos → W = (line.drop cur).take q ++ (line.take endPos).drop (cur + q) := by
                  intro hle
                  rw [hWe, hW, List.take_append_of_le_length (by omega), ← List.drop_drop, List.take_append_drop]
                have htl : cur + q ≤ endPos → ((line.drop cur).take q).length = q := by intro; simp; omega
                have hfull : cur + q ≤ endPos →
                    LongestFit db aR sl.text.memory ((line.drop cur).take q ++ (line.take endPos).drop (cur + q) ++ line.drop endPos)
                      ((line.drop cur).take q).length := by
                  intro hle
                  rw [← hsplit hle, htl hle, hWe, ← hW]
                  exact hl
                constructor
                · rintro ⟨hle, h⟩
                  rw [hW, ← hWe] at hl
                  have hne' : W ≠ [] := hWe ▸ hne
                  have hlen' : W.length = endPos - cur := hWe ▸ hlen
                  have hdrop : (line.take endPos).drop (cur + q) = W.drop q := by rw [hWe, List.drop_drop]
                  rw [hdrop]
                  clear hWe hsplit htl hfull hdrop
                  cases h with
                  | corner => exact absurd rfl hne'
                  | over => exact absurd rfl hne'
                  | blank h => omega
                  | skip _ _ hx hy => rw [hsome] at hx; simp at hx; subst hx; exact absurd hy hemp
                  | last _ hx _ hy hz =>
                    rw [hsome] at hx; simp at hx; subst hx
                    have := hl.unique hy
                    exact Or.inl ⟨by omega, hz⟩
                  | once _ _ hx _ hy hz =>
                    rw [hsome] at hx; simp at hx; subst hx
                    have := hl.unique hy
                    subst this
                    simp at hlen'
                    refine Or.inr (Or.inr ⟨by omega, ?_⟩)
                    simpa using hz
                  | again _ _ hx _ he hy hz =>
                    rw [hsome] at hx; simp at hx; subst hx
                    have := hl.unique hy
                    subst this
                    simp at hlen'
                    refine Or.inr (Or.inl ⟨he, by omega, ?_⟩)
                    simpa using hz
                · rintro (⟨h4, h5⟩ | ⟨h4, h5, h6⟩ | ⟨h5, h6⟩)
                  · refine ⟨by omega, .last (by omega) hsome hemp' ?_ h5⟩
                    rw [hWe, ← hW, hlen, show endPos - cur = q by omega]
                    exact hl
                  · refine ⟨by omega, ?_⟩
                    have e := hsplit h5
                    rw [e]
                    exact .again (by omega) (by rw [← e, hWe]; exact hne) hsome hemp' h4 (hfull h5) h6
                  · refine ⟨by omega, ?_⟩
                    have e := hsplit h5
                    rw [e]
                    exact .once (by omega) (by rw [← e, hWe]; exact hne) hsome hemp' (hfull h5) h6
              rw [hcases _ rfl]
              have i1 := ih (cur + q) idx (by omega) (by omega)
              have i2 := ih (cur + q) (idx + 1) (by omega) (by omega)
              have hc : (cur + q = endPos ∧ (!nonEmptyShapesAfter db shapes idx) = true) ↔ (cur + q = endPos ∧ NothingFrom db shapes (idx + 1) 4) := by
                rw [Bool.not_eq_true', nonEmptyAfter_iff]
              by_cases c1 : cur + q = endPos ∧ NothingFrom db shapes (idx + 1) 4
              · rw [if_pos (hc.2 c1)]; exact ⟨fun _ => Or.inl c1, fun _ => rfl⟩
              · rw [if_neg (fun h => c1 (hc.1 h))]
                by_cases c2 : (sl.elastic && hmmAnchored db shapes line endPos aR fuel (cur + q) idx) = true
                · rw [if_pos c2]
                  simp only [Bool.and_eq_true] at c2
                  exact ⟨fun _ => Or.inr (Or.inl ⟨c2.1, i1.1 c2.2⟩), fun _ => rfl⟩
                · rw [if_neg c2, i2]
                  constructor
                  · intro h; exact Or.inr (Or.inr h)
                  · rintro (h | h | h)
                    · exact absurd h c1
                    · exact absurd (by simp only [Bool.and_eq_true]; exact ⟨h.1, i1.2 h.2⟩) c2
                    · exact h

/-! ## searching with ever shorter shape lines -/

theorem Spec.Cut.pred {db : CharDb} {lf al ar : Bool} {m : Str} {l r : Nat} (h : Cut db lf al ar m l r) (h0 : 0 < l + r) :
    ∃ l' r', Cut db lf al ar m l' r' ∧ l' + r' + 1 = l + r := by
  have dropR : 0 < r → (lf = false → l = 0) → ∃ l' r', Cut db lf al ar m l' r' ∧ l' + r' + 1 = l + r := by
    intro hr hl
    refine ⟨l, r - 1, ⟨by have := h.fits; omega, h.front, fun i c h1 h2 => h.back i c (by omega) h2, h.noLeft, fun e => ?_,
      fun h1 _ => h.leftOrder h1 hr, fun h1 h2 => by have := hl h1; omega⟩, by omega⟩
    have := h.noRight e; omega
  have dropL : 0 < l → (lf = true → r = 0) → ∃ l' r', Cut db lf al ar m l' r' ∧ l' + r' + 1 = l + r := by
    intro hl hr
    refine ⟨l - 1, r, ⟨by have := h.fits; omega, fun i c h1 h2 => h.front i c (by omega) h2, h.back, fun e => ?_, h.noRight,
      fun h1 h2 => by have := hr h1; omega, fun h1 _ => h.rightOrder h1 hl⟩, by omega⟩
    have := h.noLeft e; omega
  cases lf with
  | true =>
    by_cases hr : 0 < r
    · exact dropR hr (by simp)
    · exact dropL (by omega) (fun _ => by omega)
  | false =>
    by_cases hl : 0 < l
    · exact dropL hl (by simp)
    · exact dropR (by omega) (fun _ => by omega)

theorem Spec.Cut.down {db : CharDb} {lf al ar : Bool} {m : Str} : ∀ {k l r n : Nat}, Cut db lf al ar m l r → n + k = l + r →
    ∃ l' r', Cut db lf al ar m l' r' ∧ l' + r' = n := by
  intro k
  induction k with
  | zero => intro l r n h hn; exact ⟨l, r, h, by omega⟩
  | succ k ih =>
    intro l r n h hn
    obtain ⟨l', r', h1, h2⟩ := h.pred (by omega)
    exact ih h1 (by omega)

theorem cut_zero (db : CharDb) (lf al ar : Bool) (m : Str) : Cut db lf al ar m 0 0 :=
  ⟨by omega, by intro i; omega, fun i c h1 h2 => by obtain ⟨h3, -⟩ := List.getElem?_eq_some_iff.1 h2; omega, by simp, by simp,
    by simp, by simp⟩

theorem remains_zero (m : Str) : remains m 0 0 = m := by simp [remains]

theorem remains_length {m : Str} {l r : Nat} (h : l + r ≤ m.length) : (remains m l r).length = m.length - l - r := by
  simp [remains]

/-- The common form of the loops that shorten a shape line until it is found. -/
def cutSearch (db : CharDb) (text : Bxs) (pl al ar : Bool) (test : Str → Nat → Option Nat) : Nat → Option Str → Nat → Option (Nat × Nat)
  | 0, _, _ => none
  | _ + 1, none, _ => none
  | fuel + 1, some s, q =>
    match test s q with
    | some p => some (p, q)
    | none =>
      match shorten db text q pl al ar with
      | some (s', q') => cutSearch db text pl al ar test fuel (some s') q'
      | none => none

theorem cutSearch_iff (db : CharDb) (text : Bxs) (ht : text.numChars = text.memory.length) (pl al ar : Bool)
    (test : Str → Nat → Option Nat) (p k : Nat) : ∀ fuel l r q, q < fuel → Cut db (al && pl) al ar text.memory l r →
      l + r + q = text.memory.length →
      (cutSearch db text pl al ar test fuel (some (remains text.memory l r)) q = some (p, k) ↔
        ∃ l' r', Cut db (al && pl) al ar text.memory l' r' ∧ l' + r' + k = text.memory.length ∧ l + r ≤ l' + r' ∧
          test (remains text.memory l' r') k = some p ∧
          ∀ l'' r'' q'', Cut db (al && pl) al ar text.memory l'' r'' → l'' + r'' + q'' = text.memory.length → l + r ≤ l'' + r'' →
            k < q'' → test (remains text.memory l'' r'') q'' = none) := by
  intro fuel
  induction fuel with
  | zero => intro l r q h; omega
  | succ fuel ih =>
    intro l r q hf hc hl
    unfold cutSearch
    cases htest : test (remains text.memory l r) q with
    | some p' =>
      dsimp only
      constructor
      · intro h
        simp at h
        obtain ⟨rfl, rfl⟩ := h
        exact ⟨l, r, hc, hl, Nat.le_refl _, htest, fun l'' r'' q'' _ h2 h3 h4 => by omega⟩
      · rintro ⟨l', r', h1, h2, h3, h4, h5⟩
        by_cases he : k = q
        · subst he
          obtain ⟨rfl, rfl⟩ := hc.unique h1 (by omega)
          rw [htest] at h4
          simp at h4
          rw [h4]
        · have := h5 l r q hc hl (Nat.le_refl _) (by omega)
          rw [htest] at this
          simp at this
    | none =>
      dsimp only
      have hmore : ∀ l' r', Cut db (al && pl) al ar text.memory l' r' → l' + r' + k = text.memory.length → l + r ≤ l' + r' →
          test (remains text.memory l' r') k = some p → l + r + 1 ≤ l' + r' := by
        intro l' r' h1 h2 h3 h4
        by_cases he : k = q
        · subst he
          obtain ⟨rfl, rfl⟩ := hc.unique h1 (by omega)
          rw [htest] at h4
          simp at h4
        · omega
      cases hs : shorten db text q pl al ar with
      | none =>
        dsimp only
        constructor
        · intro h; simp at h
        · rintro ⟨l', r', h1, h2, h3, h4, h5⟩
          exfalso
          have h6 := hmore l' r' h1 h2 h3 h4
          have f := h1.fits
          obtain ⟨l2, r2, h7, h8⟩ := h1.down (n := l + r + 1) (k := l' + r' - (l + r + 1)) (by omega)
          have := (shorten_iff db text ht q (by omega) pl al ar (remains text.memory l2 r2) (q - 1)).2
            ⟨by omega, l2, r2, h7, by omega, rfl⟩
          rw [hs] at this
          simp at this
      | some sq =>
        obtain ⟨s', q'⟩ := sq
        obtain ⟨h1, l2, r2, h2, h3, rfl⟩ := (shorten_iff db text ht q (by omega) pl al ar s' q').1 hs
        dsimp only
        rw [ih l2 r2 q' (by omega) h2 (by omega)]
        constructor
        · rintro ⟨l', r', a1, a2, a3, a4, a5⟩
          refine ⟨l', r', a1, a2, by omega, a4, ?_⟩
          intro l'' r'' q'' b1 b2 b3 b4
          by_cases he : q'' = q
          · subst he
            obtain ⟨rfl, rfl⟩ := hc.unique b1 (by omega)
            exact htest
          · exact a5 l'' r'' q'' b1 b2 (by omega) b4
        · rintro ⟨l', r', a1, a2, a3, a4, a5⟩
          have := hmore l' r' a1 a2 a3 a4
          exact ⟨l', r', a1, a2, by omega, a4, fun l'' r'' q'' b1 b2 b3 b4 => a5 l'' r'' q'' b1 b2 (by omega) b4⟩

/-- the search from the beginning -/
theorem cutSearch_start (db : CharDb) (text : Bxs) (ht : text.numChars = text.memory.length) (pl al ar : Bool)
    (test : Str → Nat → Option Nat) (p k : Nat) :
    cutSearch db text pl al ar test (text.numChars + 2) (some text.memory) text.numChars = some (p, k) ↔
        ∃ l r, Cut db (al && pl) al ar text.memory l r ∧ l + r + k = text.memory.length ∧ test (remains text.memory l r) k = some p ∧
          ∀ l' r' q', Cut db (al && pl) al ar text.memory l' r' → l' + r' + q' = text.memory.length → k < q' →
            test (remains text.memory l' r') q' = none := by
  have h := cutSearch_iff db text ht pl al ar test p k (text.numChars + 2) 0 0 text.memory.length (by omega) (cut_zero ..) (by omega)
  rw [remains_zero] at h
  rw [ht] at h ⊢
  rw [h]
  constructor
  · rintro ⟨l, r, a1, a2, -, a4, a5⟩; exact ⟨l, r, a1, a2, a4, fun l' r' q' b1 b2 b3 => a5 l' r' q' b1 b2 (by omega) b3⟩
  · rintro ⟨l, r, a1, a2, a4, a5⟩; exact ⟨l, r, a1, a2, by omega, a4, fun l' r' q' b1 b2 _ b3 => a5 l' r' q' b1 b2 b3⟩

/-- the test of `hmm_shiftable` -/
def shiftTest (db : CharDb) (line : Str) (cur endPos : Nat) (s : Str) (_ : Nat) : Option Nat :=
  match (strstr (line.drop cur) s).map (· + cur) with
  | some p => if p < endPos ∧ isBlankBetween db line cur p then some p else none
  | none => none

theorem shiftFit_eq (db : CharDb) (line : Str) (cur endPos : Nat) (text : Bxs) (ar : Bool) : ∀ fuel s q,
    shiftFit db line cur endPos text ar fuel s q = cutSearch db text false true ar (shiftTest db line cur endPos) fuel s q := by
  intro fuel
  induction fuel with
  | zero => intro s q; simp [shiftFit, cutSearch]
  | succ fuel ih =>
    intro s q
    cases s with
    | none => simp [shiftFit, cutSearch]
    | some s =>
      unfold shiftFit cutSearch shiftTest
      cases hp : (strstr (line.drop cur) s).map (· + cur) with
      | none => simp only [ih]; rfl
      | some p =>
        dsimp only
        by_cases hc : p < endPos ∧ isBlankBetween db line cur p = true
        · rw [if_pos hc, if_pos hc]
        · rw [if_neg hc, if_neg hc]; simp only [ih]; rfl

/-- the test of `match_vertical_side` -/
def vertTest (left : Bool) (input : Str) (indent trailing : Nat) (n : Nat) (s : Str) (q : Nat) : Option Nat :=
  match (if left then strstr input s else strnrstr input s q) with
  | some p =>
    if (left = true ∧ p > indent + (n - q)) ∨ (left = false ∧ (input.length < trailing + q ∨ p < input.length - trailing - q)) then none
    else some p
  | none => none

theorem vertFit_eq (db : CharDb) (left : Bool) (input : Str) (indent trailing : Nat) (text : Bxs) : ∀ fuel s q,
    vertFit db left input indent trailing text fuel s q =
      cutSearch db text left true true (vertTest left input indent trailing text.numChars) fuel s q := by
  intro fuel
  induction fuel with
  | zero => intro s q; simp [vertFit, cutSearch]
  | succ fuel ih =>
    intro s q
    cases s with
    | none => simp [vertFit, cutSearch]
    | some s =>
      unfold vertFit cutSearch vertTest
      cases hp : (if left = true then strstr input s else strnrstr input s q) with
      | none => simp only [ih]; rfl
      | some p =>
        dsimp only
        split
        · simp only [ih]; rfl
        · rfl

theorem strstr_iff (h n : Str) (p : Nat) : strstr h n = some p ↔ OccursAt h n p ∧ ∀ p', p' < p → ¬ OccursAt h n p' := by
  unfold strstr
  have hocc : ∀ i, i < h.length + 1 → (strnEq n.length (h.drop i) n = true ↔ OccursAt h n i) := by
    intro i hi
    rw [strnEq_prefix, occursAt_iff]
    exact ⟨fun e => ⟨by omega, e⟩, fun e => e.2⟩
  rw [List.find?_range_eq_some]
  constructor
  · rintro ⟨h1, h2, h3⟩
    have hp : p < h.length + 1 := by simpa using h2
    refine ⟨(hocc p hp).1 h1, ?_⟩
    intro p' hp' ho
    have := h3 p' hp'
    rw [(hocc p' (by omega)).2 ho] at this
    simp at this
  · rintro ⟨h1, h2⟩
    have hp : p < h.length + 1 := by have := ((occursAt_iff ..).1 h1).1; omega
    refine ⟨(hocc p hp).2 h1, by simpa using hp, ?_⟩
    intro j hj
    have := h2 j hj
    rw [← hocc j (by omega)] at this
    simpa using this

theorem occursAt_drop (h n : Str) (cur p : Nat) (hc : cur ≤ h.length) : OccursAt (h.drop cur) n p ↔ OccursAt h n (p + cur) := by
  rw [occursAt_iff, occursAt_iff, List.drop_drop, List.length_drop, Nat.add_comm cur p]
  constructor
  · rintro ⟨h1, h2⟩; exact ⟨by omega, h2⟩
  · rintro ⟨h1, h2⟩; exact ⟨by omega, h2⟩

theorem strstr_from (h n : Str) (cur p : Nat) (hc : cur ≤ h.length) : (strstr (h.drop cur) n).map (· + cur) = some p ↔ FirstFrom h n cur p := by
  rw [Option.map_eq_some_iff]
  constructor
  · rintro ⟨a, h1, rfl⟩
    rw [strstr_iff] at h1
    refine ⟨by omega, (occursAt_drop h n cur a hc).1 h1.1, ?_⟩
    intro p' h2 h3 h4
    refine h1.2 (p' - cur) (by omega) ((occursAt_drop h n cur _ hc).2 ?_)
    rwa [show p' - cur + cur = p' by omega]
  · rintro ⟨h1, h2, h3⟩
    refine ⟨p - cur, ?_, by omega⟩
    rw [strstr_iff]
    refine ⟨(occursAt_drop h n cur _ hc).2 (by rwa [show p - cur + cur = p by omega]), ?_⟩
    intro p' h4 h5
    exact h3 (p' + cur) (by omega) (by omega) ((occursAt_drop h n cur _ hc).1 h5)

theorem isBlankBetween_iff (db : CharDb) (s : Str) (a b : Nat) : isBlankBetween db s a b = true ↔ BlankFrom db s a b := by
  unfold isBlankBetween BlankFrom
  rw [List.all_eq_true]
  constructor
  · intro h i c h1 h2 h3
    have := h c (by
      rw [List.mem_iff_getElem?]
      exact ⟨i - a, by rw [List.getElem?_drop, List.getElem?_take, show a + (i - a) = i by omega, if_pos h2, h3]⟩)
    simpa [isBlank_iff] using this
  · intro h c hc
    rw [List.mem_iff_getElem?] at hc
    obtain ⟨i, hi⟩ := hc
    rw [List.getElem?_drop, List.getElem?_take] at hi
    split at hi
    · simpa [isBlank_iff] using h (a + i) c (by omega) (by omega) hi
    · simp at hi

theorem shiftTest_iff (db : CharDb) (line : Str) (cur stop : Nat) (hc : cur ≤ line.length) (s : Str) (q p : Nat) :
    shiftTest db line cur stop s q = some p ↔ ShiftHit db line cur stop s p := by
  unfold shiftTest ShiftHit
  rw [← strstr_from line s cur p hc, ← isBlankBetween_iff]
  cases h : (strstr (line.drop cur) s).map (· + cur) with
  | none => simp
  | some p' =>
    dsimp only
    constructor
    · intro h
      split at h
      · rename_i hc
        simp at h
        subst h
        exact ⟨rfl, hc⟩
      · simp at h
    · rintro ⟨h1, h2⟩
      simp at h1
      subst h1
      rw [if_pos h2]

theorem cutSearch_fewest (db : CharDb) (text : Bxs) (ht : text.numChars = text.memory.length) (pl al ar : Bool)
    (test : Str → Nat → Option Nat) (Hit : Str → Nat → Prop)
    (htest : ∀ l r q p, l + r + q = text.memory.length → (test (remains text.memory l r) q = some p ↔ Hit (remains text.memory l r) p)) (p k : Nat) :
    cutSearch db text pl al ar test (text.numChars + 2) (some text.memory) text.numChars = some (p, k) ↔
      FewestCut db (al && pl) al ar text.memory Hit p k := by
  rw [cutSearch_start db text ht]
  unfold FewestCut
  constructor
  · rintro ⟨l, r, h1, h2, h3, h4⟩
    refine ⟨l, r, h1, h2, (htest _ _ _ _ h2).1 h3, ?_⟩
    intro l' r' p' h5 h6 h7
    have hq : l' + r' + (text.memory.length - l' - r') = text.memory.length := by omega
    have := h4 l' r' _ h5 hq (by omega)
    rw [(htest _ _ _ _ hq).2 h7] at this
    simp at this
  · rintro ⟨l, r, h1, h2, h3, h4⟩
    refine ⟨l, r, h1, h2, (htest _ _ _ _ h2).2 h3, ?_⟩
    intro l' r' q' h5 h6 h7
    cases h : test (remains text.memory l' r') q' with
    | none => rfl
    | some p' => exact absurd ((htest _ _ _ _ h6).1 h) (h4 l' r' p' h5 (by omega))

theorem hmm_iff (db : CharDb) (shapes : List ShapeLine) (line : Str) (cur idx endPos : Nat) (aL aR : Bool) (h5 : shapes.length = 5)
    (hs : Sized shapes) (he : endPos ≤ line.length) (hc : cur ≤ line.length) (hi : idx ≤ 4) :
    hmm db shapes line cur idx endPos aL aR = true ↔ Between db shapes line cur idx endPos aL aR := by
  unfold hmm Between
  cases aL with
  | true =>
    rw [if_pos rfl, if_pos rfl]
    exact hmmAnchored_iff db shapes line endPos aR h5 hs he _ _ _ hi (by unfold hmmFuel; omega)
  | false =>
    rw [if_neg (by simp), if_neg (by simp)]
    unfold hmmShiftable
    have hfind : ∀ i, (List.range' idx (4 - idx)).find? (fun i => !isShapeLineEmpty db shapes i) = some i ↔
        idx ≤ i ∧ i < 4 ∧ (∃ sl, shapes[i]? = some sl ∧ ¬ Vanishing db sl) ∧ NothingFrom db shapes idx i := by
      intro i
      rw [List.find?_range'_eq_some]
      simp only [Bool.not_eq_true', List.mem_range'_1, Bool.not_eq_false', isShapeLineEmpty_iff]
      have hne : isShapeLineEmpty db shapes i = false ↔ ∃ sl, shapes[i]? = some sl ∧ ¬ Vanishing db sl := by
        rw [Bool.eq_false_iff, ne_eq, isShapeLineEmpty_iff]
        cases shapes[i]? <;> simp
      rw [hne]
      constructor
      · rintro ⟨a, b, c⟩
        refine ⟨by omega, by omega, a, ?_⟩
        intro j sl h1 h2 h3
        exact c j h1 h2 sl h3
      · rintro ⟨a, b, c, d⟩
        exact ⟨c, by omega, fun j h1 h2 sl h3 => d j sl h1 h2 h3⟩
    have hnone : (List.range' idx (4 - idx)).find? (fun i => !isShapeLineEmpty db shapes i) = none ↔ NothingFrom db shapes idx 4 := by
      rw [List.find?_eq_none]
      constructor
      · intro h i sl h1 h2 h3
        have := h i (by rw [List.mem_range'_1]; omega)
        simp only [Bool.not_eq_true', Bool.not_eq_false] at this
        exact (isShapeLineEmpty_iff ..).1 this sl h3
      · intro h i hi
        rw [List.mem_range'_1] at hi
        simp only [Bool.not_eq_true', Bool.not_eq_false]
        exact (isShapeLineEmpty_iff ..).2 (fun sl h3 => h i sl (by omega) (by omega) h3)
    cases hf : (List.range' idx (4 - idx)).find? (fun i => !isShapeLineEmpty db shapes i) with
    | none =>
      have hn := hnone.1 hf
      dsimp only
      rw [isBlankBetween_iff]
      constructor
      · intro h; exact Or.inl ⟨hn, h⟩
      · rintro (h | ⟨i, sl, p, q, h1, h2, h3, h4, -⟩)
        · exact h.2
        · exact absurd (hn i sl h1 h2 h3) h4
    | some i =>
      obtain ⟨h1, h2, ⟨sl, h3, h4⟩, h6⟩ := (hfind i).1 hf
      dsimp only
      rw [h3]
      dsimp only
      have hsz : sl.text.numChars = sl.text.memory.length := hs sl (List.mem_of_getElem? h3)
      have hright : (!(nonEmptyShapesAfter db shapes i || !isShapeLineEmpty db shapes 4)) = true ↔ NothingFrom db shapes (i + 1) 5 := by
        simp only [Bool.not_eq_true', Bool.or_eq_false_iff, nonEmptyAfter_iff, Bool.not_eq_false', isShapeLineEmpty_iff]
        constructor
        · rintro ⟨a, b⟩ j sl' h7 h8 h9
          by_cases hj : j = 4
          · exact b sl' (hj ▸ h9)
          · exact a j sl' h7 (by omega) h9
        · intro a
          exact ⟨fun j sl' h7 h8 h9 => a j sl' h7 (by omega) h9, fun sl' h9 => a 4 sl' (by omega) (by omega) h9⟩
      generalize hR : (!(nonEmptyShapesAfter db shapes i || !isShapeLineEmpty db shapes 4)) = right at hright
      have hfit := fun p q => cutSearch_fewest db sl.text hsz false true right (shiftTest db line cur endPos) (ShiftHit db line cur endPos)
        (fun l r q p _ => shiftTest_iff db line cur endPos hc _ q p) p q
      rw [shiftFit_eq]
      have hA := fun p q idx' (hi' : idx' ≤ 4) => hmmAnchored_iff db shapes line endPos aR h5 hs he (hmmFuel line) (p + q) idx' hi'
        (by unfold hmmFuel; omega)
      have huniq : ∀ i' sl', idx ≤ i' → i' < 4 → shapes[i']? = some sl' → ¬ Vanishing db sl' → NothingFrom db shapes idx i' → i' = i := by
        intro i' sl' a b c d e
        have := (hfind i').2 ⟨a, b, ⟨sl', c, d⟩, e⟩
        rw [hf] at this
        simp at this
        exact this.symm
      have hno : ¬ NothingFrom db shapes idx 4 := fun h => h4 (h i sl h1 h2 h3)
      cases hfs : cutSearch db sl.text false true right (shiftTest db line cur endPos) (sl.text.numChars + 2) (some sl.text.memory)
          sl.text.numChars with
      | none =>
        dsimp only
        constructor
        · intro h; simp at h
        · rintro (h | ⟨i', sl', p, q, a, b, c, d, e, ⟨right', g1, g2⟩, -⟩)
          · exact absurd h.1 hno
          · exfalso
            have := huniq i' sl' a b c d e
            subst this
            rw [h3] at c
            simp at c
            subst c
            have : right' = right := by rw [Bool.eq_iff_iff, g1, hright]
            subst this
            have := (hfit p q).2 g2
            rw [hfs] at this
            simp at this
      | some pq =>
        obtain ⟨p, q⟩ := pq
        have hfew := (hfit p q).1 hfs
        dsimp only
        have key : (if hmmAnchored db shapes line endPos aR (hmmFuel line) (p + q) (i + if sl.elastic = true then 0 else 1) = true then true
            else sl.elastic && hmmAnchored db shapes line endPos aR (hmmFuel line) (p + q) (i + 1)) = true ↔
            p + q ≤ endPos ∧ (SideRow db shapes aR (line.drop endPos) (i + 1) ((line.take endPos).drop (p + q)) ∨
              sl.elastic = true ∧ SideRow db shapes aR (line.drop endPos) i ((line.take endPos).drop (p + q))) := by
          have e1 := hA p q i (by omega)
          have e2 := hA p q (i + 1) (by omega)
          cases hel : sl.elastic with
          | true =>
            simp only [if_true, Nat.add_zero, Bool.true_and, true_and]
            by_cases hx : hmmAnchored db shapes line endPos aR (hmmFuel line) (p + q) i = true
            · rw [if_pos hx]
              have := e1.1 hx
              exact ⟨fun _ => ⟨this.1, Or.inr this.2⟩, fun _ => rfl⟩
            · rw [if_neg hx, e2]
              constructor
              · rintro ⟨a, b⟩; exact ⟨a, Or.inl b⟩
              · rintro ⟨a, b | b⟩
                · exact ⟨a, b⟩
                · exact absurd (e1.2 ⟨a, b⟩) hx
          | false =>
            simp only [Bool.false_eq_true, if_false, Bool.false_and, false_and, or_false]
            rw [← e2]
            cases hmmAnchored db shapes line endPos aR (hmmFuel line) (p + q) (i + 1) <;> simp
        rw [key]
        constructor
        · rintro ⟨a, b⟩
          exact Or.inr ⟨i, sl, p, q, h1, h2, h3, h4, h6, ⟨right, hright, hfew⟩, a, b⟩
        · rintro (h | ⟨i', sl', p', q', a, b, c, d, e, ⟨right', g1, g2⟩, g⟩)
          · exact absurd h.1 hno
          · have := huniq i' sl' a b c d e
            subst this
            rw [h3] at c
            simp at c
            subst c
            have : right' = right := by rw [Bool.eq_iff_iff, g1, hright]
            subst this
            have := (hfit p' q').2 g2
            rw [hfs] at this
            simp at this
            obtain ⟨rfl, rfl⟩ := this
            exact g

/-! ## corners -/

theorem strstr_first (h n : Str) (p : Nat) : strstr h n = some p ↔ FirstFrom h n 0 p := by
  have := strstr_from h n 0 p (by omega)
  simpa using this

theorem matchLeftLoop_iff (db : CharDb) (input shape : Str) (limit : Nat) (r : MatchResult) : ∀ fuel s, shape.length < s + fuel →
    (∀ j, 0 < j → j < s → ∃ c, shape[j]? = some c ∧ Blank db c) →
    (∀ s' p', s' < s → FirstFrom input (shape.drop s') 0 p' → limit < p') →
    (matchLeftLoop db input shape limit fuel s = some r ↔ ∃ s' p, s ≤ s' ∧ LeftCorner db input shape limit s' p ∧
      r = { pIdx := p, len := shape.length - s', shiftable := false }) := by
  intro fuel
  induction fuel with
  | zero =>
    intro s hf hb hm
    simp only [matchLeftLoop]
    constructor
    · intro h; simp at h
    · rintro ⟨s', p, h1, h2, -⟩
      obtain ⟨c, h3, -⟩ := h2.blank s' (by omega) (Nat.le_refl _)
      obtain ⟨h4, -⟩ := List.getElem?_eq_some_iff.1 h3
      omega
  | succ fuel ih =>
    intro s hf hb hm
    unfold matchLeftLoop
    rw [show (shape[s]?.elim false (isBlank db)) = blankAt db shape s from rfl]
    by_cases hc : s = 0 ∨ blankAt db shape s = true
    · rw [if_pos hc]
      have hb' : ∀ j, 0 < j → j < s + 1 → ∃ c, shape[j]? = some c ∧ Blank db c := by
        intro j h1 h2
        by_cases hj : j = s
        · subst hj
          rcases hc with hc | hc
          · omega
          · exact (blankAt_iff ..).1 hc
        · exact hb j h1 (by omega)
      have next : (∀ p, FirstFrom input (shape.drop s) 0 p → limit < p) →
          (matchLeftLoop db input shape limit fuel (s + 1) = some r ↔ ∃ s' p, s ≤ s' ∧ LeftCorner db input shape limit s' p ∧
            r = { pIdx := p, len := shape.length - s', shiftable := false }) := by
        intro hno
        rw [ih (s + 1) (by omega) hb' (fun s' p' h1 h2 => by
          by_cases e : s' = s
          · subst e; exact hno p' h2
          · exact hm s' p' (by omega) h2)]
        constructor
        · rintro ⟨s', p, h1, h2, h3⟩; exact ⟨s', p, by omega, h2, h3⟩
        · rintro ⟨s', p, h1, h2, h3⟩
          refine ⟨s', p, ?_, h2, h3⟩
          by_cases e : s' = s
          · subst e
            have := hno p h2.found
            have := h2.near
            omega
          · omega
      cases hs : strstr input (shape.drop s) with
      | none =>
        dsimp only
        exact next (fun p hp => by rw [← strstr_first, hs] at hp; simp at hp)
      | some p =>
        dsimp only
        have hp := (strstr_first ..).1 hs
        by_cases hl : p > limit
        · rw [if_pos hl]
          refine next (fun p' hp' => ?_)
          rw [← strstr_first, hs] at hp'
          simp at hp'
          omega
        · rw [if_neg hl]
          have hcor : LeftCorner db input shape limit s p := ⟨hp, by omega, fun j h1 h2 => hb' j h1 (by omega), hm⟩
          constructor
          · intro h
            simp at h
            exact ⟨s, p, Nat.le_refl _, hcor, h.symm⟩
          · rintro ⟨s', p', h1, h2, rfl⟩
            have : s' = s := by
              by_cases e : s' = s
              · exact e
              · exfalso
                have := h2.most s p (by omega) hp
                omega
            subst this
            have hp' := h2.found
            rw [← strstr_first, hs] at hp'
            simp at hp'
            rw [hp']
    · rw [if_neg hc]
      constructor
      · intro h; simp at h
      · rintro ⟨s', p, h1, h2, -⟩
        exfalso
        apply hc
        by_cases h0 : s = 0
        · exact Or.inl h0
        · exact Or.inr ((blankAt_iff ..).2 (h2.blank s (by omega) h1))

theorem strnrstr_last (h n : Str) (hn : n ≠ []) (p : Nat) : strnrstr h n n.length = some p ↔ LastAt h n p := by
  have hc := C43_last_occurrence h n hn
  constructor
  · intro e; exact hc.1 p e
  · rintro ⟨h1, h2⟩
    cases e : strnrstr h n n.length with
    | none => exact absurd h1 (hc.2.1 e p)
    | some q =>
      obtain ⟨h3, h4⟩ := hc.1 q e
      have := h2 q h3
      have := h4 p h1
      rw [show q = p by omega]

theorem matchRightLoop_iff (db : CharDb) (input shape : Str) (limit : Nat) (r : MatchResult) (hn : ∃ c ∈ shape, ¬ Blank db c) :
    ∀ fuel k, k < fuel → k ≤ shape.length → (∀ c ∈ shape.drop (k + 1), Blank db c) →
    (∀ k' p', k < k' → k' ≤ shape.length → LastAt input (shape.take k') p' → p' + k' < limit) →
    (matchRightLoop db input shape limit fuel k = some r ↔ ∃ k' p, k' ≤ k ∧ RightCorner db input shape limit k' p ∧
      r = { pIdx := p, len := k', shiftable := false }) := by
  intro fuel
  induction fuel with
  | zero => intro k h; omega
  | succ fuel ih =>
    intro k hf hk hb hm
    unfold matchRightLoop
    rw [show (shape[k]?.elim false (isBlank db)) = blankAt db shape k from rfl]
    by_cases hc : k = shape.length ∨ blankAt db shape k = true
    · rw [if_pos hc]
      have hb' : ∀ c ∈ shape.drop k, Blank db c := by
        intro c hcm
        rw [List.mem_iff_getElem?] at hcm
        obtain ⟨i, hi⟩ := hcm
        rw [List.getElem?_drop] at hi
        by_cases h0 : i = 0
        · subst h0
          rcases hc with hc | hc
          · rw [hc, Nat.add_zero, List.getElem?_eq_none (Nat.le_refl _)] at hi; simp at hi
          · obtain ⟨c', h1, h2⟩ := (blankAt_iff ..).1 hc
            rw [Nat.add_zero, h1] at hi
            simp at hi
            exact hi ▸ h2
        · apply hb
          rw [List.mem_iff_getElem?]
          exact ⟨i - 1, by rw [List.getElem?_drop, ← hi]; congr 1; omega⟩
      have hk0 : 0 < k := by
        by_cases h0 : k = 0
        · subst h0
          obtain ⟨c, h1, h2⟩ := hn
          exact absurd (hb' c (by simpa using h1)) h2
        · omega
      have hlen : (shape.take k).length = k := by simp; omega
      have hne : shape.take k ≠ [] := by
        intro h; rw [h] at hlen; simp at hlen; omega
      have hlast := strnrstr_last input (shape.take k) hne
      rw [hlen] at hlast
      have next : (∀ p, LastAt input (shape.take k) p → p + k < limit) →
          (matchRightLoop db input shape limit fuel (k - 1) = some r ↔ ∃ k' p, k' ≤ k ∧ RightCorner db input shape limit k' p ∧
            r = { pIdx := p, len := k', shiftable := false }) := by
        intro hno
        rw [ih (k - 1) (by omega) (by omega) (by rw [show k - 1 + 1 = k by omega]; exact hb') (fun k' p' h1 h2 h3 => by
          by_cases e : k' = k
          · subst e; exact hno p' h3
          · exact hm k' p' (by omega) h2 h3)]
        constructor
        · rintro ⟨k', p, h1, h2, h3⟩; exact ⟨k', p, by omega, h2, h3⟩
        · rintro ⟨k', p, h1, h2, h3⟩
          refine ⟨k', p, ?_, h2, h3⟩
          by_cases e : k' = k
          · subst e
            have := hno p h2.found
            have := h2.near
            omega
          · omega
      cases hs : strnrstr input (shape.take k) k with
      | none =>
        dsimp only
        exact next (fun p hp => by rw [← hlast, hs] at hp; simp at hp)
      | some p =>
        dsimp only
        have hp := (hlast p).1 hs
        by_cases hl : p + k < limit
        · rw [if_pos hl]
          refine next (fun p' hp' => ?_)
          rw [← hlast, hs] at hp'
          simp at hp'
          omega
        · rw [if_neg hl]
          have hcor : RightCorner db input shape limit k p := ⟨hk, hp, by omega, hb', hm⟩
          constructor
          · intro h
            simp at h
            exact ⟨k, p, Nat.le_refl _, hcor, h.symm⟩
          · rintro ⟨k', p', h1, h2, rfl⟩
            have : k' = k := by
              by_cases e : k' = k
              · exact e
              · exfalso
                have := h2.most k p (by omega) hk hp
                omega
            subst this
            have hp' := h2.found
            rw [← hlast, hs] at hp'
            simp at hp'
            rw [hp']
    · rw [if_neg hc]
      constructor
      · intro h; simp at h
      · rintro ⟨k', p, h1, h2, -⟩
        exfalso
        apply hc
        by_cases h0 : k = shape.length
        · exact Or.inl h0
        · refine Or.inr ((blankAt_of_lt (by omega)).2 (fun c hcm => h2.blank c ?_))
          rw [List.mem_iff_getElem?]
          exact ⟨k - k', by rw [List.getElem?_drop, ← hcm]; congr 1; omega⟩

end Boxes
