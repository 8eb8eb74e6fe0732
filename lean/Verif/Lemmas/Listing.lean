import Verif.Lemmas.Query

namespace Boxes
open Spec
set_option linter.unusedSimpArgs false

theorem sameName_symm {a b : Str} (h : SameName a b) : SameName b a := Eq.symm h
theorem sameName_trans {a b c : Str} (h : SameName a b) (h2 : SameName b c) : SameName a c := Eq.trans h h2

/-- The statistics `s` are right for the tags `l`. -/
structure Stats (l : List Str) (s : List (Str × Nat)) : Prop where
  once : s.Pairwise (fun a b => ¬ SameName a.1 b.1)
  number : ∀ e ∈ s, e.2 = l.countP (fun x => decide (SameName x e.1))
  known : ∀ e ∈ s, e.1 ∈ l
  complete : ∀ x ∈ l, ∃ e ∈ s, SameName e.1 x

theorem countTag_mem (tag : Str) : ∀ (s : List (Str × Nat)), s.Pairwise (fun a b => ¬ SameName a.1 b.1) →
    ((∃ e ∈ s, SameName e.1 tag) → (countTag tag s).map (·.1) = s.map (·.1) ∧
      ∀ e ∈ countTag tag s, (e ∈ s ∧ ¬ SameName e.1 tag) ∨ (SameName e.1 tag ∧ ∃ n, (e.1, n) ∈ s ∧ e.2 = n + 1)) ∧
    ((¬ ∃ e ∈ s, SameName e.1 tag) → countTag tag s = s ++ [(tag, 1)]) := by
  intro s
  induction s with
  | nil => intro _; simp [countTag]
  | cons a r ih =>
    obtain ⟨t, n⟩ := a
    intro hp
    have hp' := List.pairwise_cons.1 hp
    obtain ⟨ih1, ih2⟩ := ih hp'.2
    rw [countTag]
    by_cases h : strCaseEq t tag = true
    · rw [if_pos h]
      have hs := (sameName_iff _ _).1 h
      constructor
      · intro _
        refine ⟨rfl, ?_⟩
        intro e he
        rcases List.mem_cons.1 he with e' | e'
        · subst e'; exact Or.inr ⟨hs, n, List.mem_cons_self, rfl⟩
        · refine Or.inl ⟨List.mem_cons_of_mem _ e', ?_⟩
          intro hs'
          exact hp'.1 e e' (sameName_trans hs (sameName_symm hs'))
      · intro hno; exact absurd ⟨_, List.mem_cons_self, hs⟩ hno
    · rw [if_neg h]
      have hs : ¬ SameName t tag := fun x => h ((sameName_iff _ _).2 x)
      constructor
      · rintro ⟨e, he, hes⟩
        have hex : ∃ e ∈ r, SameName e.1 tag := by
          rcases List.mem_cons.1 he with e' | e'
          · subst e'; exact absurd hes hs
          · exact ⟨e, e', hes⟩
        obtain ⟨k1, k2⟩ := ih1 hex
        refine ⟨by simp [k1], ?_⟩
        intro x hx
        rcases List.mem_cons.1 hx with e' | e'
        · subst e'; exact Or.inl ⟨List.mem_cons_self, hs⟩
        · rcases k2 x e' with ⟨a, b⟩ | ⟨a, m, b, c⟩
          · exact Or.inl ⟨List.mem_cons_of_mem _ a, b⟩
          · exact Or.inr ⟨a, m, List.mem_cons_of_mem _ b, c⟩
      · intro hno
        rw [ih2 (fun ⟨e, he, hes⟩ => hno ⟨e, List.mem_cons_of_mem _ he, hes⟩)]
        rfl

theorem Stats.step {l : List Str} {s : List (Str × Nat)} (h : Stats l s) (tag : Str) : Stats (l ++ [tag]) (countTag tag s) := by
  obtain ⟨k1, k2⟩ := countTag_mem tag s h.once
  by_cases hex : ∃ e ∈ s, SameName e.1 tag
  · obtain ⟨m1, m2⟩ := k1 hex
    refine ⟨?_, ?_, ?_, ?_⟩
    · have : ((countTag tag s).map (·.1)).Pairwise (fun a b => ¬ SameName a b) := by
        rw [m1]; exact List.pairwise_map.2 h.once
      exact List.pairwise_map.1 this
    · intro e he
      rw [List.countP_append, List.countP_singleton]
      rcases m2 e he with ⟨a, b⟩ | ⟨a, n, b, c⟩
      · rw [h.number e a, if_neg (by simpa using fun x => b (sameName_symm x))]; rfl
      · rw [c, if_pos (by simpa using sameName_symm a)]
        have := h.number _ b
        simp only at this
        rw [← this]
    · intro e he
      rcases m2 e he with ⟨a, b⟩ | ⟨a, n, b, c⟩
      · exact List.mem_append_left _ (h.known e a)
      · have := h.known (e.1, n) b
        exact List.mem_append_left _ this
    · intro x hx
      have hmem : ∀ e ∈ s, ∃ e' ∈ countTag tag s, e'.1 = e.1 := by
        intro e he
        have : e.1 ∈ (countTag tag s).map (·.1) := by rw [m1]; exact List.mem_map_of_mem he
        obtain ⟨e', he', hh⟩ := List.mem_map.1 this
        exact ⟨e', he', hh⟩
      rcases List.mem_append.1 hx with hx | hx
      · obtain ⟨e, he, hs⟩ := h.complete x hx
        obtain ⟨e', he', hh⟩ := hmem e he
        exact ⟨e', he', by rw [hh]; exact hs⟩
      · rw [List.mem_singleton.1 hx]
        obtain ⟨e, he, hs⟩ := hex
        obtain ⟨e', he', hh⟩ := hmem e he
        exact ⟨e', he', by rw [hh]; exact hs⟩
  · rw [k2 hex]
    have hno : ∀ x ∈ l, ¬ SameName x tag := by
      intro x hx hs
      obtain ⟨e, he, hs'⟩ := h.complete x hx
      exact hex ⟨e, he, sameName_trans hs' hs⟩
    refine ⟨?_, ?_, ?_, ?_⟩
    · rw [List.pairwise_append]
      refine ⟨h.once, by simp, ?_⟩
      intro a ha b hb
      rw [List.mem_singleton.1 hb]
      exact fun hs => hex ⟨a, ha, hs⟩
    · intro e he
      rw [List.countP_append, List.countP_singleton]
      rcases List.mem_append.1 he with he | he
      · rw [h.number e he, if_neg (by simpa using fun x => hex ⟨e, he, sameName_symm x⟩)]; rfl
      · rw [List.mem_singleton.1 he]
        simp only
        rw [if_pos (by simp [SameName])]
        rw [List.countP_eq_zero.2 (by intro x hx; simpa using hno x hx)]
    · intro e he
      rcases List.mem_append.1 he with he | he
      · exact List.mem_append_left _ (h.known e he)
      · rw [List.mem_singleton.1 he]; simp
    · intro x hx
      rcases List.mem_append.1 hx with hx | hx
      · obtain ⟨e, he, hs⟩ := h.complete x hx
        exact ⟨e, List.mem_append_left _ he, hs⟩
      · rw [List.mem_singleton.1 hx]
        exact ⟨(tag, 1), by simp, rfl⟩

theorem stats_fold : ∀ (l done : List Str) (s : List (Str × Nat)), Stats done s →
    Stats (done ++ l) (l.foldl (fun stats tag => countTag tag stats) s) := by
  intro l
  induction l with
  | nil => intro done s h; simpa using h
  | cons t r ih =>
    intro done s h
    have := ih (done ++ [t]) _ (h.step t)
    simpa using this

theorem tagStats_ok (ds : List DesignDef) : Stats (ds.flatMap (·.tags)) (tagStats ds) := by
  have := stats_fold (ds.flatMap (·.tags)) [] [] ⟨by simp, by simp, by simp, by simp⟩
  simpa [tagStats] using this

theorem countP_distinct (t : Str) : ∀ (l : List Str), l.Pairwise (fun a b => ¬ SameName a b) →
    l.countP (fun x => decide (SameName x t)) = if Carries l t then 1 else 0 := by
  intro l
  induction l with
  | nil => intro _; simp [Carries]
  | cons a r ih =>
    intro hp
    have hp' := List.pairwise_cons.1 hp
    rw [List.countP_cons, ih hp'.2]
    by_cases h : SameName a t
    · have : ¬ Carries r t := by
        rintro ⟨x, hx, hs⟩
        exact hp'.1 x hx (sameName_trans h (sameName_symm hs))
      rw [if_neg this, if_pos (by simpa using h), if_pos ⟨a, List.mem_cons_self, h⟩]
    · rw [if_neg (c := decide (SameName a t) = true) (by simpa using h), Nat.add_zero]
      have : Carries (a :: r) t ↔ Carries r t := by
        constructor
        · rintro ⟨x, hx, hs⟩
          rcases List.mem_cons.1 hx with e | e
          · subst e; exact absurd hs h
          · exact ⟨x, e, hs⟩
        · rintro ⟨x, hx, hs⟩; exact ⟨x, List.mem_cons_of_mem _ hx, hs⟩
      by_cases hc : Carries r t
      · rw [if_pos hc, if_pos (this.2 hc)]
      · rw [if_neg hc, if_neg (fun x => hc (this.1 x))]

theorem analyzeLoop_eq : ∀ (l : List Str) (n siz : Nat),
    analyzeLoop l n siz = (n + l.length, siz + (joined (lit ", ") l).length + (if n > 0 ∧ l ≠ [] then 2 else 0)) := by
  intro l
  induction l with
  | nil => intro n siz; simp [analyzeLoop, joined]
  | cons a r ih =>
    intro n siz
    rw [analyzeLoop, ih]
    have h2 : (lit ", ").length = 2 := rfl
    cases r with
    | nil => simp [joined]; split <;> omega
    | cons b r' =>
      simp only [joined, List.length_append, h2, List.length_cons]
      simp only [Prod.mk.injEq, ne_eq, reduceCtorEq, not_false_eq_true, and_true]
      constructor
      · omega
      · split <;> simp <;> omega

theorem put_eq {b : Buf} {s : Str} (h : b.data.length + s.length < b.cap) : b.put s = some ⟨b.cap, b.data ++ s⟩ := by
  unfold Buf.put
  rw [if_pos (by omega)]

theorem aliasLoop_eq (n : Nat) : ∀ (l : List Str) (idx : Nat) (b : Buf), idx + l.length = n →
    b.data.length + (joined (lit ", ") l).length < b.cap →
    aliasLoop n l idx b = some ⟨b.cap, b.data ++ joined (lit ", ") l⟩ := by
  intro l
  induction l with
  | nil => intro idx b _ _; simp [aliasLoop, joined]
  | cons a r ih =>
    intro idx b hi hb
    rw [aliasLoop]
    cases r with
    | nil =>
      simp only [joined] at hb ⊢
      rw [put_eq hb]
      simp only [Option.bind_eq_bind, Option.bind_some]
      rw [if_neg (by simp at hi; omega)]
      simp [aliasLoop]
    | cons c r' =>
      simp only [joined, List.length_append] at hb
      rw [put_eq (by omega)]
      simp only [Option.bind_eq_bind, Option.bind_some]
      rw [if_pos (by simp at hi; omega), put_eq (by simp only [List.length_append]; omega)]
      simp only [Option.bind_some]
      rw [ih (idx + 1) _ (by simp at hi ⊢; omega) (by simp only [List.length_append]; omega)]
      simp [joined]

end Boxes
