import Verif.Lemmas.Output

/-!
# C08: what is restored of the tabs in an indentation
-/
namespace Boxes
open Spec
set_option linter.unusedSimpArgs false

/-- the columns that are saved by restoring tabs -/
def saved (ts : Nat) (tabs : List Nat) : Nat := (tabs.map (fun t => tabCols ts t - 1)).sum

theorem tabbifyLoop_exact (ts L : Nat) (hts : 1 ≤ ts) : ∀ (tabpos : List Nat) (buf : Str) (len c : Nat) (before : List Nat),
    tabpos.Pairwise (fun a b => a + tabCols ts a ≤ b) → (∀ a ∈ tabpos, c ≤ a) → L ≤ len + c → len ≤ L → buf.length = L + 1 →
    buf[len]? = some 0 → (∀ i : Nat, i < len → buf[i]? = some (if i ∈ before then 0x09 else 0x20)) →
    ∃ r, tabbifyLoop ts L L tabpos buf len = some r ∧ r[len - saved ts (fitting ts L tabpos)]? = some 0 ∧
      saved ts (fitting ts L tabpos) ≤ len ∧
      ∀ i : Nat, i < len - saved ts (fitting ts L tabpos) → r[i]? = some (if i ∈ before ++ fitting ts L tabpos then 0x09 else 0x20)
  | [], buf, len, _, before, _, _, _, _, _, hz, hi => ⟨buf, rfl, by simpa [saved, fitting] using hz, by simp [saved, fitting],
      by simpa [saved, fitting] using hi⟩
  | t :: more, buf, len, c, before, hp, hc, h1, h2, hb, hz, hi => by
    unfold tabbifyLoop
    have hct := hc t (by simp)
    have hmod := Nat.mod_lt t hts
    have hstop : ¬ (t + tabCols ts t ≤ L) → fitting ts L (t :: more) = [] := by
      intro h; simp [fitting, h]
    have hn : 1 ≤ tabCols ts t := by unfold tabCols; omega
    have hdone : fitting ts L (t :: more) = [] → buf[len - saved ts (fitting ts L (t :: more))]? = some 0 ∧
      saved ts (fitting ts L (t :: more)) ≤ len ∧
      ∀ i : Nat, i < len - saved ts (fitting ts L (t :: more)) →
        buf[i]? = some (if i ∈ before ++ fitting ts L (t :: more) then 0x09 else 0x20) := by
      intro h
      rw [h]
      exact ⟨by simpa [saved] using hz, by simp [saved], by simpa [saved] using hi⟩
    simp only
    by_cases ht : t < L
    · rw [if_pos ht]
      by_cases hf : t + (ts - t % ts) > L
      · rw [if_pos hf]
        exact ⟨buf, rfl, hdone (hstop (by unfold tabCols; omega))⟩
      · rw [if_neg hf, if_neg (by omega), if_pos (by omega)]
        have hfit : fitting ts L (t :: more) = t :: fitting ts L more := by
          have : t + tabCols ts t ≤ L := by unfold tabCols; omega
          simp [fitting, this]
        have hlen : len - (ts - t % ts - 1) < L + 1 := by omega
        obtain ⟨r, e1, e2, e3, e4⟩ := tabbifyLoop_exact ts L hts more ((buf.set t chTab).set (len - (ts - t % ts - 1)) 0) (len - (ts - t % ts - 1))
          (t + tabCols ts t) (before ++ [t]) (List.pairwise_cons.1 hp).2 (List.pairwise_cons.1 hp).1 (by unfold tabCols; omega) (by omega) (by simpa using hb)
          (by rw [List.getElem?_set, if_pos rfl, if_pos (by simp; omega)]) (by
            intro i hi'
            rw [List.getElem?_set, if_neg (by omega), List.getElem?_set]
            by_cases hit : t = i
            · rw [if_pos hit, if_pos (by omega), if_pos (by simp [hit])]
            · rw [if_neg hit, hi i (by omega)]
              have hit' : ¬ i = t := fun h => hit h.symm
              simp [hit'])
        have hs : saved ts (t :: fitting ts L more) = (ts - t % ts - 1) + saved ts (fitting ts L more) := by
          simp [saved, tabCols]
        refine ⟨r, e1, ?_, ?_, ?_⟩
        · rw [hfit, hs, ← Nat.sub_sub]
          exact e2
        · rw [hfit, hs]
          omega
        · rw [hfit, hs, ← Nat.sub_sub]
          intro i hi'
          rw [e4 i hi']
          simp [List.append_assoc]
    · rw [if_neg ht]
      exact ⟨buf, rfl, hdone (hstop (by omega))⟩

/-- C08: what keep mode makes of an indentation, for any number of recorded tabs: as many characters as the original had, tabs counting as one each, of which
those are tabs whose positions are columns at which there was a tab in the original.  (That is the original indentation if at most one tab covers
more than a column; see `C08_keep_partial` and `C08_two_tabs_disagree`.) -/
theorem C08_keep_all (ts : Nat) (hts : 1 ≤ ts) (indent : Nat) (tabpos : List Nat) (hp : tabpos.Pairwise (fun a b => a + tabCols ts a ≤ b)) :
    ∃ r, tabbifyIndent ts indent tabpos indent = some r ∧
      r.length + ((fitting ts indent tabpos).map (fun t => tabCols ts t - 1)).sum = indent ∧
      ∀ i : Nat, i < r.length → r[i]? = some (if i ∈ fitting ts indent tabpos then '\t'.toNat else ' '.toNat) := by
  unfold tabbifyIndent
  split
  · rename_i h0
    subst h0
    refine ⟨[], rfl, ?_, by simp⟩
    have : fitting ts 0 tabpos = [] := by
      cases tabpos with
      | nil => rfl
      | cons t m =>
        have := Nat.mod_lt t hts
        have : ¬ (t + tabCols ts t ≤ 0) := by unfold tabCols; omega
        unfold fitting
        rw [List.takeWhile_cons_of_neg (by simpa using this)]
    simp [this]
  · obtain ⟨b, e1, e2, e3, e4⟩ := tabbifyLoop_exact ts indent hts tabpos (nspaces indent ++ [0]) indent 0 [] hp (by simp) (by omega) (Nat.le_refl _)
      (by simp [nspaces]) (by simp [nspaces]) (by
        intro i hi
        rw [List.getElem?_append_left (by simpa [nspaces] using hi)]
        simp [nspaces, hi, chSpace])
    generalize hn : indent - saved ts (fitting ts indent tabpos) = n at e2 e4
    have hr : cstr b = b.take n := by
      obtain ⟨hlt, hz⟩ := List.getElem?_eq_some_iff.1 e2
      have hspl : b = b.take n ++ 0 :: b.drop (n + 1) := by
        rw [← hz, List.getElem_cons_drop, List.take_append_drop]
      rw [hspl, cstr_nul]
      · rw [← hspl]
      · intro c hc
        obtain ⟨i, hi⟩ := List.mem_iff_getElem?.1 hc
        rw [List.getElem?_take] at hi
        split at hi
        · rename_i hin
          rw [e4 i hin] at hi
          have := Option.some.inj hi
          rw [← this]
          split <;> simp
        · simp at hi
    obtain ⟨hlt, -⟩ := List.getElem?_eq_some_iff.1 e2
    have hl : (b.take n).length = n := by simp; omega
    refine ⟨b.take n, by rw [e1, Option.map_some, hr], ?_, ?_⟩
    · rw [hl]
      show n + saved ts (fitting ts indent tabpos) = indent
      omega
    · rw [hl]
      intro i hi
      rw [List.getElem?_take, if_pos hi, e4 i hi]
      rfl

example : [0, 8].Pairwise (fun a b => a + tabCols 8 a ≤ b) ∧ fitting 8 17 [0, 8] = [0, 8] ∧ tabbifyIndent 8 17 [0, 8] 17 = some [0x09, 0x20, 0x20] := by decide

end Boxes
