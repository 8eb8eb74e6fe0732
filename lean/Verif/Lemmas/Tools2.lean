import Verif.Lemmas.Tools

/-! # Lemmas: restoring tabs, searching, regular expressions, trimming -/
namespace Boxes
open Spec
set_option linter.unusedSimpArgs false

theorem cstr_nul (w : Str) (h : ∀ c ∈ w, c ≠ 0) (r : Str) : cstr (w ++ 0 :: r) = w := by
  unfold cstr
  rw [List.takeWhile_append_of_pos (by intro c hc; simpa using h c hc)]
  simp

theorem tabbifyLoop_spec (ts : Nat) (hts : 0 < ts) (L : Nat) : ∀ (tabpos : List Nat) (w : Str), w.length = L →
    (∀ i (h : i < w.length), w[i] = 0x20 ∨ (w[i] = 0x09 ∧ ts ∣ i + 1)) →
    tabpos.Pairwise (· < ·) → (∀ i (h : i < w.length), w[i] = 0x09 → ∀ t ∈ tabpos, i < t) →
    (∀ a b c, fitting ts L tabpos = a ++ b :: c → c ≠ [] → ts ∣ b + 1) →
    ∃ buf, tabbifyLoop ts L L tabpos (w ++ [0]) L = some buf ∧ Expand ts 0 (cstr buf) (List.replicate L 0x20) ∧
      (cstr buf).length = L - ((fitting ts L tabpos).getLast?.elim 0 (fun t => tabCols ts t - 1)) ∧
      (∀ i : Nat, (cstr buf)[i]? = some 0x09 ↔ w[i]? = some 0x09 ∨ i ∈ fitting ts L tabpos) := by
  intro tabpos
  induction tabpos with
  | nil =>
    intro w hw h1 _ _ _
    have hz : ∀ c ∈ w, c ≠ 0 := by
      intro c hc
      obtain ⟨i, hi, rfl⟩ := List.getElem_of_mem hc
      rcases h1 i hi with h | h <;> simp [h]
    refine ⟨_, rfl, ?_, ?_, ?_⟩
    · rw [cstr_nul w hz, ← hw]
      exact expand_narrow ts hts w 0 (by simpa using h1)
    · rw [cstr_nul w hz, hw]; simp [fitting]
    · intro i; rw [cstr_nul w hz]; simp [fitting]
  | cons t more ih =>
    intro w hw h1 hp h2 h3
    have hz : ∀ c ∈ w, c ≠ 0 := by
      intro c hc
      obtain ⟨i, hi, rfl⟩ := List.getElem_of_mem hc
      rcases h1 i hi with h | h <;> simp [h]
    have hm := Nat.mod_lt t hts
    have hn1 : 1 ≤ tabCols ts t := by unfold tabCols; omega
    have hstop : ¬ (t + tabCols ts t ≤ L) → fitting ts L (t :: more) = [] := by
      intro h; simp [fitting, h]
    have hdone : fitting ts L (t :: more) = [] →
        tabbifyLoop ts L L (t :: more) (w ++ [0]) L = some (w ++ [0]) → ∃ buf,
        tabbifyLoop ts L L (t :: more) (w ++ [0]) L = some buf ∧ Expand ts 0 (cstr buf) (List.replicate L 0x20) ∧
        (cstr buf).length = L - ((fitting ts L (t :: more)).getLast?.elim 0 (fun t => tabCols ts t - 1)) ∧
        (∀ i : Nat, (cstr buf)[i]? = some 0x09 ↔ w[i]? = some 0x09 ∨ i ∈ fitting ts L (t :: more)) := by
      intro hf hb
      refine ⟨_, hb, ?_, ?_, ?_⟩
      · rw [cstr_nul w hz, ← hw]
        exact expand_narrow ts hts w 0 (by simpa using h1)
      · rw [cstr_nul w hz, hf, hw]; simp
      · intro i; rw [cstr_nul w hz, hf]; simp
    by_cases hlt : t < L
    · by_cases hfit : t + tabCols ts t ≤ L
      · have hfc : fitting ts L (t :: more) = t :: fitting ts L more := by simp [fitting, hfit]
        have hstep : tabbifyLoop ts L L (t :: more) (w ++ [0]) L =
            tabbifyLoop ts L L more (((w ++ [0]).set t chTab).set (L - (tabCols ts t - 1)) 0) (L - (tabCols ts t - 1)) := by
          conv => lhs; unfold tabbifyLoop
          rw [if_pos hlt]
          have e : ts - t % ts = tabCols ts t := rfl
          simp only [e]
          rw [if_neg (by omega), if_neg (by omega), if_pos (by simp [hw]; omega)]
        have hset : (w ++ [0]).set t chTab = w.set t chTab ++ [0] := by
          rw [List.set_append]; rw [if_pos (by omega)]
        rw [hstep, hset]
        -- the characters before the new tab are kept, those behind are spaces
        have hsp : w.drop (t + 1) = List.replicate (L - (t + 1)) 0x20 := by
          apply List.ext_getElem
          · simp [hw]
          · intro i hi1 hi2
            simp only [List.getElem_drop, List.getElem_replicate]
            have hi3 : t + 1 + i < w.length := by simpa [Nat.add_comm, Nat.lt_sub_iff_add_lt] using hi1
            rcases h1 (t + 1 + i) hi3 with h | h
            · exact h
            · have := h2 (t + 1 + i) hi3 h.1 t (by simp)
              omega
        have hwset : w.set t chTab = w.take t ++ chTab :: List.replicate (L - (t + 1)) 0x20 := by
          rw [List.set_eq_take_append_cons_drop, if_pos (by omega), hsp]
        cases hfm : fitting ts L more with
        | nil =>
          -- last restored tab
          have hend : ∀ b l, tabbifyLoop ts L L more b l = some b := by
            intro b l
            cases more with
            | nil => rfl
            | cons t' m =>
              unfold tabbifyLoop
              split
              · have : ¬ (t' + tabCols ts t' ≤ L) := by
                  intro hh; simp [fitting, hh] at hfm
                simp only [show ts - t' % ts = tabCols ts t' from rfl]
                rw [if_pos (by omega)]
              · rfl
          rw [hend]
          have hx : cstr ((w.set t chTab ++ [0]).set (L - (tabCols ts t - 1)) 0) =
              w.take t ++ chTab :: List.replicate (L - t - tabCols ts t) 0x20 := by
            have hk : w.set t chTab ++ [0] = (w.take t ++ chTab :: List.replicate (L - t - tabCols ts t) 0x20) ++
                (List.replicate (tabCols ts t - 1) 0x20 ++ [0]) := by
              rw [hwset]
              have : L - (t + 1) = (L - t - tabCols ts t) + (tabCols ts t - 1) := by omega
              rw [this, ← List.replicate_append_replicate]
              simp only [List.append_assoc, List.cons_append]
            have hlen : (w.take t ++ chTab :: List.replicate (L - t - tabCols ts t) 0x20).length = L - (tabCols ts t - 1) := by
              simp [hw]; omega
            rw [hk, ← hlen, List.set_append_right _ _ (Nat.le_refl _), Nat.sub_self]
            have hcons : ∃ r, (List.replicate (tabCols ts t - 1) 0x20 ++ [0]).set 0 0 = 0 :: r := by
              cases hh : (List.replicate (tabCols ts t - 1) 0x20 ++ [0]) with
              | nil => simp at hh
              | cons y r => exact ⟨r, rfl⟩
            obtain ⟨r, hr⟩ := hcons
            rw [hr, cstr_nul]
            intro c hc
            simp only [List.mem_append, List.mem_cons, List.mem_replicate] at hc
            rcases hc with hc | rfl | hc
            · exact hz c (List.mem_of_mem_take hc)
            · decide
            · simp [hc.2]
          refine ⟨_, rfl, ?_, ?_, ?_⟩
          · rw [hx]
            have hpre := expand_narrow ts hts (w.take t) 0 (fun i hi => by
              have := h1 i (by simp at hi; omega)
              simpa using this)
            have hlt' : (w.take t).length = t := by simp [hw]; omega
            rw [hlt'] at hpre
            have htab : Expand ts t (chTab :: List.replicate (L - t - tabCols ts t) 0x20)
                (List.replicate (tabCols ts t) 0x20 ++ List.replicate (L - t - tabCols ts t) 0x20) :=
              Expand.tab _ hn1 (by unfold tabCols; omega) (tab_dvd ts t hts) (expand_spaces ts _ _)
            have := hpre.append (by simpa using htab)
            simp only [List.replicate_append_replicate] at this
            rw [show t + (tabCols ts t + (L - t - tabCols ts t)) = L by omega] at this
            exact this
          · rw [hx, hfc, hfm]; simp [hw]; omega
          · intro i
            rw [hx, hfc, hfm]
            have hlt' : (w.take t).length = t := by simp [hw]; omega
            rcases Nat.lt_trichotomy i t with h | h | h
            · rw [List.getElem?_append_left (by omega), List.getElem?_take_of_lt h]
              simp; omega
            · subst h
              rw [List.getElem?_append_right (by omega), hlt']
              simp
            · rw [List.getElem?_append_right (by omega), hlt']
              obtain ⟨d, hd⟩ : ∃ d, i - t = d + 1 := ⟨i - t - 1, by omega⟩
              rw [hd, List.getElem?_cons_succ, List.getElem?_replicate]
              constructor
              · intro hh; split at hh <;> simp at hh
              · rintro (hh | hh)
                · have hi : i < w.length := (List.getElem?_eq_some_iff.1 hh).1
                  have := h2 i hi (by rw [List.getElem?_eq_getElem hi] at hh; simpa using hh) t (by simp)
                  omega
                · simp at hh; omega
        | cons b c =>
          have hdvd : ts ∣ t + 1 := h3 [] t (b :: c) (by rw [hfc, hfm]; rfl) (by simp)
          have hnarrow : tabCols ts t = 1 := by
            obtain ⟨k, hk⟩ := hdvd
            have hmod : (t + 1) % ts = 0 := by rw [hk]; simp
            have h2 : (t % ts + 1) % ts = 0 := by
              rw [← hmod, Nat.add_mod t 1 ts, Nat.add_mod (t % ts) 1 ts]; simp
            have : t % ts + 1 = ts := by
              rcases Nat.lt_or_ge (t % ts + 1) ts with h | h
              · rw [Nat.mod_eq_of_lt h] at h2; omega
              · omega
            unfold tabCols; omega
          have hL : L - (tabCols ts t - 1) = L := by omega
          rw [hL]
          have hset2 : (w.set t chTab ++ [0]).set L 0 = w.set t chTab ++ [0] := by
            rw [List.set_append_right _ _ (by simp [hw])]; simp [hw]
          rw [hset2]
          have hp' := List.pairwise_cons.1 hp
          obtain ⟨buf, b1, b2, b3, b4⟩ := ih (w.set t chTab) (by simpa using hw) (by
              intro i hi
              rw [List.getElem_set]
              split
              · rename_i he; subst he; exact Or.inr ⟨rfl, hdvd⟩
              · exact h1 i (by simpa using hi)) hp'.2 (by
              intro i hi hit t' ht'
              rw [List.getElem_set] at hit
              split at hit
              · rename_i he; subst he; exact hp'.1 t' ht'
              · exact h2 i (by simpa using hi) hit t' (by simp [ht'])) (by
              intro a x y he hy
              exact h3 (t :: a) x y (by rw [hfc, he]; rfl) hy)
          refine ⟨buf, b1, b2, ?_, ?_⟩
          · rw [b3, hfc, hfm]; simp
          · intro i
            rw [b4 i, hfc, List.getElem?_set, List.mem_cons]
            by_cases he : t = i
            · subst he
              rw [if_pos rfl, if_pos (by omega)]
              simp
            · rw [if_neg he]
              constructor
              · rintro (h | h)
                · exact Or.inl h
                · exact Or.inr (Or.inr h)
              · rintro (h | h | h)
                · exact Or.inl h
                · exact absurd h.symm he
                · exact Or.inr h
      · apply hdone (hstop hfit)
        unfold tabbifyLoop
        rw [if_pos hlt]
        simp only [show ts - t % ts = tabCols ts t from rfl]
        rw [if_pos (by omega)]
    · have hfit : ¬ (t + tabCols ts t ≤ L) := by omega
      apply hdone (hstop hfit)
      unfold tabbifyLoop
      rw [if_neg hlt]

/-! ## search -/

theorem strnrstrLoop_spec (h n : Str) (len : Nat) : ∀ p,
    (∀ q, strnrstrLoop h n len p = some q → q ≤ p ∧ strnEq len (h.drop q) n = true ∧
      ∀ r, q < r → r ≤ p → strnEq len (h.drop r) n = false) ∧
    (strnrstrLoop h n len p = none → ∀ r, r ≤ p → strnEq len (h.drop r) n = false) := by
  intro p
  induction p with
  | zero =>
    unfold strnrstrLoop
    constructor
    · intro q hq
      split at hq
      · simp at hq; subst hq; rename_i hh
        exact ⟨Nat.le_refl _, by simpa using hh, by intros; omega⟩
      · simp at hq
    · intro hn r hr
      have : r = 0 := by omega
      subst this
      split at hn
      · simp at hn
      · rename_i hh; simpa using hh
  | succ p ih =>
    unfold strnrstrLoop
    constructor
    · intro q hq
      split at hq
      · simp at hq; subst hq; rename_i hh
        exact ⟨Nat.le_refl _, hh, by intros; omega⟩
      · rename_i hh
        obtain ⟨h1, h2, h3⟩ := ih.1 q hq
        refine ⟨by omega, h2, ?_⟩
        intro r hr1 hr2
        rcases Nat.lt_or_ge r (p + 1) with h | h
        · exact h3 r hr1 (by omega)
        · have : r = p + 1 := by omega
          subst this; simpa using hh
    · intro hn r hr
      split at hn
      · simp at hn
      · rename_i hh
        rcases Nat.lt_or_ge r (p + 1) with h | h
        · exact ih.2 hn r (by omega)
        · have : r = p + 1 := by omega
          subst this; simpa using hh

/-- comparing a whole needle -/
theorem strnEq_prefix (a b : Str) : strnEq b.length a b = true ↔ b <+: a := by
  rw [strnEq_take _ _ _ (Nat.le_refl _), List.take_length]
  constructor
  · intro h; rw [← h]; exact List.take_prefix _ _
  · rintro ⟨t, rfl⟩; simp

theorem occursAt_iff (h n : Str) (p : Nat) : OccursAt h n p ↔ p ≤ h.length ∧ n <+: h.drop p := by
  constructor
  · rintro ⟨a, b, rfl, rfl⟩
    refine ⟨by simp, ⟨b, by simp⟩⟩
  · rintro ⟨hp, b, hb⟩
    exact ⟨h.take p, b, by rw [List.append_assoc, hb, List.take_append_drop], by simp; omega⟩

theorem strrchr_spec (s : Str) (c : Nat) :
    (∀ p : Nat, strrchr s c = some p → s[p]? = some c ∧ ∀ q : Nat, p < q → s[q]? ≠ some c) ∧
    (strrchr s c = none → ∀ q : Nat, s[q]? ≠ some c) := by
  unfold strrchr
  constructor
  · intro p hp
    have h1 := List.find?_some hp
    refine ⟨by simpa using h1, ?_⟩
    rw [List.find?_eq_some_iff_append] at hp
    obtain ⟨-, a, b, hab, hall⟩ := hp
    intro q hq hqc
    have hql : q < s.length := (List.getElem?_eq_some_iff.1 hqc).1
    have hpw : (List.range s.length).reverse.Pairwise (· > ·) := by
      rw [List.pairwise_reverse]; exact List.pairwise_lt_range
    rw [hab] at hpw
    have hmem : q ∈ a ++ p :: b := by rw [← hab]; simp [hql]
    rw [List.mem_append, List.mem_cons] at hmem
    rw [List.pairwise_append, List.pairwise_cons] at hpw
    rcases hmem with h | h | h
    · have := hall q h; simp [hqc] at this
    · omega
    · have := hpw.2.1.1 q h; omega
  · intro hn q hqc
    have hql : q < s.length := (List.getElem?_eq_some_iff.1 hqc).1
    rw [List.find?_eq_none] at hn
    exact hn q (by simp [hql]) (by simp [hqc])

/-! ## regular expressions -/

theorem mem_runStar (p : Nat → Bool) : ∀ (post pre : Str) (q : Str × Str),
    q ∈ runStar p pre post ↔ ∃ m, (∀ c ∈ m, p c = true) ∧ post = m ++ q.2 ∧ q.1 = m.reverse ++ pre := by
  intro post
  induction post with
  | nil =>
    intro pre q
    simp only [runStar, List.mem_singleton]
    constructor
    · rintro rfl; exact ⟨[], by simp⟩
    · rintro ⟨m, h1, h2, h3⟩
      simp at h2
      obtain ⟨rfl, h2⟩ := h2
      ext1 <;> simp_all
  | cons c r ih =>
    intro pre q
    simp only [runStar, List.mem_cons]
    constructor
    · rintro (rfl | h)
      · exact ⟨[], by simp⟩
      · split at h
        · rename_i hc
          obtain ⟨m, h1, h2, h3⟩ := (ih _ _).1 h
          refine ⟨c :: m, ?_, by rw [h2]; rfl, by rw [h3]; simp⟩
          intro x hx
          rcases List.mem_cons.1 hx with rfl | hx
          · exact hc
          · exact h1 x hx
        · simp at h
    · rintro ⟨m, h1, h2, h3⟩
      cases m with
      | nil => left; ext1 <;> simp_all
      | cons d m =>
        right
        simp at h2
        obtain ⟨rfl, h2⟩ := h2
        rw [if_pos (h1 c (by simp)), ih]
        exact ⟨m, fun x hx => h1 x (by simp [hx]), h2, by rw [h3]; simp⟩

theorem run_word : ∀ (w pre post : Str) (q : Str × Str),
    q ∈ (Re.word w).run pre post ↔ post = w ++ q.2 ∧ q.1 = w.reverse ++ pre := by
  intro w
  induction w with
  | nil =>
    intro pre post q
    simp only [Re.word, Re.run, mem_runStar]
    constructor
    · rintro ⟨m, h1, h2, h3⟩
      have : m = [] := by
        cases m with
        | nil => rfl
        | cons x m => have := h1 x (by simp); simp at this
      subst this
      exact ⟨h2, h3⟩
    · rintro ⟨h1, h2⟩; exact ⟨[], by simp, h1, h2⟩
  | cons c w ih =>
    intro pre post q
    simp only [Re.word, Re.run, List.mem_flatMap]
    constructor
    · rintro ⟨x, hx, hq⟩
      rw [ih] at hq
      cases post with
      | nil => simp at hx
      | cons d post =>
        simp only at hx
        split at hx
        · rename_i hd
          simp at hx hd
          subst hx hd
          simp at hq
          refine ⟨by rw [hq.1]; rfl, by rw [hq.2]; simp⟩
        · simp at hx
    · rintro ⟨h1, h2⟩
      refine ⟨(c :: pre, w ++ q.2), by rw [h1]; simp, ?_⟩
      rw [ih]
      exact ⟨rfl, by rw [h2]; simp⟩

end Boxes
