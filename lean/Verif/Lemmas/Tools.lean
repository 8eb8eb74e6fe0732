import Verif.Model.Tools
import Verif.Spec.Tools
import Verif.Lemmas.BxsOps

/-! # Lemmas about `src/tools.c` -/
namespace Boxes
open Spec
set_option linter.unusedSimpArgs false

/-! ## comparison -/

theorem strnEq_iff : ∀ (n : Nat) (a b : Str), a.length < n → (strnEq n a b = true ↔ a = b) := by
  intro n
  induction n with
  | zero => intro a b h; omega
  | succ n ih =>
    intro a b h
    cases a with
    | nil => cases b <;> simp [strnEq]
    | cons x a =>
      cases b with
      | nil => simp [strnEq]
      | cons y b =>
        simp only [strnEq, Bool.and_eq_true, beq_iff_eq, List.cons.injEq]
        rw [ih a b (by simpa using h)]

/-- comparing the first `n` characters -/
theorem strnEq_take : ∀ (n : Nat) (a b : Str), n ≤ b.length → (strnEq n a b = true ↔ a.take n = b.take n) := by
  intro n
  induction n with
  | zero => intro a b h; simp [strnEq]
  | succ n ih =>
    intro a b h
    cases b with
    | nil => simp at h
    | cons y b =>
      cases a with
      | nil => simp [strnEq]
      | cons x a =>
        simp only [strnEq, Bool.and_eq_true, beq_iff_eq, List.take_succ_cons, List.cons.injEq]
        rw [ih a b (by simpa using h)]

theorem toLower_eq : toLower = lower := rfl

theorem strnCaseEq_word (n : Nat) (w : String) (s : Str) (hw : (lit w).map toLower = lit w) (hn : (lit w).length < n) :
    strnCaseEq n (lit w) s = true ↔ Word w s := by
  unfold strnCaseEq Word
  rw [strnEq_iff _ _ _ (by simpa using hn), hw]
  exact eq_comm

/-! ## buffers -/

theorem concatLoop_eq (l : List (Option Str)) : ∀ (b : Buf), b.data.length + totalLen l + 1 ≤ b.cap →
    concatLoop l b = some ⟨b.cap, b.data ++ (l.map (·.getD [])).flatten⟩ := by
  induction l with
  | nil => intro b h; simp [concatLoop]
  | cons x l ih =>
    intro b h
    cases x with
    | none =>
      simp only [concatLoop]
      rw [ih b (by simpa [totalLen] using h)]
      simp
    | some s =>
      simp only [totalLen] at h
      simp only [concatLoop]
      split
      · rename_i h0
        have : s = [] := List.eq_nil_of_length_eq_zero h0
        subst this
        rw [ih b (by simpa using h)]
        simp
      · have hp : b.put s = some ⟨b.cap, b.data ++ s⟩ := by
          unfold Buf.put; rw [if_pos (by omega)]
        rw [hp]
        simp only [Option.bind_eq_bind, Option.bind_some]
        rw [ih _ (by simp; omega)]
        simp

theorem totalLen_eq (l : List (Option Str)) : totalLen l = ((l.map (·.getD [])).flatten).length := by
  induction l with
  | nil => rfl
  | cons x l ih => cases x <;> simp [totalLen, ih]

theorem repeatLoop_eq (s : Str) : ∀ (n : Nat) (b : Buf), b.data.length + n * s.length + 1 ≤ b.cap →
    repeatLoop s n b = some ⟨b.cap, b.data ++ (List.replicate n s).flatten⟩ := by
  intro n
  induction n with
  | zero => intro b h; simp [repeatLoop]
  | succ n ih =>
    intro b h
    rw [Nat.succ_mul] at h
    have hp : b.put s = some ⟨b.cap, b.data ++ s⟩ := by
      unfold Buf.put; rw [if_pos (by omega)]
    simp only [repeatLoop, hp, Option.bind_eq_bind, Option.bind_some]
    rw [ih _ (by simp; omega)]
    simp [List.replicate_succ]

theorem bxStrndup_eq (s : Str) (n : Nat) : bxStrndup s n = some ⟨(s.take n).length + 1, s.take n⟩ := by
  unfold bxStrndup Buf.put
  simp only [List.length_nil, Nat.zero_add, List.nil_append, List.length_take]
  split
  · rw [if_pos (by omega)]; congr 2; omega
  · rw [if_pos (by omega)]
    have h1 : s.take s.length = s.take n := by
      rw [List.take_length, List.take_of_length_le (by omega)]
    rw [h1]; congr 2; omega

theorem trimFwd_eq (str : Str) : ∀ (fuel s e : Nat), e < str.length → s ≤ e + 1 → e + 1 - s ≤ fuel →
    trimFwd str fuel s e = s + (((str.take (e + 1)).drop s).takeWhile isSpTab).length := by
  intro fuel
  induction fuel with
  | zero =>
    intro s e h1 h2 h3
    have : s = e + 1 := by omega
    subst this
    simp [trimFwd, List.drop_take]
  | succ fuel ih =>
    intro s e h1 h2 h3
    unfold trimFwd
    by_cases hs : s ≤ e
    · have hd : (str.take (e + 1)).drop s = str[s] :: (str.take (e + 1)).drop (s + 1) := by
        rw [List.drop_eq_getElem_cons (by simp; omega)]; simp
      have hel : (str[s]?.elim false isSpTab) = isSpTab str[s] := by rw [List.getElem?_eq_getElem (by omega)]; rfl
      rw [hd, List.takeWhile_cons]
      by_cases hc : isSpTab str[s] = true
      · rw [if_pos hc, if_pos ⟨by omega, by rw [hel]; exact hc⟩, ih (s + 1) e h1 (by omega) (by omega)]
        simp; omega
      · rw [if_neg hc, if_neg (by rw [hel]; exact fun hh => hc hh.2)]
        simp
    · have : s = e + 1 := by omega
      subst this
      rw [if_neg (by omega)]
      simp [List.drop_take]

theorem trimBack_eq (str : Str) (s : Nat) : ∀ (fuel e : Nat), e < str.length → s ≤ e → e - s < fuel →
    (str[s]?.elim false isSpTab) = false →
    trimBack str s fuel e = (e : Int) - (((str.take (e + 1)).drop s).reverse.takeWhile isSpTab).length := by
  intro fuel
  induction fuel with
  | zero => intro e h1 h2 h3; omega
  | succ fuel ih =>
    intro e h1 h2 h3 hns
    unfold trimBack
    have hd : (str.take (e + 1)).drop s = (str.take e).drop s ++ [str[e]] := by
      rw [List.take_succ_eq_append_getElem (by omega), List.drop_append_of_le_length (by simp; omega)]
    rw [hd, List.reverse_append, List.reverse_cons, List.reverse_nil, List.nil_append, List.singleton_append,
      List.takeWhile_cons]
    have hel : (str[(e : Int).toNat]?.elim false isSpTab) = isSpTab str[e] := by
      rw [Int.toNat_natCast, List.getElem?_eq_getElem (by omega)]; rfl
    by_cases hc : (e : Int) > (s : Int) ∧ isSpTab str[e] = true
    · rw [if_pos hc.2, if_pos (by rw [hel]; exact hc)]
      obtain ⟨e', rfl⟩ : ∃ e', e = e' + 1 := ⟨e - 1, by omega⟩
      have : ((e' + 1 : Nat) : Int) - 1 = (e' : Int) := by omega
      rw [this, ih e' (by omega) (by omega) (by omega) hns]
      simp; omega
    · have : ¬ isSpTab str[e] = true := by
        intro hh
        rcases Nat.lt_or_ge s e with hlt | hge
        · exact hc ⟨by omega, hh⟩
        · have : s = e := by omega
          subst this
          rw [List.getElem?_eq_getElem (by omega)] at hns
          simp at hns; rw [hns] at hh; simp at hh
      rw [if_neg this, if_neg (by rw [hel]; exact hc)]; simp

theorem strrspnLoop_eq (accept : Str) (s : Str) :
    strrspnLoop accept s = (s.takeWhile (fun c => accept.contains c)).length := by
  induction s with
  | nil => rfl
  | cons c s ih =>
    simp only [strrspnLoop, List.takeWhile_cons]
    split <;> simp [ih]; omega

/-! ## tabs -/

theorem Spec.Expand.append {ts : Nat} {col : Nat} {s t s' t' : Str} (h : Expand ts col s t)
    (h' : Expand ts (col + t.length) s' t') : Expand ts col (s ++ s') (t ++ t') := by
  induction h with
  | nil col => simpa using h'
  | char c hc h ih =>
    refine Expand.char c hc (ih ?_)
    simp only [List.length_cons] at h'
    have : ∀ a b : Nat, a + (b + 1) = a + 1 + b := by intros; omega
    rw [this] at h'; exact h'
  | tab n h1 h2 h3 h ih =>
    rw [List.append_assoc]
    refine Expand.tab n h1 h2 h3 (ih ?_)
    simp only [List.length_append, List.length_replicate] at h'
    rw [← Nat.add_assoc] at h'; exact h'

/-- the expansion is determined -/
theorem Spec.Expand.unique {ts : Nat} {col : Nat} {s t t' : Str} (h : Expand ts col s t) (h' : Expand ts col s t') :
    t = t' := by
  induction h generalizing t' with
  | nil col => cases h'; rfl
  | char c hc h ih =>
    cases h' with
    | char _ _ h' => rw [ih h']
    | tab => exact absurd rfl hc
  | tab n h1 h2 h3 h ih =>
    cases h' with
    | char _ hc _ => exact absurd rfl hc
    | tab m g1 g2 g3 h' =>
      have : n = m := by
        obtain ⟨a, ha⟩ := h3
        obtain ⟨b, hb⟩ := g3
        rcases Nat.lt_trichotomy n m with hl | he | hl
        · exfalso
          have hab : a < b := Nat.lt_of_mul_lt_mul_left (a := ts) (by omega)
          have := Nat.mul_le_mul_left ts (Nat.succ_le_of_lt hab)
          rw [Nat.mul_succ] at this
          omega
        · exact he
        · exfalso
          have hab : b < a := Nat.lt_of_mul_lt_mul_left (a := ts) (by omega)
          have := Nat.mul_le_mul_left ts (Nat.succ_le_of_lt hab)
          rw [Nat.mul_succ] at this
          omega
      subst this
      rw [ih h']

theorem tab_dvd (ts col : Nat) (h : 0 < ts) : ts ∣ col + (ts - col % ts) := by
  have h1 := Nat.mod_lt col h
  have h2 := Nat.div_add_mod col ts
  refine ⟨col / ts + 1, ?_⟩
  rw [Nat.mul_add]
  omega

theorem expandLoop_spec (ts : Nat) (hts : 0 < ts) : ∀ (s out : Str) (tabs : List Nat),
    ∃ a b t, s = a ++ b ∧ Expand ts out.length a t ∧ (expandLoop ts s out tabs).1 = out ++ t ∧
      (b = [] ∨ (out ++ t).length ≥ lineMaxBytes - 12) ∧
      (out.length < lineMaxBytes - 12 + ts → (out ++ t).length < lineMaxBytes - 12 + ts) ∧
      ∃ ps, (expandLoop ts s out tabs).2 = tabs ++ ps ∧ ps.length = a.count 0x09 ∧
        ∀ p q, a = p ++ 0x09 :: q → ∀ tp, Expand ts out.length p tp → ps[p.count 0x09]? = some (out ++ tp).length := by
  intro s
  induction s with
  | nil =>
    intro out tabs
    refine ⟨[], [], [], rfl, Expand.nil _, by simp [expandLoop], Or.inl rfl, by simp, [], by simp [expandLoop], by simp, ?_⟩
    intro p q h; simp at h
  | cons c s ih =>
    intro out tabs
    unfold expandLoop
    split
    · rename_i hlim
      split
      · rename_i hc
        have hc' : c = 0x09 := hc
        subst hc'
        have hm := Nat.mod_lt out.length hts
        have hn1 : 1 ≤ ts - out.length % ts := by omega
        have hn2 : ts - out.length % ts ≤ ts := by omega
        have hn3 := tab_dvd ts out.length hts
        generalize ts - out.length % ts = n at *
        obtain ⟨a, b, t, e1, e2, e3, e4, e5, ps, e6, e7, e8⟩ := ih (out ++ nspaces n) (tabs ++ [out.length])
        have hl : (out ++ nspaces n).length = out.length + n := by simp [nspaces]
        rw [hl] at e2
        refine ⟨0x09 :: a, b, List.replicate n 0x20 ++ t, by rw [e1]; rfl, Expand.tab n hn1 hn2 hn3 e2, ?_, ?_, ?_,
          out.length :: ps, ?_, ?_, ?_⟩
        · rw [e3, List.append_assoc]; rfl
        · simpa [nspaces] using e4
        · intro _
          have := e5 (by rw [hl]; omega)
          rw [List.append_assoc] at this
          exact this
        · rw [e6]; simp
        · simp [e7]
        · intro p q hp tp htp
          cases p with
          | nil => cases htp; simp
          | cons x p =>
            simp at hp
            obtain ⟨rfl, hp⟩ := hp
            cases htp with
            | char _ hx _ => exact absurd rfl hx
            | tab m g1 g2 g3 h' =>
              have hmn : Expand ts out.length [0x09] (List.replicate m 0x20 ++ []) := Expand.tab m g1 g2 g3 (Expand.nil _)
              have hnn : Expand ts out.length [0x09] (List.replicate n 0x20 ++ []) := Expand.tab n hn1 hn2 hn3 (Expand.nil _)
              have := hmn.unique hnn
              have hmn' : m = n := by
                have := congrArg List.length this
                simpa using this
              subst hmn'
              have := e8 p q hp _ (by rw [hl]; exact h')
              simp [List.count_cons]
              rw [this]
              simp [nspaces]
      · rename_i hc
        have hc' : c ≠ 0x09 := hc
        obtain ⟨a, b, t, e1, e2, e3, e4, e5, ps, e6, e7, e8⟩ := ih (out ++ [c]) tabs
        have hl : (out ++ [c]).length = out.length + 1 := by simp
        rw [hl] at e2
        refine ⟨c :: a, b, c :: t, by rw [e1]; rfl, Expand.char c hc' e2, ?_, ?_, ?_, ps, e6, ?_, ?_⟩
        · rw [e3]; simp
        · simpa using e4
        · intro _
          have := e5 (by rw [hl]; omega)
          rw [List.append_assoc] at this
          exact this
        · rw [e7, List.count_cons_of_ne hc']
        · intro p q hp tp htp
          cases p with
          | nil => simp at hp; exact absurd hp.1 hc'
          | cons x p =>
            simp at hp
            obtain ⟨rfl, hp⟩ := hp
            cases htp with
            | tab => exact absurd rfl hc'
            | char _ _ h' =>
              have := e8 p q hp _ (by rw [hl]; exact h')
              rw [List.count_cons_of_ne hc', this]
              simp
    · rename_i hlim
      refine ⟨[], c :: s, [], rfl, Expand.nil _, by simp, Or.inr (by simp; omega), by simp, [], by simp, by simp, ?_⟩
      intro p q h; simp at h

theorem expand_spaces (ts : Nat) : ∀ n col, Expand ts col (List.replicate n 0x20) (List.replicate n 0x20) := by
  intro n
  induction n with
  | zero => intro col; exact Expand.nil _
  | succ n ih => intro col; rw [List.replicate_succ]; exact Expand.char _ (by decide) (ih _)

theorem expand_tabs (ts : Nat) (hts : 0 < ts) : ∀ n col, ts ∣ col →
    Expand ts col (List.replicate n 0x09) (List.replicate (n * ts) 0x20) := by
  intro n
  induction n with
  | zero => intro col _; simpa using Expand.nil _
  | succ n ih =>
    intro col h
    rw [List.replicate_succ, Nat.succ_mul, Nat.add_comm, ← List.replicate_append_replicate]
    exact Expand.tab ts hts (Nat.le_refl _) (Nat.dvd_add h (Nat.dvd_refl _)) (ih _ (Nat.dvd_add h (Nat.dvd_refl _)))

/-- a string of spaces and one-column tabs expands to spaces -/
theorem expand_narrow (ts : Nat) (hts : 0 < ts) : ∀ (s : Str) (col : Nat),
    (∀ i (h : i < s.length), s[i] = 0x20 ∨ (s[i] = 0x09 ∧ ts ∣ col + i + 1)) →
    Expand ts col s (List.replicate s.length 0x20) := by
  intro s
  induction s with
  | nil => intro col _; exact Expand.nil _
  | cons c s ih =>
    intro col h
    have ih' := ih (col + 1) (fun i hi => by
      have := h (i + 1) (by simpa using hi)
      simp only [List.getElem_cons_succ] at this
      rcases this with h | ⟨h1, h2⟩
      · exact Or.inl h
      · exact Or.inr ⟨h1, by rwa [show col + 1 + i + 1 = col + (i + 1) + 1 by omega]⟩)
    rw [List.length_cons, List.replicate_succ]
    have h0 := h 0 (by simp)
    simp only [List.getElem_cons_zero] at h0
    rcases h0 with rfl | ⟨rfl, h2⟩
    · exact Expand.char _ (by decide) ih'
    · exact Expand.tab 1 (Nat.le_refl _) hts (by simpa using h2) ih'

end Boxes
