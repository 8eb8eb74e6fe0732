import Verif.Lemmas.Cmdline
import Verif.Props.Query

/-! # Lemmas about single options and the loop over them -/
namespace Boxes
open Spec

set_option linter.unusedSimpArgs false

instance (w : String) (s : Str) : Decidable (Word w s) := by unfold Word; infer_instance
instance (s : Str) : Decidable (Yes s) := by unfold Yes; infer_instance
instance (s : Str) : Decidable (No s) := by unfold No; infer_instance

theorem alignment_iff (o o' : Opt) (s : Str) : alignment o s = some o' ↔
    s ≠ [] ∧ ∃ l : List (Str × Placing), s = (l.map (fun e => e.1)).flatten ∧ (∀ e ∈ l, Spells e.1 e.2) ∧ o' = placed l o := by
  unfold alignment
  by_cases hs : s = []
  · subst hs; simp
  · rw [if_neg (by simpa using hs), alignLoop_iff _ _ _ _ (Nat.le_refl _)]
    simp [hs]

theorem paddingOption_iff (o o' : Opt) (s : Str) : paddingOption o s = some o' ↔
    s ≠ [] ∧ ∃ l, s = areasText l ∧ (∀ a ∈ l, a.Tolerated) ∧ (∀ a ∈ l.getLast?, a.text ≠ []) ∧
      o' = { o with padding := areasSet l o.padding } := by
  unfold paddingOption
  by_cases hs : s = []
  · subst hs; simp
  · rw [if_neg (by simpa using hs)]
    simp only [Option.map_eq_some_iff]
    constructor
    · rintro ⟨p, hp, rfl⟩
      obtain ⟨l, h1, h2, h3, h4⟩ := (areaLoop_iff _ _ _ _ (Nat.le_refl _)).1 hp
      exact ⟨hs, l, h1, h2, h3, by rw [h4]⟩
    · rintro ⟨_, l, h1, h2, h3, rfl⟩
      exact ⟨_, (areaLoop_iff _ _ _ _ (Nat.le_refl _)).2 ⟨l, h1, h2, h3, rfl⟩, rfl⟩

theorem begins_unique {s : Str} {v w : Int} {r r' : Str} (h : Begins s v r) (h' : Begins s w r') : r = r' ∧ (Long v → v = w) := by
  have h1 := strtol_begins h
  have h2 := strtol_begins h'
  rw [h1] at h2
  have hr := congrArg Strtol.rest h2
  rw [clamped_rest, clamped_rest] at hr
  refine ⟨hr, fun hl => ?_⟩
  have hw : Long w := by rw [← clamped_range w r', ← h2, clamped_range]; exact hl
  rw [clamped_value hl, clamped_value hw] at h2
  exact congrArg Strtol.value h2

theorem strtol_leading (s : Str) (v : Int) (hl : Long v) : Leading s v ↔ (strtol s).value = v ∧ (strtol s).range = false := by
  constructor
  · rintro (⟨rest, hb⟩ | ⟨rfl, hn⟩)
    · rw [strtol_begins hb, clamped_value hl]; exact ⟨rfl, rfl⟩
    · rw [strtol_no_begin hn]; exact ⟨rfl, rfl⟩
  · rintro ⟨h1, h2⟩
    rcases strtol_cases s with ⟨w, rest, hb, hst⟩ | ⟨hst, hn⟩
    · left
      rw [hst, clamped_range] at h2
      rw [hst, clamped_value h2] at h1
      subst h1
      exact ⟨rest, hb⟩
    · right
      rw [hst] at h1
      exact ⟨h1.symm, hn⟩

theorem strtol_long (s : Str) : Long (strtol s).value := by
  rcases strtol_cases s with ⟨w, rest, hb, hst⟩ | ⟨hst, hn⟩
  · rw [hst]
    unfold clamped Long longMax
    split
    · exact ⟨by simp only []; omega, by simp only []; omega⟩
    · split
      · exact ⟨by simp only []; omega, by simp only []; omega⟩
      · exact ⟨by simp only []; omega, by simp only []; omega⟩
  · rw [hst]
    unfold Long
    exact ⟨by simp only []; omega, by simp only []; omega⟩

theorem tabMode_iff (rest : Str) (old x : Char) : TabMode rest old x ↔
    (rest = [] ∧ x = old) ∨ ∃ c, rest = [c] ∧ ((x = 'e' ∧ (c = 0x65 ∨ c = 0x45)) ∨ (x = 'k' ∧ (c = 0x6b ∨ c = 0x4b)) ∨
      (x = 'u' ∧ (c = 0x75 ∨ c = 0x55))) := by
  constructor
  · intro h
    cases h with
    | none => exact .inl ⟨rfl, rfl⟩
    | @letter c x _ hx hc =>
      right
      simp at hx
      refine ⟨c, rfl, ?_⟩
      rcases hx with rfl | rfl | rfl
      · exact .inl ⟨rfl, by simpa [Either] using hc⟩
      · exact .inr (.inl ⟨rfl, by simpa [Either] using hc⟩)
      · exact .inr (.inr ⟨rfl, by simpa [Either] using hc⟩)
  · rintro (⟨rfl, rfl⟩ | ⟨c, rfl, ⟨rfl, h⟩ | ⟨rfl, h⟩ | ⟨rfl, h⟩⟩)
    · exact .none _
    · exact .letter _ (by simp) (by simpa [Either] using h)
    · exact .letter _ (by simp) (by simpa [Either] using h)
    · exact .letter _ (by simp) (by simpa [Either] using h)

theorem tabHandling_iff (o o' : Opt) (s : Str) : tabHandling o s = some o' ↔
    ∃ v rest w x, Begins s v rest ∧ Long v ∧ Wraps v w ∧ 1 ≤ w ∧ w ≤ 16 ∧ TabMode rest o.tabexp x ∧
      o' = { o with tabstop := w.toNat, tabexp := x } := by
  have hmode : ∀ (w : Int) (rest : Str), 1 ≤ w → w ≤ 16 →
      ((match rest with
        | [] => some { o with tabstop := w.toNat }
        | [c] =>
          if c = 0x65 ∨ c = 0x45 then some { o with tabstop := w.toNat, tabexp := 'e' }
          else if c = 0x6b ∨ c = 0x4b then some { o with tabstop := w.toNat, tabexp := 'k' }
          else if c = 0x75 ∨ c = 0x55 then some { o with tabstop := w.toNat, tabexp := 'u' }
          else none
        | _ => none) = some o' ↔ ∃ x, TabMode rest o.tabexp x ∧ o' = { o with tabstop := w.toNat, tabexp := x }) := by
    intro w rest _ _
    simp only [tabMode_iff]
    cases rest with
    | nil =>
      simp only [Option.some.injEq]
      constructor
      · rintro rfl; exact ⟨o.tabexp, by simp, rfl⟩
      · rintro ⟨x, (⟨_, rfl⟩ | ⟨c, hc, _⟩), rfl⟩
        · rfl
        · cases hc
    | cons c rest =>
      cases rest with
      | nil =>
        simp only []
        constructor
        · intro h
          split at h
          · cases h; exact ⟨'e', .inr ⟨c, rfl, .inl ⟨rfl, ‹_›⟩⟩, rfl⟩
          · split at h
            · cases h; exact ⟨'k', .inr ⟨c, rfl, .inr (.inl ⟨rfl, ‹_›⟩)⟩, rfl⟩
            · split at h
              · cases h; exact ⟨'u', .inr ⟨c, rfl, .inr (.inr ⟨rfl, ‹_›⟩)⟩, rfl⟩
              · cases h
        · rintro ⟨x, (⟨h, _⟩ | ⟨d, hd, hx⟩), rfl⟩
          · cases h
          · cases hd
            rcases hx with ⟨rfl, h⟩ | ⟨rfl, h⟩ | ⟨rfl, h⟩
            · rw [if_pos h]
            · rw [if_neg (by omega), if_pos h]
            · rw [if_neg (by omega), if_neg (by omega), if_pos h]
      | cons d rest =>
        simp only []
        constructor
        · intro h; cases h
        · rintro ⟨x, (⟨h, _⟩ | ⟨d, hd, hx⟩), rfl⟩
          · cases h
          · cases hd
  unfold tabHandling
  simp only [maxTabstop]
  rcases strtol_cases s with ⟨v, rest, hb, hst⟩ | ⟨hst, hn⟩
  · by_cases hl : Long v
    · rw [clamped_value hl] at hst
      rw [hst]
      simp only []
      by_cases hw : toInt v < 1 ∨ toInt v > 16
      · rw [if_pos hw]
        constructor
        · intro h; cases h
        · rintro ⟨v', rest', w, x, hb', hl', hwr, h1, h2, _⟩
          obtain ⟨_, hv⟩ := begins_unique hb hb'
          rw [← hv hl] at hwr
          have := wraps_unique hwr
          omega
      · rw [if_neg hw]
        have := hmode (toInt v) rest (by omega) (by omega)
        constructor
        · intro h
          obtain ⟨x, h1, h2⟩ := this.1 h
          exact ⟨v, rest, toInt v, x, hb, hl, toInt_wraps v, by omega, by omega, h1, h2⟩
        · rintro ⟨v', rest', w, x, hb', hl', hwr, h1, h2, h3, h4⟩
          obtain ⟨hr, hv⟩ := begins_unique hb hb'
          rw [← hv hl] at hwr
          have hw' := wraps_unique hwr
          subst hr hw'
          exact this.2 ⟨x, h3, h4⟩
    · have hr : toInt (strtol s).value < 1 := by
        rw [hst]
        unfold Long at hl
        unfold clamped longMax
        by_cases h1 : v > 9223372036854775807
        · rw [if_pos h1]; unfold toInt; simp only []; omega
        · rw [if_neg h1, if_pos (by omega)]; unfold toInt; simp only []; omega
      rw [if_pos (.inl hr)]
      constructor
      · intro h; cases h
      · rintro ⟨v', rest', w, x, hb', hl', _⟩
        obtain ⟨_, hv⟩ := begins_unique hb' hb
        rw [hv hl'] at hl'
        exact absurd hl' hl
  · rw [hst]
    simp only []
    rw [if_pos (.inl (by decide))]
    constructor
    · intro h; cases h
    · rintro ⟨v, rest, _, _, hb, _⟩
      exact absurd hb (hn v rest)

theorem first_occurrence {k : Nat} : ∀ {s : Str}, k ∈ s → ∃ a b, s = a ++ k :: b ∧ k ∉ a := by
  intro s
  induction s with
  | nil => intro hk; cases hk
  | cons y ys ih =>
    intro hk
    by_cases hy : y = k
    · subst hy; exact ⟨[], ys, rfl, by simp⟩
    · rcases List.mem_cons.1 hk with h | h
      · exact absurd h.symm hy
      · obtain ⟨a, b, h1, h2⟩ := ih h
        refine ⟨y :: a, b, by rw [h1]; rfl, ?_⟩
        simp only [List.mem_cons, not_or]
        exact ⟨fun e => hy e.symm, h2⟩

theorem splitAtX_parts (s : Str) : SizeParts s
    (match splitAtX s with | none => some s | some (a, _) => if a.isEmpty then none else some a)
    (match splitAtX s with | none => none | some (_, b) => some b) := by
  have hx : 'x'.toNat = 0x78 := rfl
  have hX : 'X'.toNat = 0x58 := rfl
  have hsplit : ∀ k : Nat, k ∈ s → ∃ a b, s = a ++ k :: b ∧ k ∉ a ∧ s.takeWhile (· != k) = a ∧ (s.dropWhile (· != k)).drop 1 = b := by
    intro k hk
    obtain ⟨a, b, hab, hna⟩ := first_occurrence hk
    obtain ⟨h1, h2⟩ := takeWhile_append_stop (p := (· != k)) a (k :: b)
      (by intro c hc; simp; rintro rfl; exact hna hc) (by simp)
    refine ⟨a, b, hab, hna, by rw [hab, h1], by rw [hab, h2]; rfl⟩
  unfold splitAtX
  by_cases h : 0x78 ∈ s
  · obtain ⟨a, b, hab, hna, h1, h2⟩ := hsplit 0x78 h
    rw [if_pos h, h1, h2]
    simp only []
    cases a with
    | nil => rw [hab]; exact .height
    | cons c cs =>
      have : SizeParts ((c :: cs) ++ 'x'.toNat :: b) (some (c :: cs)) (some b) := .both (by simp) hna
      rw [hab]; exact this
  · rw [if_neg h]
    by_cases h' : 0x58 ∈ s
    · obtain ⟨a, b, hab, hna, h1, h2⟩ := hsplit 0x58 h'
      rw [if_pos h', h1, h2]
      simp only []
      have hb : 0x78 ∉ b := fun hh => h (by rw [hab]; simp [hh])
      have ha : 0x78 ∉ a := fun hh => h (by rw [hab]; simp [hh])
      cases a with
      | nil => rw [hab]; exact .heightUpper hb
      | cons c cs =>
        have : SizeParts ((c :: cs) ++ 'X'.toNat :: b) (some (c :: cs)) (some b) := .bothUpper (by simp) ha hb hna
        rw [hab]; exact this
    · rw [if_neg h']
      exact .width h h'

theorem append_sep_unique {k : Nat} : ∀ {a a' b b' : Str}, k ∉ a → k ∉ a' → a ++ k :: b = a' ++ k :: b' → a = a' ∧ b = b' := by
  intro a
  induction a with
  | nil =>
    intro a' b b' _ h' he
    cases a' with
    | nil => simp at he; exact ⟨rfl, he⟩
    | cons c cs => simp at he; exfalso; apply h'; simp [he.1]
  | cons c cs ih =>
    intro a' b b' h h' he
    cases a' with
    | nil => simp at he; exfalso; apply h; simp [he.1]
    | cons d ds =>
      simp at he h h'
      obtain ⟨h1, h2⟩ := ih h.2 h'.2 he.2
      exact ⟨by rw [he.1, h1], h2⟩

theorem sizeParts_unique {s : Str} {w w' h h' : Option Str} (p : SizeParts s w h) (p' : SizeParts s w' h') : w = w' ∧ h = h' := by
  have hne : 'x'.toNat ≠ 'X'.toNat := by decide
  generalize hs : s = t at p'
  cases p with
  | width n1 n2 =>
    cases p' with
    | width => subst hs; exact ⟨rfl, rfl⟩
    | height => subst hs; simp at n1
    | heightUpper => subst hs; simp at n2
    | both => subst hs; simp at n1
    | bothUpper => subst hs; simp at n2
  | height =>
    cases p' with
    | width m1 m2 => subst hs; simp at m1
    | height => simp at hs; subst hs; exact ⟨rfl, rfl⟩
    | heightUpper => simp at hs
    | both m1 m2 =>
      rename_i a b
      cases a with
      | nil => exact absurd rfl m1
      | cons c cs => simp at hs m2; exact absurd hs.1 m2.1
    | bothUpper m1 m2 =>
      rename_i a b _ _
      cases a with
      | nil => exact absurd rfl m1
      | cons c cs => simp at hs m2; exact absurd hs.1 m2.1
  | heightUpper n1 =>
    rename_i b0
    cases p' with
    | width m1 m2 => subst hs; simp at m2
    | height => simp at hs
    | heightUpper => simp at hs; subst hs; exact ⟨rfl, rfl⟩
    | both m1 m2 =>
      rename_i a b
      exfalso
      have : 'x'.toNat ∈ 'X'.toNat :: b0 := by rw [hs]; simp
      simp at this
      exact n1 this
    | bothUpper m1 m2 m3 m4 =>
      rename_i a b
      cases a with
      | nil => exact absurd rfl m1
      | cons c cs => simp at hs m4; exact absurd hs.1 m4.1
  | both n1 n2 =>
    rename_i a b
    cases p' with
    | width m1 m2 => subst hs; simp at m1
    | height =>
      cases a with
      | nil => exact absurd rfl n1
      | cons c cs => simp at hs n2; exact absurd hs.1.symm n2.1
    | heightUpper m1 =>
      rename_i b'
      exfalso
      have : 'x'.toNat ∈ 'X'.toNat :: b' := by rw [← hs]; simp
      simp at this
      exact m1 this
    | both m1 m2 =>
      obtain ⟨e1, e2⟩ := append_sep_unique n2 m2 hs
      exact ⟨by rw [e1], by rw [e2]⟩
    | bothUpper m1 m2 m3 m4 =>
      rename_i a' b'
      exfalso
      have : 'x'.toNat ∈ a' ++ 'X'.toNat :: b' := by rw [← hs]; simp
      simp only [List.mem_append, List.mem_cons] at this
      rcases this with h | h | h
      · exact m2 h
      · exact hne h
      · exact m3 h
  | bothUpper n1 n2 n3 n4 =>
    rename_i a b
    cases p' with
    | width m1 m2 => subst hs; simp at m2
    | height =>
      cases a with
      | nil => exact absurd rfl n1
      | cons c cs => simp at hs n2; exact absurd hs.1.symm n2.1
    | heightUpper =>
      cases a with
      | nil => exact absurd rfl n1
      | cons c cs => simp at hs n4; exact absurd hs.1.symm n4.1
    | both m1 m2 =>
      rename_i a' b'
      exfalso
      have : 'x'.toNat ∈ a ++ 'X'.toNat :: b := by rw [hs]; simp
      simp only [List.mem_append, List.mem_cons] at this
      rcases this with h | h | h
      · exact n2 h
      · exact hne h
      · exact n3 h
    | bothUpper m1 m2 m3 m4 =>
      obtain ⟨e1, e2⟩ := append_sep_unique n4 m4 hs
      exact ⟨by rw [e1], by rw [e2]⟩

theorem sizeIs_iff (t : Option Str) (before v : Int) : SizeIs t before v ↔
    ((t.map strtol).map (·.value)).getD before = v ∧ ((t.map strtol).map (·.range)).getD false = false := by
  cases t with
  | none => simp [SizeIs]; exact eq_comm
  | some t =>
    simp only [SizeIs, Option.map_some, Option.getD_some]
    constructor
    · rintro ⟨h1, h2⟩; exact (strtol_leading t v h2).1 h1
    · rintro h
      have hl := strtol_long t
      rw [h.1] at hl
      exact ⟨(strtol_leading t v hl).2 h, hl⟩

theorem sizeOfBox_iff (o o' : Opt) (s : Str) : sizeOfBox o s = some o' ↔
    ∃ wt ht w h, SizeParts s wt ht ∧ SizeIs wt o.reqwidth w ∧ SizeIs ht o.reqheight h ∧ 0 ≤ w ∧ 0 ≤ h ∧ ¬ (w = 0 ∧ h = 0) ∧
      o' = { o with reqwidth := w, reqheight := h } := by
  have hp := splitAtX_parts s
  have key : sizeOfBox o s =
      (let wt := match splitAtX s with | none => some s | some (a, _) => if a.isEmpty then none else some a
       let ht := match splitAtX s with | none => none | some (_, b) => some b
       if (((wt.map strtol).map (·.range)).getD false || ((ht.map strtol).map (·.range)).getD false) = true ∨
          (((wt.map strtol).map (·.value)).getD o.reqwidth = 0 ∧ ((ht.map strtol).map (·.value)).getD o.reqheight = 0) ∨
          ((wt.map strtol).map (·.value)).getD o.reqwidth < 0 ∨ ((ht.map strtol).map (·.value)).getD o.reqheight < 0 then none
       else some { o with reqwidth := ((wt.map strtol).map (·.value)).getD o.reqwidth,
                          reqheight := ((ht.map strtol).map (·.value)).getD o.reqheight }) := by
    unfold sizeOfBox
    cases h : splitAtX s with
    | none => rfl
    | some ab =>
      obtain ⟨a, b⟩ := ab
      cases a <;> rfl
  rw [key]
  generalize (match splitAtX s with | none => some s | some (a, _) => if a.isEmpty then none else some a) = wt at *
  generalize (match splitAtX s with | none => none | some (_, b) => some b) = ht at *
  simp only []
  constructor
  · intro h
    split at h
    · cases h
    · rename_i hc
      cases h
      simp only [Bool.or_eq_true, not_or] at hc
      refine ⟨wt, ht, _, _, hp, (sizeIs_iff _ _ _).2 ⟨rfl, by simpa using hc.1.1⟩, (sizeIs_iff _ _ _).2 ⟨rfl, by simpa using hc.1.2⟩,
        by omega, by omega, hc.2.1, rfl⟩
  · rintro ⟨wt', ht', w, h, hp', hw, hh, h0, h1, h2, rfl⟩
    obtain ⟨rfl, rfl⟩ := sizeParts_unique hp hp'
    obtain ⟨e1, e2⟩ := (sizeIs_iff _ _ _).1 hw
    obtain ⟨e3, e4⟩ := (sizeIs_iff _ _ _).1 hh
    rw [e1, e2, e3, e4, if_neg (by simp; omega)]

/-! ## What each option leaves alone -/

theorem alignment_frame {o o' : Opt} {s : Str} (h : alignment o s = some o') :
    ∃ x y z, o' = { o with halign := x, valign := y, justify := z } := by
  obtain ⟨_, l, _, _, rfl⟩ := (alignment_iff _ _ _).1 h
  exact ⟨_, _, _, rfl⟩

theorem padding_frame {o o' : Opt} {s : Str} (h : paddingOption o s = some o') : ∃ p, o' = { o with padding := p } := by
  obtain ⟨_, l, _, _, _, rfl⟩ := (paddingOption_iff _ _ _).1 h
  exact ⟨_, rfl⟩

theorem size_frame {o o' : Opt} {s : Str} (h : sizeOfBox o s = some o') : ∃ w x, o' = { o with reqwidth := w, reqheight := x } := by
  obtain ⟨_, _, w, x, _, _, _, _, _, _, rfl⟩ := (sizeOfBox_iff _ _ _).1 h
  exact ⟨_, _, rfl⟩

theorem tabs_frame {o o' : Opt} {s : Str} (h : tabHandling o s = some o') : ∃ w x, o' = { o with tabstop := w, tabexp := x } := by
  obtain ⟨_, _, w, x, _, _, _, _, _, _, rfl⟩ := (tabHandling_iff _ _ _).1 h
  exact ⟨_, _, rfl⟩

theorem indent_frame {o o' : Opt} {s : Str} (h : indentationMode o s = some o') : ∃ c, o' = { o with indentmode := c } := by
  unfold indentationMode at h
  simp only [] at h
  split at h
  · cases h; exact ⟨_, rfl⟩
  · split at h
    · cases h; exact ⟨_, rfl⟩
    · split at h
      · cases h; exact ⟨_, rfl⟩
      · cases h

theorem kill_frame {o o' : Opt} {s : Str} (h : killblankOption o s = some o') : ∃ k, o' = { o with killblank := k } := by
  unfold killblankOption at h
  split at h
  · split at h
    · cases h; exact ⟨_, rfl⟩
    · split at h
      · cases h; exact ⟨_, rfl⟩
      · cases h
  · cases h; exact ⟨o.killblank, rfl⟩

theorem eol_frame {a a' : Args} {s : Str} (h : eolOverride a s = some a') :
    ∃ e, a' = { a with eolOverridden := true, opt := { a.opt with eol := e } } := by
  unfold eolOverride at h
  split at h
  · cases h; exact ⟨_, rfl⟩
  · split at h
    · cases h; exact ⟨_, rfl⟩
    · split at h
      · cases h; exact ⟨_, rfl⟩
      · cases h

theorem create_frame {a a' : Args} {s : Str} (h : commandLineDesign a s = some a') :
    s ≠ [] ∧ a' = { a with cld := some s, byUser := true } := by
  unfold commandLineDesign at h
  split at h
  · cases h
  · cases h
    rename_i hs
    exact ⟨by simpa using hs, rfl⟩

theorem extraDebug_frame {a a' : Args} {s : Str} (h : extraDebug a s = some a') :
    ∃ d e, a' = { a with debug := d, areasActive := e } := by
  unfold extraDebug at h
  split at h
  · split at h
    · obtain ⟨d, _, rfl⟩ := Option.map_eq_some_iff.1 h
      exact ⟨_, _, rfl⟩
    · split at h
      · obtain ⟨d, _, rfl⟩ := Option.map_eq_some_iff.1 h
        exact ⟨_, _, rfl⟩
      · cases h
  · cases h
    exact ⟨_, _, rfl⟩

theorem extra_frame {a a' : Args} {s : Str} (h : undocumentedOptions a s = some a') :
    ∃ q d e, a' = { a with qundoc := q, debug := d, areasActive := e } := by
  unfold undocumentedOptions at h
  obtain ⟨b, hb, h⟩ := Option.bind_eq_some_iff.1 h
  have hb : ∃ q d e, b = { a with qundoc := q, debug := d, areasActive := e } := by
    split at hb
    · obtain ⟨d, e, rfl⟩ := extraDebug_frame hb
      exact ⟨_, _, _, rfl⟩
    · obtain ⟨d, e, rfl⟩ := extraDebug_frame hb
      exact ⟨_, _, _, rfl⟩
  split at h
  · cases h
  · cases h
    exact hb

/-! ## The loop over the options -/

theorem optionLoop_cons {x : Option'} {rest : List Option'} {a b : Args} (h : optionLoop (x :: rest) a = some (b, false)) :
    ∃ a', handleOption a x = some a' ∧ optionLoop rest a' = some (b, false) := by
  have key : ∀ y, optionLoop (y :: rest) a = some (b, false) → y ≠ .help → y ≠ .version → y ≠ .bad →
      (handleOption a y).bind (fun a => optionLoop rest a) = some (b, false) := by
    intro y hy h1 h2 h3
    cases y <;> first | exact absurd rfl h1 | exact absurd rfl h2 | exact absurd rfl h3 | exact hy
  have hn : x ≠ .help ∧ x ≠ .version ∧ x ≠ .bad := by
    refine ⟨?_, ?_, ?_⟩ <;> rintro rfl <;> simp [optionLoop] at h
  exact Option.bind_eq_some_iff.1 (key x h hn.1 hn.2.1 hn.2.2)

theorem optionLoop_bind {x : Option'} (rest : List Option') (a : Args) (h1 : x ≠ .help) (h2 : x ≠ .version) (h3 : x ≠ .bad) :
    optionLoop (x :: rest) a = (handleOption a x).bind (fun a => optionLoop rest a) := by
  cases x <;> first | exact absurd rfl h1 | exact absurd rfl h2 | exact absurd rfl h3 | rfl

theorem optionLoop_cons_eq {x : Option'} (rest : List Option') {a a' : Args} (h : handleOption a x = some a') :
    optionLoop (x :: rest) a = optionLoop rest a' := by
  have key : ∀ y, y ≠ .help → y ≠ .version → y ≠ .bad →
      optionLoop (y :: rest) a = (handleOption a y).bind (fun a => optionLoop rest a) := by
    intro y h1 h2 h3
    cases y <;> first | exact absurd rfl h1 | exact absurd rfl h2 | exact absurd rfl h3 | rfl
  rw [key x (by rintro rfl; cases h) (by rintro rfl; cases h) (by rintro rfl; cases h), h]
  rfl

/-- A setting that each option either sets or leaves alone has the last value that was set. -/
theorem setting_latest {β : Type} (π : Args → β) (f : Option' → Option β)
    (hstep : ∀ a x a', handleOption a x = some a' → π a' = (f x).getD (π a)) :
    ∀ (opts : List Option') (a b : Args), optionLoop opts a = some (b, false) → π b = latest f opts (π a) := by
  intro opts
  induction opts with
  | nil =>
    intro a b h
    simp only [optionLoop, Option.some.injEq, Prod.mk.injEq, and_true] at h
    rw [h]; rfl
  | cons x rest ih =>
    intro a b h
    obtain ⟨a', h1, h2⟩ := optionLoop_cons h
    rw [ih a' b h2, latest_cons, hstep a x a' h1]

/-- an invariant of the loop -/
theorem optionLoop_invariant (P : Args → Prop) (hstep : ∀ a x a', handleOption a x = some a' → P a → P a') :
    ∀ (opts : List Option') (a b : Args), optionLoop opts a = some (b, false) → P a → P b := by
  intro opts
  induction opts with
  | nil =>
    intro a b h hp
    simp only [optionLoop, Option.some.injEq, Prod.mk.injEq, and_true] at h
    rw [← h]; exact hp
  | cons x rest ih =>
    intro a b h hp
    obtain ⟨a', h1, h2⟩ := optionLoop_cons h
    exact ih a' b h2 (hstep a x a' h1 hp)

/-- everything an option can change -/
theorem handleOption_cases {a a' : Args} {x : Option'} (h : handleOption a x = some a') :
    (∃ s o, x = .align s ∧ alignment a.opt s = some o ∧ a' = { a with opt := o }) ∨
    (∃ s, x = .create s ∧ s ≠ [] ∧ a' = { a with cld := some s, byUser := true }) ∨
    (x = .color ∧ a' = { a with color := 2 }) ∨ (x = .noColor ∧ a' = { a with color := 0 }) ∨
    (∃ s, x = .design s ∧ a' = { a with design := some s, byUser := true }) ∨
    (∃ s, x = .eol s ∧ eolOverride a s = some a') ∨
    (∃ s, x = .config s ∧ a' = { a with f := some s }) ∨
    (∃ s o, x = .indent s ∧ indentationMode a.opt s = some o ∧ a' = { a with opt := o }) ∨
    (∃ s o, x = .kill s ∧ killblankOption a.opt s = some o ∧ a' = { a with opt := o }) ∨
    (x = .killBlank ∧ a' = if a.opt.killblank = -1 then { a with opt := { a.opt with killblank := 1 } } else a) ∨
    (x = .noKillBlank ∧ a' = if a.opt.killblank = -1 then { a with opt := { a.opt with killblank := 0 } } else a) ∨
    (x = .list ∧ a' = { a with l := true }) ∨
    (x = .mend ∧ a' = { a with opt := { a.opt with mend := 2, r := true, killblank := 0 } }) ∨
    (∃ s, x = .encoding s ∧ a' = { a with encoding := some s }) ∨
    (∃ s o, x = .padding s ∧ paddingOption a.opt s = some o ∧ a' = { a with opt := o }) ∨
    (∃ s q, x = .query s ∧ parseQuery s = some q ∧ a' = { a with query := some q }) ∨
    (x = .remove ∧ a' = { a with opt := { a.opt with r := true } }) ∨
    (∃ s o, x = .size s ∧ sizeOfBox a.opt s = some o ∧ a' = { a with opt := o }) ∨
    (∃ s o, x = .tabs s ∧ tabHandling a.opt s = some o ∧ a' = { a with opt := o }) ∨
    (∃ s, x = .extra s ∧ undocumentedOptions a s = some a') := by
  cases x with
  | align s =>
    obtain ⟨o, h1, rfl⟩ := Option.map_eq_some_iff.1 (show (alignment a.opt s).map (fun o => { a with opt := o }) = some a' from h)
    exact .inl ⟨s, o, rfl, h1, rfl⟩
  | create s =>
    obtain ⟨h1, h2⟩ := create_frame (show commandLineDesign a s = some a' from h)
    exact .inr (.inl ⟨s, rfl, h1, h2⟩)
  | color => cases h; simp
  | noColor => cases h; simp
  | design s => cases h; simp [designChoice]
  | eol s =>
    have h : eolOverride a s = some a' := h
    simp [h]
  | config s => cases h; simp
  | help => cases h
  | indent s =>
    obtain ⟨o, h1, rfl⟩ := Option.map_eq_some_iff.1 (show (indentationMode a.opt s).map (fun o => { a with opt := o }) = some a' from h)
    simp [h1]
  | kill s =>
    obtain ⟨o, h1, rfl⟩ := Option.map_eq_some_iff.1 (show (killblankOption a.opt s).map (fun o => { a with opt := o }) = some a' from h)
    simp [h1]
  | killBlank => cases h; simp
  | noKillBlank => cases h; simp
  | list => cases h; simp
  | mend => cases h; simp
  | encoding s => cases h; simp
  | padding s =>
    obtain ⟨o, h1, rfl⟩ := Option.map_eq_some_iff.1 (show (paddingOption a.opt s).map (fun o => { a with opt := o }) = some a' from h)
    simp [h1]
  | query s =>
    obtain ⟨o, h1, rfl⟩ := Option.map_eq_some_iff.1 (show (parseQuery s).map (fun q => { a with query := some q }) = some a' from h)
    simp [h1]
  | remove => cases h; simp
  | size s =>
    obtain ⟨o, h1, rfl⟩ := Option.map_eq_some_iff.1 (show (sizeOfBox a.opt s).map (fun o => { a with opt := o }) = some a' from h)
    simp [h1]
  | tabs s =>
    obtain ⟨o, h1, rfl⟩ := Option.map_eq_some_iff.1 (show (tabHandling a.opt s).map (fun o => { a with opt := o }) = some a' from h)
    simp [h1]
  | version => cases h
  | extra s =>
    have h : undocumentedOptions a s = some a' := h
    simp [h]
  | bad => cases h

end Boxes
