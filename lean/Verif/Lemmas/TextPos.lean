import Verif.Lemmas.Text

/-!
Helper lemmas: position maps of analysed text, uniqueness of tokenisation.
-/
namespace Boxes
open Spec
set_option linter.unusedSimpArgs false

theorem toks_unique {a b : List Tok} (ha : Oks a) (hb : Oks b) (h : flat a = flat b) : a = b := by
  induction a generalizing b with
  | nil =>
    cases b with
    | nil => rfl
    | cons t ts =>
      exfalso
      cases t with
      | inl c => simp at h
      | inr e => have := EscSeq.length_pos hb.hd; have h := congrArg List.length h; simp only [flat_esc, List.length_append, flat_nil, List.length_nil] at h; omega
  | cons t ts ih =>
    cases b with
    | nil =>
      exfalso
      cases t with
      | inl c => simp at h
      | inr e => have := EscSeq.length_pos ha.hd; have h := congrArg List.length h; simp only [flat_esc, List.length_append, flat_nil, List.length_nil] at h; omega
    | cons u us =>
      cases t with
      | inl c =>
        cases u with
        | inl d =>
          simp at h
          rw [h.1, ih ha.tail hb.tail h.2]
        | inr e =>
          exfalso
          obtain ⟨r, hr⟩ := EscSeq.head hb.hd
          subst hr
          simp at h
          exact ha.hd h.1
      | inr e =>
        cases u with
        | inl d =>
          exfalso
          obtain ⟨r, hr⟩ := EscSeq.head ha.hd
          subst hr
          simp at h
          exact hb.hd h.1.symm
        | inr e' =>
          have h1 := advanceNext_esc (e := e) ha.hd (flat ts)
          have h2 := advanceNext_esc (e := e') hb.hd (flat us)
          simp only [flat_esc] at h
          rw [h, h2] at h1
          simp only [Prod.mk.injEq] at h1
          have he : e = e' := List.append_inj_left h h1.2.symm
          subst he
          rw [ih ha.tail hb.tail h1.1.symm]

theorem Spec.Text.unique {s v w : Str} (h : Text s v) (h' : Text s w) : v = w := by
  obtain ⟨a, ha, ha1, ha2⟩ := h.toks
  obtain ⟨b, hb, hb1, hb2⟩ := h'.toks
  have := toks_unique ha hb (by rw [ha1, hb1])
  rw [← ha2, ← hb2, this]

theorem visPos_length (off : Nat) (ts : List Tok) : (visPos off ts).length = (visOf ts).length := by
  induction ts generalizing off with
  | nil => rfl
  | cons t ts ih => cases t <;> simp [visPos, ih]

theorem firstPos_length (off : Nat) (cand : Option Nat) (ts : List Tok) :
    (firstPos off cand ts).length = (visOf ts).length := by
  induction ts generalizing off cand with
  | nil => rfl
  | cons t ts ih => cases t <;> simp [firstPos, ih]

theorem visPos_split (ts : List Tok) (off i : Nat) (hi : i < (visOf ts).length) :
    ∃ t1 c t2, ts = t1 ++ .inl c :: t2 ∧ (visOf t1).length = i ∧
      (visPos off ts)[i]? = some (off + (flat t1).length) := by
  induction ts generalizing off i with
  | nil => simp at hi
  | cons t ts ih =>
    cases t with
    | inl c =>
      cases i with
      | zero => exact ⟨[], c, ts, rfl, rfl, by simp [visPos]⟩
      | succ i =>
        obtain ⟨t1, d, t2, h1, h2, h3⟩ := ih (off + 1) i (by simpa using hi)
        exact ⟨.inl c :: t1, d, t2, by simp [h1], by simp [h2], by simp [visPos, h3]; omega⟩
    | inr e =>
      obtain ⟨t1, d, t2, h1, h2, h3⟩ := ih (off + e.length) i (by simpa using hi)
      exact ⟨.inr e :: t1, d, t2, by simp [h1], by simp [h2], by simp [visPos, h3]; omega⟩

/-- The last token of the list is an escape sequence that is not a reset, at `some` position. -/
def endsNonReset : List Tok → Prop
  | ts => ∃ t1 e, ts = t1 ++ [.inr e] ∧ isReset e = false

/-- How the `i`-th entry of the first-character map arises. `ci` is the candidate on entry. -/
theorem firstPos_split (ts : List Tok) (off i : Nat) (cand : Option Nat) (hi : i < (visOf ts).length) :
    (∃ k c t2, cand = some k ∧ i = 0 ∧ ts = .inl c :: t2 ∧ (firstPos off cand ts)[i]? = some k) ∨
    (∃ t1 c t2, ts = t1 ++ .inl c :: t2 ∧ (visOf t1).length = i ∧ ¬ endsNonReset t1 ∧ (t1 = [] → cand = none) ∧
      (firstPos off cand ts)[i]? = some (off + (flat t1).length)) ∨
    (∃ t1 e c t2, ts = t1 ++ .inr e :: .inl c :: t2 ∧ (visOf t1).length = i ∧ isReset e = false ∧
      (firstPos off cand ts)[i]? = some (off + (flat t1).length)) := by
  induction ts generalizing off i cand with
  | nil => simp at hi
  | cons t ts ih =>
    cases t with
    | inl c =>
      cases i with
      | zero =>
        cases cand with
        | none =>
          refine Or.inr (Or.inl ⟨[], c, ts, rfl, rfl, ?_, fun _ => rfl, by simp [firstPos]⟩)
          rintro ⟨t1, e, h, -⟩
          have := congrArg List.length h; simp at this
        | some k => exact Or.inl ⟨k, c, ts, rfl, rfl, rfl, by simp [firstPos]⟩
      | succ i =>
        rcases ih (off + 1) i none (by simpa using hi) with h | h | h
        · obtain ⟨k, d, t2, h1, _⟩ := h; simp at h1
        · obtain ⟨t1, d, t2, h1, h2, h3, _, h4⟩ := h
          refine Or.inr (Or.inl ⟨.inl c :: t1, d, t2, by simp [h1], by simp [h2], ?_, by simp,
            by simp [firstPos, h4]; omega⟩)
          rintro ⟨u, e, hu, he⟩
          apply h3
          cases u with
          | nil => simp at hu
          | cons x u => simp at hu; exact ⟨u, e, hu.2, he⟩
        · obtain ⟨t1, e, d, t2, h1, h2, h3, h4⟩ := h
          exact Or.inr (Or.inr ⟨.inl c :: t1, e, d, t2, by simp [h1], by simp [h2], h3,
            by simp [firstPos, h4]; omega⟩)
    | inr e =>
      rcases ih (off + e.length) i (if isReset e then none else some off) (by simpa using hi) with h | h | h
      · obtain ⟨k, d, t2, h1, h2, h3, h4⟩ := h
        by_cases hr : isReset e = true
        · simp [hr] at h1
        · simp only [hr, Bool.false_eq_true, if_false, Option.some.injEq] at h1
          refine Or.inr (Or.inr ⟨[], e, d, t2, by simp [h3], by simp [h2], by simpa using hr, ?_⟩)
          simp only [flat_nil, List.length_nil, Nat.add_zero]
          rw [firstPos, h4, h1]
      · obtain ⟨t1, d, t2, h1, h2, h3, h3', h4⟩ := h
        refine Or.inr (Or.inl ⟨.inr e :: t1, d, t2, by simp [h1], by simp [h2], ?_, by simp,
          by simp [firstPos, h4]; omega⟩)
        rintro ⟨u, e', hu, he⟩
        cases u with
        | nil =>
          simp at hu
          have := h3' hu.2
          rw [← hu.1] at he
          simp [he] at this
        | cons x u => simp at hu; exact h3 ⟨u, e', hu.2, he⟩
      · obtain ⟨t1, e', d, t2, h1, h2, h3, h4⟩ := h
        exact Or.inr (Or.inr ⟨.inr e :: t1, e', d, t2, by simp [h1], by simp [h2], h3,
          by simp [firstPos, h4]; omega⟩)

/-- A cut at an entry of the first-character map separates the tokens. -/
theorem firstChar_cut (db : CharDb) (ts : List Tok) (i : Nat) (hi : i ≤ (visOf ts).length) :
    ∃ t1 t2, ts = t1 ++ t2 ∧ (visOf t1).length = i ∧ (bxsOf db ts).firstChar[i]? = some (flat t1).length := by
  by_cases hlt : i < (visOf ts).length
  · have hf : (bxsOf db ts).firstChar[i]? = (firstPos 0 none ts)[i]? := by
      simp only [bxsOf]
      rw [List.getElem?_append_left (by rw [firstPos_length]; exact hlt)]
    rw [hf]
    rcases firstPos_split ts 0 i none hlt with h | h | h
    · obtain ⟨k, d, t2, h1, _⟩ := h; simp at h1
    · obtain ⟨t1, c, t2, h1, h2, _, _, h4⟩ := h
      exact ⟨t1, _, h1, h2, by simpa using h4⟩
    · obtain ⟨t1, e, c, t2, h1, h2, _, h4⟩ := h
      exact ⟨t1, _, h1, h2, by simpa using h4⟩
  · have : i = (visOf ts).length := by omega
    refine ⟨ts, [], by simp, this.symm, ?_⟩
    simp only [bxsOf]
    rw [List.getElem?_append_right (by rw [firstPos_length]; omega), firstPos_length]
    simp [this]

theorem visChar_at (db : CharDb) (ts : List Tok) (i : Nat) (hi : i < (visOf ts).length) :
    ∃ t1 t2, ts = t1 ++ .inl (visOf ts)[i] :: t2 ∧ (visOf t1).length = i ∧
      (bxsOf db ts).visChar[i]? = some (flat t1).length := by
  obtain ⟨t1, c, t2, h1, h2, h3⟩ := visPos_split ts 0 i hi
  have hc : (visOf ts)[i] = c := by
    subst h1
    simp [← h2]
  refine ⟨t1, t2, by rw [hc]; exact h1, h2, ?_⟩
  simp only [bxsOf]
  rw [List.getElem?_append_left (by rw [visPos_length]; exact hi), h3]
  simp

theorem memory_at_visChar (db : CharDb) (ts : List Tok) (i : Nat) (hi : i < (visOf ts).length) :
    ((bxsOf db ts).visChar[i]?).bind ((bxsOf db ts).memory[·]?) = some (visOf ts)[i] := by
  obtain ⟨t1, t2, h1, h2, h3⟩ := visChar_at db ts i hi
  rw [h3]
  have : (bxsOf db ts).memory = flat t1 ++ (visOf ts)[i] :: flat t2 := by
    show flat ts = _
    conv => lhs; rw [h1]
    simp
  simp [this]

/-- Summary: the analysis of a text. -/
theorem fromUnicode_text (db : CharDb) {s v : Str} (h : Text s v) :
    ∃ ts, Oks ts ∧ flat ts = s ∧ visOf ts = v ∧
      fromUnicode db s = if v.all (isAllowedAnywhere db) then some (bxsOf db ts) else none := by
  obtain ⟨ts, h1, h2, h3⟩ := h.toks
  refine ⟨ts, h1, h2, h3, ?_⟩
  rw [← h2, fromUnicode_toks db ts h1, h3]

theorem fromUnicode_text_some (db : CharDb) {s v : Str} {b : Bxs} (h : Text s v) (hb : fromUnicode db s = some b) :
    ∃ ts, Oks ts ∧ flat ts = s ∧ visOf ts = v ∧ v.all (isAllowedAnywhere db) = true ∧ b = bxsOf db ts := by
  obtain ⟨ts, h1, h2, h3, h4⟩ := fromUnicode_text db h
  rw [hb] at h4
  split at h4
  · exact ⟨ts, h1, h2, h3, by assumption, by simpa using h4⟩
  · simp at h4

end Boxes
