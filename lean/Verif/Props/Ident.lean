import Verif.Lemmas.Tools2

/-!
# Property C41: identifiers and tags
-/
namespace Boxes
open Spec
set_option linter.unusedSimpArgs false

private theorem isEmpty_false_iff {α} (l : List α) : (!l.isEmpty) = true ↔ ∃ x, x ∈ l := by
  cases l with
  | nil => simp
  | cons a l => exact ⟨fun _ => ⟨a, by simp⟩, fun _ => by simp⟩

private theorem isEmpty_iff' {α} (l : List α) : l.isEmpty = true ↔ ∀ x, x ∉ l := by
  cases l with
  | nil => simp
  | cons a l => exact ⟨fun h => by simp at h, fun h => absurd (List.mem_cons_self) (h a)⟩

private theorem mem_seq (a b : Re) (pre post : Str) (q : Str × Str) :
    q ∈ (Re.seq a b).run pre post ↔ ∃ x, x ∈ a.run pre post ∧ q ∈ b.run x.1 x.2 := by
  simp [Re.run]

private theorem mem_alt (a b : Re) (pre post : Str) (q : Str × Str) :
    q ∈ (Re.alt a b).run pre post ↔ q ∈ a.run pre post ∨ q ∈ b.run pre post := by
  simp [Re.run]

private theorem mem_cls (p : Nat → Bool) (pre post : Str) (q : Str × Str) :
    q ∈ (Re.cls p).run pre post ↔ ∃ c r, post = c :: r ∧ p c = true ∧ q = (c :: pre, r) := by
  cases post with
  | nil => simp [Re.run]
  | cons c r =>
    simp only [Re.run]
    constructor
    · intro h
      split at h
      · rename_i hp; exact ⟨c, r, rfl, hp, by simpa using h⟩
      · simp at h
    · rintro ⟨d, r', h, hp, rfl⟩
      simp at h
      obtain ⟨rfl, rfl⟩ := h
      rw [if_pos hp]; simp

private theorem mem_star (p : Nat → Bool) (pre post : Str) (q : Str × Str) :
    q ∈ (Re.star p).run pre post ↔ ∃ m, (∀ c ∈ m, p c = true) ∧ post = m ++ q.2 ∧ q.1 = m.reverse ++ pre := by
  simp only [Re.run]; exact mem_runStar p post pre q

/-- The common shape of both expressions: `look` is the negative look-ahead, `lead` and `cls` the character classes. -/
private theorem matches_shape (look : Re) (lead cls sep : Nat → Bool) (s : Str) :
    (Re.seq .bol (.seq (.notAhead look) (.seq (.cls lead) (.seq (.star cls) (.seq (.notBehind sep) .eol))))).matches s = true ↔
      (∀ q, q ∉ look.run [] s) ∧ ∃ c m, (s = c :: m ∨ s = c :: m ++ [chNl]) ∧ lead c = true ∧ (∀ x ∈ m, cls x = true) ∧
        (∀ a x, c :: m = a ++ [x] → sep x = false) := by
  unfold Re.matches
  rw [isEmpty_false_iff]
  constructor
  · rintro ⟨q, hq⟩
    rw [mem_seq] at hq
    obtain ⟨x1, h1, hq⟩ := hq
    simp [Re.run] at h1
    subst h1
    rw [mem_seq] at hq
    obtain ⟨x2, h2, hq⟩ := hq
    simp only [Re.run] at h2
    split at h2
    · rename_i hl
      simp at h2
      subst h2
      rw [isEmpty_iff'] at hl
      refine ⟨hl, ?_⟩
      rw [mem_seq] at hq
      obtain ⟨x3, h3, hq⟩ := hq
      rw [mem_cls] at h3
      obtain ⟨c, r, hs, hc, rfl⟩ := h3
      rw [mem_seq] at hq
      obtain ⟨x4, h4, hq⟩ := hq
      rw [mem_star] at h4
      obtain ⟨m, hm, hr, hp⟩ := h4
      rw [mem_seq] at hq
      obtain ⟨x5, h5, hq⟩ := hq
      simp only [Re.run] at h5
      have hx5 : x5 = x4 ∧ ∀ a x, c :: m = a ++ [x] → sep x = false := by
        rw [hp] at h5
        have hrev : m.reverse ++ [c] = (c :: m).reverse := by simp
        simp only at h5
        rw [hrev] at h5
        cases hcm : (c :: m).reverse with
        | nil => simp at hcm
        | cons z w =>
          rw [hcm] at h5
          simp only at h5
          split at h5
          · simp at h5
          · rename_i hz
            simp at h5
            refine ⟨?_, ?_⟩
            · rw [h5, ← hcm, ← hrev]; ext1
              · exact hp.symm
              · rfl
            · intro a x hax
              have h6 : (c :: m).reverse = x :: a.reverse := by rw [hax]; simp
              rw [hcm] at h6
              simp at h6
              rw [← h6.1]; simpa using hz
      rw [hx5.1] at hq
      simp only [Re.run] at hq
      split at hq
      · rename_i he
        refine ⟨c, m, ?_, hc, hm, hx5.2⟩
        simp at hs hr
        rw [hs, hr]
        simp at he
        rcases he with he | he
        · left; rw [he]; simp
        · right; rw [he]; simp
      · simp at hq
    · simp at h2
  · rintro ⟨hl, c, m, hs, hc, hm, hlast⟩
    obtain ⟨e, hs, he⟩ : ∃ e, s = c :: m ++ e ∧ (e = [] ∨ e = [chNl]) := by
      rcases hs with h | h
      · exact ⟨[], by simpa using h, Or.inl rfl⟩
      · exact ⟨[chNl], h, Or.inr rfl⟩
    refine ⟨((c :: m).reverse, e), ?_⟩
    rw [mem_seq]
    refine ⟨([], s), by simp [Re.run], ?_⟩
    rw [mem_seq]
    refine ⟨([], s), ?_, ?_⟩
    · simp only [Re.run]
      rw [if_pos ((isEmpty_iff' _).2 hl)]; simp
    · rw [mem_seq]
      refine ⟨([c], m ++ e), ?_, ?_⟩
      · rw [mem_cls]; exact ⟨c, m ++ e, by rw [hs]; rfl, hc, rfl⟩
      · rw [mem_seq]
        refine ⟨((c :: m).reverse, e), ?_, ?_⟩
        · rw [mem_star]; exact ⟨m, hm, rfl, by simp⟩
        · rw [mem_seq]
          refine ⟨((c :: m).reverse, e), ?_, ?_⟩
          · simp only [Re.run]
            cases hcm : (c :: m).reverse with
            | nil => simp at hcm
            | cons z w =>
              have : c :: m = w.reverse ++ [z] := by
                have := congrArg List.reverse hcm
                simpa using this
              have hz := hlast _ _ this
              simp [hz]
          · simp only [Re.run]
            rw [if_pos (by rcases he with rfl | rfl <;> simp [chNl])]
            simp

/-- no doubled separator, in the form the look-ahead checks it -/
private theorem look_iff (sep : Nat → Bool) (tail : Re) (htail : ∀ pre post, (tail.run pre post) ≠ []) (w s : Str) :
    (∀ q, q ∉ (Re.alt (.seq (.star reDot) (.seq (.cls sep) (.seq (.cls sep) tail))) (Re.word w)).run [] s) ↔
      (∀ a x y b, s = a ++ x :: y :: b → chNl ∉ a → ¬ (sep x = true ∧ sep y = true)) ∧ ¬ w <+: s := by
  constructor
  · intro h
    constructor
    · intro a x y b hs ha hxy
      obtain ⟨q, hq⟩ := List.exists_mem_of_ne_nil _ (htail (y :: x :: a.reverse) b)
      apply h q
      rw [mem_alt]
      left
      rw [mem_seq]
      refine ⟨(a.reverse, x :: y :: b), ?_, ?_⟩
      · rw [mem_star]
        refine ⟨a, ?_, hs, by simp⟩
        intro c hc
        simp only [reDot, bne_iff_ne]
        intro he
        exact ha (he ▸ hc)
      · rw [mem_seq]
        refine ⟨(x :: a.reverse, y :: b), ?_, ?_⟩
        · rw [mem_cls]; exact ⟨x, y :: b, rfl, hxy.1, rfl⟩
        · rw [mem_seq]
          refine ⟨(y :: x :: a.reverse, b), ?_, hq⟩
          rw [mem_cls]; exact ⟨y, b, rfl, hxy.2, rfl⟩
    · rintro ⟨t, ht⟩
      apply h (w.reverse, t)
      rw [mem_alt]
      right
      rw [run_word]
      exact ⟨ht.symm, by simp⟩
  · rintro ⟨h1, h2⟩ q hq
    rw [mem_alt] at hq
    rcases hq with hq | hq
    · rw [mem_seq] at hq
      obtain ⟨x1, hx1, hq⟩ := hq
      rw [mem_star] at hx1
      obtain ⟨a, ha, hs, -⟩ := hx1
      rw [mem_seq] at hq
      obtain ⟨x2, hx2, hq⟩ := hq
      rw [mem_cls] at hx2
      obtain ⟨x, r, hr, hx, rfl⟩ := hx2
      rw [mem_seq] at hq
      obtain ⟨x3, hx3, -⟩ := hq
      rw [mem_cls] at hx3
      obtain ⟨y, r', hr', hy, rfl⟩ := hx3
      simp at hr'
      refine h1 a x y r' (by rw [hs, hr, hr']) ?_ ⟨hx, hy⟩
      intro hn
      have := ha _ hn
      simp [reDot] at this
    · rw [run_word] at hq
      exact h2 ⟨q.2, hq.1.symm⟩

/-- the classes of the model are those of the specification -/
private theorem classes_strict (c : Nat) :
    (isLowerLetter c = true ↔ Letter true c) ∧ (isDash c = true ↔ Separator true c) ∧ (isDigit c = true ↔ Digit c) := by
  refine ⟨?_, ?_, ?_⟩
  · simp [isLowerLetter, Letter]
  · simp [isDash, Separator]
  · simp [isDigit, Digit]

private theorem classes_loose (c : Nat) :
    ((isLowerLetter c || isUpperLetter c) = true ↔ Letter false c) ∧ (isDashUnder c = true ↔ Separator false c) := by
  refine ⟨?_, ?_⟩
  · simp [isLowerLetter, isUpperLetter, Letter]
  · simp [isDashUnder, Separator]

/-- from the matched shape to the rule -/
private theorem identifier_of (strict : Bool) (lead cls sep : Nat → Bool) (hlead : ∀ c, lead c = true ↔ Letter strict c)
    (hsep : ∀ c, sep c = true ↔ Separator strict c)
    (hcls : ∀ c, cls c = true ↔ Letter strict c ∨ Digit c ∨ Separator strict c) (s : Str) :
    (((∀ a x y b, s = a ++ x :: y :: b → chNl ∉ a → ¬ (sep x = true ∧ sep y = true)) ∧ ¬ (lit "none") <+: s) ∧
      ∃ c m, (s = c :: m ∨ s = c :: m ++ [chNl]) ∧ lead c = true ∧ (∀ x ∈ m, cls x = true) ∧
        (∀ a x, c :: m = a ++ [x] → sep x = false)) ↔
    Identifier strict s ∨ ∃ t, s = t ++ [0x0a] ∧ Identifier strict t := by
  have hnl : ∀ c, (Letter strict c ∨ Digit c ∨ Separator strict c) → c ≠ 0x0a := by
    rintro c h rfl
    rcases h with (⟨h, -⟩ | ⟨-, h, -⟩) | ⟨h, -⟩ | h | ⟨-, h⟩ <;> revert h <;> decide
  have hsf : ∀ c, sep c = false ↔ ¬ Separator strict c := by
    intro c; rw [← hsep]; simp
  -- one direction of the correspondence for the part without the newline
  have fwd : ∀ (e : Str), (e = [] ∨ e = [0x0a]) → ∀ c m, s = c :: m ++ e →
      (∀ a x y b, s = a ++ x :: y :: b → chNl ∉ a → ¬ (sep x = true ∧ sep y = true)) → ¬ (lit "none") <+: s →
      lead c = true → (∀ x ∈ m, cls x = true) → (∀ a x, c :: m = a ++ [x] → sep x = false) →
      Identifier strict (c :: m) := by
    intro e he c m hs hd hn hc hm hl
    have hchars : ∀ x ∈ c :: m, Letter strict x ∨ Digit x ∨ Separator strict x := by
      intro x hx
      rcases List.mem_cons.1 hx with rfl | hx
      · exact Or.inl ((hlead x).1 hc)
      · exact (hcls x).1 (hm x hx)
    refine ⟨⟨c, m, rfl, (hlead c).1 hc⟩, hchars, ?_, ?_, ?_⟩
    · intro a x y b hab hxy
      refine hd a x y (b ++ e) (by rw [hs, hab]; simp) ?_ ⟨(hsep x).2 hxy.1, (hsep y).2 hxy.2⟩
      intro hmem
      exact hnl _ (hchars 0x0a (by rw [hab]; exact List.mem_append_left _ hmem)) rfl
    · intro a x hax; rw [← hsf]; exact hl a x hax
    · rintro ⟨t, ht⟩
      apply hn
      exact ⟨t ++ e, by rw [hs, ← ht]; simp [lit]⟩
  have bwd : ∀ (e t : Str), (e = [] ∨ e = [0x0a]) → s = t ++ e → Identifier strict t →
      ((∀ a x y b, s = a ++ x :: y :: b → chNl ∉ a → ¬ (sep x = true ∧ sep y = true)) ∧ ¬ (lit "none") <+: s) ∧
      ∃ c m, t = c :: m ∧ lead c = true ∧ (∀ x ∈ m, cls x = true) ∧ (∀ a x, c :: m = a ++ [x] → sep x = false) := by
    intro e t he hs hid
    obtain ⟨c, m, ht, hc⟩ := hid.starts
    refine ⟨⟨?_, ?_⟩, c, m, ht, (hlead c).2 hc, ?_, ?_⟩
    · intro a x y b hab _ hxy
      rw [hs] at hab
      rcases he with rfl | rfl
      · exact hid.no_double a x y b (by simpa using hab) ⟨(hsep x).1 hxy.1, (hsep y).1 hxy.2⟩
      · -- the newline is the last character of `b`
        rcases List.eq_nil_or_concat b with hb | ⟨b', z, hb⟩
        · subst hb
          have h1 : a ++ [x, y] = (a ++ [x]) ++ [y] := by simp
          rw [h1] at hab
          have := (List.append_inj' hab rfl).2
          simp at this
          exact hnl y (Or.inr (Or.inr ((hsep y).1 hxy.2))) this.symm
        · subst hb
          have h1 : a ++ x :: y :: (b' ++ [z]) = (a ++ x :: y :: b') ++ [z] := by simp
          rw [List.concat_eq_append, h1] at hab
          have := (List.append_inj' hab rfl).1
          exact hid.no_double a x y b' this ⟨(hsep x).1 hxy.1, (hsep y).1 hxy.2⟩
    · rintro ⟨r, hr⟩
      apply hid.not_reserved
      rcases he with rfl | rfl
      · exact ⟨r, by rw [hs, List.append_nil] at hr; exact hr⟩
      · rw [hs] at hr
        rcases List.eq_nil_or_concat r with hb | ⟨r', z, hb⟩
        · subst hb
          exfalso
          have h1 : lit "none" ++ [] = lit "non" ++ [0x65] := by decide
          rw [h1] at hr
          have := (List.append_inj' hr rfl).2
          simp at this
        · subst hb
          rw [List.concat_eq_append, ← List.append_assoc] at hr
          exact ⟨r', (List.append_inj' hr rfl).1⟩
    · intro x hx
      exact (hcls x).2 (hid.chars x (by rw [ht]; simp [hx]))
    · intro a x hax
      rw [hsf]; exact hid.no_sep_end a x (by rw [ht, hax])
  constructor
  · rintro ⟨⟨hd, hn⟩, c, m, hs | hs, hc, hm, hl⟩
    · left
      rw [hs]
      exact fwd [] (Or.inl rfl) c m (by simpa using hs) hd hn hc hm hl
    · right
      exact ⟨c :: m, hs, fwd [0x0a] (Or.inr rfl) c m hs hd hn hc hm hl⟩
  · rintro (hid | ⟨t, hs, hid⟩)
    · obtain ⟨h1, c, m, ht, h2⟩ := bwd [] s (Or.inl rfl) (by simp) hid
      exact ⟨h1, c, m, Or.inl ht, h2⟩
    · obtain ⟨h1, c, m, ht, h2⟩ := bwd [0x0a] t (Or.inr rfl) hs hid
      exact ⟨h1, c, m, Or.inr (by rw [hs, ht]), h2⟩

/-- an expression that matches the empty string everywhere -/
private theorem run_word_nil_ne (pre post : Str) : (Re.word []).run pre post ≠ [] := by
  intro h
  have : (pre, post) ∈ (Re.word []).run pre post := by rw [run_word]; simp
  rw [h] at this; simp at this

private theorem star_ne (p : Nat → Bool) (pre post : Str) : (Re.star p).run pre post ≠ [] := by
  intro h
  have : (pre, post) ∈ (Re.star p).run pre post := by rw [mem_star]; exact ⟨[], by simp⟩
  rw [h] at this; simp at this

private theorem strict_iff (s : Str) :
    reAsciiIdStrict.matches s = true ↔ Identifier true s ∨ ∃ t, s = t ++ [0x0a] ∧ Identifier true t := by
  unfold reAsciiIdStrict
  rw [matches_shape, ← identifier_of true isLowerLetter (fun c => isLowerLetter c || isDigit c || isDash c) isDash
    (fun c => (classes_strict c).1) (fun c => (classes_strict c).2.1) (fun c => by
      rw [Bool.or_eq_true, Bool.or_eq_true, (classes_strict c).1, (classes_strict c).2.1, (classes_strict c).2.2, or_assoc])]
  refine and_congr_left' ?_
  rw [← look_iff isDash (Re.word []) run_word_nil_ne]
  -- appending an empty expression changes nothing
  apply forall_congr'
  intro q
  apply not_congr
  rw [mem_alt, mem_alt]
  apply or_congr_left
  rw [mem_seq, mem_seq]
  apply exists_congr
  intro x
  apply and_congr_right
  intro _
  rw [mem_seq, mem_seq]
  apply exists_congr
  intro y
  apply and_congr_right
  intro _
  rw [mem_seq]
  constructor
  · intro h; exact ⟨q, h, by rw [run_word]; simp⟩
  · rintro ⟨z, hz, hq⟩
    rw [run_word] at hq
    simp at hq
    have : q = z := by ext1 <;> simp [hq.1, hq.2]
    rw [this]; exact hz

private theorem loose_iff (s : Str) :
    reAsciiId.matches s = true ↔ Identifier false s ∨ ∃ t, s = t ++ [0x0a] ∧ Identifier false t := by
  unfold reAsciiId
  rw [matches_shape, ← identifier_of false (fun c => isLowerLetter c || isUpperLetter c)
    (fun c => isLowerLetter c || isUpperLetter c || isDigit c || isDashUnder c) isDashUnder
    (fun c => (classes_loose c).1) (fun c => (classes_loose c).2) (fun c => by
      rw [Bool.or_eq_true, Bool.or_eq_true, (classes_loose c).1, (classes_loose c).2, (classes_strict c).2.2, or_assoc])]
  refine and_congr_left' ?_
  exact look_iff isDashUnder _ (star_ne isDashUnder) _ _

/-- C41: which strings are accepted as a tag.  (A newline behind the tag is tolerated, because `$` matches in front of it.) -/
theorem C41_tag (s : Str) :
    tagIsValid s = true ↔ Identifier true s ∨ ∃ t, s = t ++ [0x0a] ∧ Identifier true t := strict_iff s

/-- C41: which strings are accepted as a design name. -/
theorem C41_name (s : Str) (strict : Bool) :
    isAsciiId s strict = true ↔ Identifier strict s ∨ ∃ t, s = t ++ [0x0a] ∧ Identifier strict t := by
  unfold isAsciiId
  split
  · rename_i h0
    have : s = [] := List.eq_nil_of_length_eq_zero h0
    subst this
    simp only [Bool.false_eq_true, false_iff, not_or]
    refine ⟨?_, ?_⟩
    · intro h; obtain ⟨c, r, h, -⟩ := h.starts; simp at h
    · rintro ⟨t, h, -⟩; simp at h
  · cases strict with
    | true => simp only [if_true]; exact strict_iff s
    | false => simp only [Bool.false_eq_true, if_false]; exact loose_iff s

/-- C41: without a newline the rule is exact. -/
theorem C41_exact (s : Str) (hn : 0x0a ∉ s) :
    (tagIsValid s = true ↔ Identifier true s) ∧ ∀ strict, isAsciiId s strict = true ↔ Identifier strict s := by
  have : ∀ strict, (Identifier strict s ∨ ∃ t, s = t ++ [0x0a] ∧ Identifier strict t) ↔ Identifier strict s := by
    intro strict
    constructor
    · rintro (h | ⟨t, h, -⟩)
      · exact h
      · exact absurd (by rw [h]; simp) hn
    · exact Or.inl
  exact ⟨(C41_tag s).trans (this true), fun st => (C41_name s st).trans (this st)⟩

example : isAsciiId (lit "C-cmt_2") false = true ∧ tagIsValid (lit "eye-candy") = true ∧ tagIsValid (lit "a--b") = false ∧
    isAsciiId (lit "a-") false = false ∧ tagIsValid (lit "nonesuch") = false ∧ tagIsValid (lit "A") = false := by decide

/-- A tag followed by a newline is accepted. -/
theorem C41_newline_disagrees : tagIsValid (lit "tag\n") = true := by decide

end Boxes
