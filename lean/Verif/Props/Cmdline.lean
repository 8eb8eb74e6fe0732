import Verif.Lemmas.Cmdline2

/-!
# C35-C38, C57-C59: the command line
-/
namespace Boxes
open Spec

set_option linter.unusedSimpArgs false

/-! ## C35: padding -/

/-- C35: The padding option is accepted exactly if it is a non-empty sequence of area letters, in either case, where each letter is
followed by a number; the number may only be missing in front of another letter.  Every side then has the size of the last area
that covers it, and the sides that no area covers keep theirs.  Nothing else is changed. -/
theorem C35_padding (o o' : Opt) (s : Str) : paddingOption o s = some o' ↔
    ∃ l : List Area, l ≠ [] ∧ s = areasText l ∧ (∀ a ∈ l, a.Tolerated) ∧ (∀ a ∈ l.getLast?, a.text ≠ []) ∧
      o' = { o with padding := ⟨latest (Area.on .top) l o.padding.top, latest (Area.on .right) l o.padding.right,
        latest (Area.on .bottom) l o.padding.bottom, latest (Area.on .left) l o.padding.left⟩ } := by
  rw [paddingOption_iff]
  constructor
  · rintro ⟨hs, l, h1, h2, h3, h4⟩
    refine ⟨l, ?_, h1, h2, h3, h4⟩
    rintro rfl
    exact hs h1
  · rintro ⟨l, hl, h1, h2, h3, h4⟩
    refine ⟨?_, l, h1, h2, h3, h4⟩
    rintro rfl
    cases l with
    | nil => exact hl rfl
    | cons a l => rw [areasText_cons] at h1; cases h1

/-- C35: Everything that is documented is accepted, and means what is documented. -/
theorem C35_documented (o : Opt) (l : List Area) (hl : l ≠ []) (hd : ∀ a ∈ l, a.Documented) :
    paddingOption o (areasText l) =
      some { o with padding := ⟨latest (Area.on .top) l o.padding.top, latest (Area.on .right) l o.padding.right,
        latest (Area.on .bottom) l o.padding.bottom, latest (Area.on .left) l o.padding.left⟩ } := by
  refine (C35_padding _ _ _).2 ⟨l, hl, rfl, ?_, ?_, rfl⟩
  · intro a ha
    obtain ⟨h1, h2, h3, h4, h5⟩ := hd a ha
    refine ⟨h1, .inr ⟨a.size, ⟨[], [], a.text, by simp, by simp, h2, h3, .inl ⟨rfl, h4⟩⟩, ?_, ?_, ?_⟩⟩
    · unfold Long; omega
    · unfold Wraps; exact ⟨by omega, h5, by simp⟩
    · omega
  · intro a ha
    exact (hd a (List.mem_of_getLast? ha)).2.1

example : (paddingOption {} (lit "a4t2")).map (·.padding) = some ⟨2, 4, 4, 4⟩ := by decide
example : ∀ a ∈ [(⟨0x61, lit "4", 4⟩ : Area), ⟨0x74, lit "2", 2⟩], a.Documented := by
  intro a ha
  simp at ha
  rcases ha with rfl | rfl
  · exact ⟨⟨.top, by decide⟩, by decide, by unfold Digit; decide, by decide, by decide⟩
  · exact ⟨⟨.top, by decide⟩, by decide, by unfold Digit; decide, by decide, by decide⟩
example : (paddingOption {} (lit "a4x2")).isNone = true ∧ (paddingOption {} (lit "t")).isNone = true ∧
    (paddingOption {} (lit "t-1")).isNone = true ∧ (paddingOption {} []).isNone = true := by decide

/-- The documentation says that each letter is followed by a number.  The code also accepts letters without a number, white space in
front of the number, and numbers an `int` cannot hold; the latter give a different padding. -/
theorem C35_padding_disagrees :
    (paddingOption {} (lit "lt5")).map (·.padding) = some ⟨5, -1, -1, 0⟩ ∧
    (paddingOption {} (lit "l 5")).map (·.padding) = some ⟨-1, -1, -1, 5⟩ ∧
    (paddingOption {} (lit "t4294967297")).map (·.padding) = some ⟨1, -1, -1, -1⟩ := by decide

/-! ## C36: alignment -/

/-- C36: The alignment option is accepted exactly if it is a non-empty sequence of the documented parts; of several parts about the
same alignment the last one counts; what no part is about, is not changed. -/
theorem C36_alignment (o o' : Opt) (s : Str) : alignment o s = some o' ↔
    ∃ l : List (Str × Placing), l ≠ [] ∧ s = (l.map (fun e => e.1)).flatten ∧ (∀ e ∈ l, Spells e.1 e.2) ∧
      o' = { o with
        halign := latest (fun e : Str × Placing => e.2.halign) l o.halign
        valign := latest (fun e : Str × Placing => e.2.valign) l o.valign
        justify := latest (fun e : Str × Placing => e.2.just) l o.justify } := by
  rw [alignment_iff]
  constructor
  · rintro ⟨hs, l, h1, h2, h3⟩
    refine ⟨l, ?_, h1, h2, h3⟩
    rintro rfl
    exact hs h1
  · rintro ⟨l, hl, h1, h2, h3⟩
    refine ⟨?_, l, h1, h2, h3⟩
    rintro rfl
    cases l with
    | nil => exact hl rfl
    | cons a l =>
      have := spells_length (h2 a (by simp))
      have h1 := congrArg List.length h1
      simp at h1
      omega

example : (alignment {} (lit "hRvTjc")).map (fun o => (o.halign, o.valign, o.justify)) = some ('r', 't', 'c') := by decide
example : (alignment {} (lit "lvb")).map (fun o => (o.halign, o.valign, o.justify)) = some ('l', 'b', 'l') := by decide
example : (alignment {} (lit "hb")).isNone = true ∧ (alignment {} (lit "v")).isNone = true ∧ (alignment {} []).isNone = true := by decide

/-! ## C37: numbers -/

/-- C37: The tab option is accepted exactly if it begins with a number that, as an `int`, is from 1 to 16, and nothing or one of the
letters e, k, u follows.  Then the tab distance is that number and the way to treat tabs is that of the letter, without letter it is
the one from before.  Nothing else is changed. -/
theorem C37_tabs (o o' : Opt) (s : Str) : tabHandling o s = some o' ↔
    ∃ v rest w x, Begins s v rest ∧ Long v ∧ Wraps v w ∧ 1 ≤ w ∧ w ≤ 16 ∧ TabMode rest o.tabexp x ∧
      o' = { o with tabstop := w.toNat, tabexp := x } := tabHandling_iff o o' s

/-- C37: for digits that make a number an `int` can hold: it must be from 1 to 16, and is the tab distance -/
theorem C37_tabs_documented (o o' : Opt) (ds rest : Str) (hne : ds ≠ []) (hd : ∀ c ∈ ds, Digit c) (hr : ∀ c ∈ rest.head?, ¬ Digit c)
    (hsmall : number ds < 2 ^ 31) : tabHandling o (ds ++ rest) = some o' ↔
      1 ≤ number ds ∧ number ds ≤ 16 ∧ ∃ x, TabMode rest o.tabexp x ∧ o' = { o with tabstop := number ds, tabexp := x } := by
  have hb : Begins (ds ++ rest) (number ds) rest := ⟨ds, rfl, ⟨[], [], ds, by simp, by simp, hne, hd, .inl ⟨rfl, rfl⟩⟩, hr⟩
  have hl : Long (number ds) := by unfold Long; omega
  have hw : Wraps (number ds) (number ds) := by unfold Wraps; exact ⟨by omega, by omega, by simp⟩
  rw [C37_tabs]
  constructor
  · rintro ⟨v, r, w, x, hb', hl', hw', h1, h2, h3, h4⟩
    obtain ⟨rfl, hv⟩ := begins_unique hb hb'
    have hv := hv hl
    subst hv
    have e1 := wraps_unique hw
    have e2 := wraps_unique hw'
    have e : w = number ds := by omega
    subst e
    exact ⟨by omega, by omega, x, h3, by simpa using h4⟩
  · rintro ⟨h1, h2, x, h3, h4⟩
    exact ⟨_, rest, _, x, hb, hl, hw, by omega, by omega, h3, by simpa using h4⟩

example : (tabHandling {} (lit "4u")).map (fun o => (o.tabstop, o.tabexp)) = some (4, 'u') ∧
    (tabHandling {} (lit "0")).isNone = true ∧ (tabHandling {} (lit "17")).isNone = true ∧
    (tabHandling {} (lit "8x")).isNone = true ∧ (tabHandling {} (lit "8ee")).isNone = true := by decide

/-- A number that an `int` cannot hold may be accepted as another one. -/
theorem C37_tabs_disagrees : (tabHandling {} (lit "4294967304")).map (·.tabstop) = some 8 := by decide

/-- C37: The size option is accepted exactly if the numbers at the beginning of its parts (zero, if there are none) are not negative,
can be held by a `long`, and are not both zero.  A part that is not there leaves the size from before.  Nothing else is changed. -/
theorem C37_size (o o' : Opt) (s : Str) : sizeOfBox o s = some o' ↔
    ∃ wt ht w h, SizeParts s wt ht ∧ SizeIs wt o.reqwidth w ∧ SizeIs ht o.reqheight h ∧ 0 ≤ w ∧ 0 ≤ h ∧ ¬ (w = 0 ∧ h = 0) ∧
      o' = { o with reqwidth := w, reqheight := h } := sizeOfBox_iff o o' s

theorem leading_digits {ds : Str} (hne : ds ≠ []) (hd : ∀ c ∈ ds, Digit c) : Leading ds (number ds) :=
  .inl ⟨[], ds, by simp, ⟨[], [], ds, by simp, by simp, hne, hd, .inl ⟨rfl, rfl⟩⟩, by simp⟩

theorem digits_no_x {ds : Str} (hd : ∀ c ∈ ds, Digit c) : 'x'.toNat ∉ ds ∧ 'X'.toNat ∉ ds := by
  constructor
  · intro h; have := hd _ h; revert this; unfold Digit; decide
  · intro h; have := hd _ h; revert this; unfold Digit; decide

/-- C37: the documented forms of the size option: width `x` height, width, `x` height -/
theorem C37_size_documented (o : Opt) (w h : Str) (hw : w ≠ []) (hh : h ≠ []) (dw : ∀ c ∈ w, Digit c) (dh : ∀ c ∈ h, Digit c)
    (lw : 0 < number w ∧ number w < 2 ^ 63) (lh : 0 < number h ∧ number h < 2 ^ 63) (h0 : 0 ≤ o.reqwidth ∧ 0 ≤ o.reqheight) :
    sizeOfBox o (w ++ 'x'.toNat :: h) = some { o with reqwidth := number w, reqheight := number h } ∧
    sizeOfBox o w = some { o with reqwidth := number w } ∧
    sizeOfBox o ('x'.toNat :: h) = some { o with reqheight := number h } := by
  have hlw : Long (number w) := by unfold Long; omega
  have hlh : Long (number h) := by unfold Long; omega
  refine ⟨(C37_size _ _ _).2 ?_, (C37_size _ _ _).2 ?_, (C37_size _ _ _).2 ?_⟩
  · exact ⟨some w, some h, number w, number h, .both hw (digits_no_x dw).1, ⟨leading_digits hw dw, hlw⟩, ⟨leading_digits hh dh, hlh⟩,
      by omega, by omega, by omega, rfl⟩
  · exact ⟨some w, none, number w, o.reqheight, .width (digits_no_x dw).1 (digits_no_x dw).2, ⟨leading_digits hw dw, hlw⟩, rfl,
      by omega, by omega, by omega, rfl⟩
  · exact ⟨none, some h, o.reqwidth, number h, .height, rfl, ⟨leading_digits hh dh, hlh⟩,
      by omega, by omega, by omega, rfl⟩

example : (sizeOfBox {} (lit "12x5")).map (fun o => (o.reqwidth, o.reqheight)) = some (12, 5) ∧
    (sizeOfBox {} (lit "x5")).map (fun o => (o.reqwidth, o.reqheight)) = some (0, 5) ∧
    (sizeOfBox {} (lit "0x0")).isNone = true ∧ (sizeOfBox {} (lit "-1x4")).isNone = true ∧
    (sizeOfBox {} (lit "9223372036854775808")).isNone = true := by decide

/-- Text after the numbers is ignored. -/
theorem C37_size_disagrees : (sizeOfBox {} (lit "10 by 20")).map (fun o => (o.reqwidth, o.reqheight)) = some (10, 0) := by decide

/-! ## C57: words -/

/-- C57: Exactly the words CR, LF and CRLF, in any case, are accepted as line breaks, and stand for what they say. -/
theorem C57_eol (a a' : Args) (s : Str) : eolOverride a s = some a' ↔
    ∃ e, LineBreak s e ∧ a' = { a with eolOverridden := true, opt := { a.opt with eol := e } } := by
  have h1 : strCaseEq s (lit "CRLF") = true ↔ Word "crlf" s := by
    rw [sameName_iff]; unfold SameName Word
    rw [show (lit "CRLF").map lower = "crlf".toList.map Char.toNat by decide]
  have h2 : strCaseEq s (lit "LF") = true ↔ Word "lf" s := by
    rw [sameName_iff]; unfold SameName Word
    rw [show (lit "LF").map lower = "lf".toList.map Char.toNat by decide]
  have h3 : strCaseEq s (lit "CR") = true ↔ Word "cr" s := by
    rw [sameName_iff]; unfold SameName Word
    rw [show (lit "CR").map lower = "cr".toList.map Char.toNat by decide]
  have d12 : Word "crlf" s → ¬ Word "lf" s := by unfold Word; intro e; rw [e]; decide
  have d13 : Word "crlf" s → ¬ Word "cr" s := by unfold Word; intro e; rw [e]; decide
  have d23 : Word "lf" s → ¬ Word "cr" s := by unfold Word; intro e; rw [e]; decide
  unfold eolOverride
  constructor
  · intro h
    split at h
    · cases h; exact ⟨_, .crlf (h1.1 ‹_›), rfl⟩
    · split at h
      · cases h; exact ⟨_, .lf (h2.1 ‹_›), rfl⟩
      · split at h
        · cases h; exact ⟨_, .cr (h3.1 ‹_›), rfl⟩
        · cases h
  · rintro ⟨e, hb, rfl⟩
    cases hb with
    | crlf hw => rw [if_pos (h1.2 hw)]; rfl
    | lf hw => rw [if_neg (fun h => d12 (h1.1 h) hw), if_pos (h2.2 hw)]; rfl
    | cr hw => rw [if_neg (fun h => d13 (h1.1 h) hw), if_neg (fun h => d23 (h2.1 h) hw), if_pos (h3.2 hw)]; rfl

example : (eolOverride {} (lit "CrLf")).map (·.opt.eol) = some [13, 10] ∧ (eolOverride {} (lit "LFCR")).isNone = true := by decide

theorem strnEq_len_prefix (b : Str) : ∀ a : Str, strnEq b.length a b = true ↔ b <+: a := by
  induction b with
  | nil => intro a; simp [strnEq]
  | cons x xs ih =>
    intro a
    cases a with
    | nil => simp [strnEq]
    | cons y ys =>
      simp only [List.length_cons, strnEq, Bool.and_eq_true, beq_iff_eq, ih, List.cons_prefix_cons]
      constructor
      · rintro ⟨rfl, h⟩; exact ⟨rfl, h⟩
      · rintro ⟨rfl, h⟩; exact ⟨rfl, h⟩

theorem shortFor_iff (w : String) (s : Str) (hw : (lit w).map toLower = w.toList.map Char.toNat) :
    (s.length ≤ w.toList.length ∧ strnCaseEq s.length (lit w) s = true) ↔ ShortFor w s := by
  have hl : (lower : Nat → Nat) = toLower := funext lower_eq
  unfold strnCaseEq ShortFor
  have := strnEq_len_prefix (s.map toLower) ((lit w).map toLower)
  rw [List.length_map] at this
  rw [this, hw, hl]
  constructor
  · exact fun h => h.2
  · intro h
    refine ⟨?_, h⟩
    have := h.length_le
    simpa using this

/-- C57: As indentation mode exactly the abbreviations of box, text and none are accepted, in any case.  (The empty word is an
abbreviation of box.) -/
theorem C57_indent (o o' : Opt) (s : Str) : indentationMode o s = some o' ↔ ∃ c, IndentWord s c ∧ o' = { o with indentmode := c } := by
  have h1 : (s.length ≤ 3 ∧ strnCaseEq s.length (lit "box") s = true) ↔ ShortFor "box" s := shortFor_iff "box" s (by decide)
  have h2 : (s.length ≤ 4 ∧ strnCaseEq s.length (lit "text") s = true) ↔ ShortFor "text" s := shortFor_iff "text" s (by decide)
  have h3 : (s.length ≤ 4 ∧ strnCaseEq s.length (lit "none") s = true) ↔ ShortFor "none" s := shortFor_iff "none" s (by decide)
  have hd : ∀ c s', s = c :: s' → (ShortFor "box" s → lower c = 0x62) ∧ (ShortFor "text" s → lower c = 0x74) ∧
      (ShortFor "none" s → lower c = 0x6e) := by
    rintro c s' rfl
    refine ⟨?_, ?_, ?_⟩ <;> intro h <;> unfold ShortFor at h <;> simp [List.cons_prefix_cons] at h <;> exact h.1
  have hdis : s ≠ [] → (ShortFor "box" s → ¬ ShortFor "text" s ∧ ¬ ShortFor "none" s) ∧ (ShortFor "text" s → ¬ ShortFor "none" s) := by
    intro hs
    cases hc : s with
    | nil => exact absurd hc hs
    | cons c s' =>
      obtain ⟨d1, d2, d3⟩ := hd c s' hc
      rw [← hc]
      refine ⟨fun hb => ⟨fun ht => ?_, fun hn => ?_⟩, fun ht hn => ?_⟩
      · have := d1 hb; have := d2 ht; omega
      · have := d1 hb; have := d3 hn; omega
      · have := d2 ht; have := d3 hn; omega
  have hempty : ¬ ShortFor "box" s → s ≠ [] := by
    rintro h rfl
    apply h
    unfold ShortFor
    simp
  unfold indentationMode
  simp only []
  constructor
  · intro h
    split at h
    · rename_i hc
      cases h; exact ⟨_, .box (h1.1 hc), rfl⟩
    · rename_i hc1
      split at h
      · rename_i hc
        cases h; exact ⟨_, .text (hempty (fun hh => hc1 (h1.2 hh))) (h2.1 hc), rfl⟩
      · split at h
        · rename_i hc
          cases h; exact ⟨_, .none (hempty (fun hh => hc1 (h1.2 hh))) (h3.1 hc), rfl⟩
        · cases h
  · rintro ⟨c, hc, rfl⟩
    cases hc with
    | box h => rw [if_pos (h1.2 h)]
    | text hne h =>
      have := hdis hne
      rw [if_neg (fun hh => (this.1 (h1.1 hh)).1 h), if_pos (h2.2 h)]
    | none hne h =>
      have := hdis hne
      rw [if_neg (fun hh => (this.1 (h1.1 hh)).2 h), if_neg (fun hh => this.2 (h2.1 hh) h), if_pos (h3.2 h)]

example : (indentationMode {} (lit "Te")).map (·.indentmode) = some 't' ∧ (indentationMode {} (lit "boxes")).isNone = true ∧
    (indentationMode {} (lit "ex")).isNone = true := by decide

/-! ## C38: options about blank lines -/

/-- what an option says about killing blank lines, if it says anything -/
def saysAboutBlankLines : Option' → Option Int
  | .kill s => if Yes s then some 1 else if No s then some 0 else none
  | .killBlank => some 1
  | .noKillBlank => some 0
  | _ => none

/-- C38: The first option that says something about blank lines decides, unless a box is to be mended; then blank lines are kept.
Without any such option nothing is decided. -/
theorem C38_first (opts : List Option') (a : Args) (h : optionLoop opts createNewOpt = some (a, false)) :
    a.opt.killblank = if .mend ∈ opts then 0 else ((opts.filterMap saysAboutBlankLines).head?).getD (-1) := by
  have hset : ∀ (opts : List Option') (a b : Args), optionLoop opts a = some (b, false) →
      b.opt.killblank = if .mend ∈ opts then 0 else if a.opt.killblank = -1 then ((opts.filterMap saysAboutBlankLines).head?).getD (-1)
        else a.opt.killblank := by
    intro opts
    induction opts with
    | nil =>
      intro a b h
      simp only [optionLoop, Option.some.injEq, Prod.mk.injEq, and_true] at h
      subst h
      simp
    | cons x rest ih =>
      intro a b h
      obtain ⟨a', h1, h2⟩ := optionLoop_cons h
      rw [ih a' b h2]
      have step : (x = .mend ∧ a'.opt.killblank = 0) ∨ (x ≠ .mend ∧ a.opt.killblank = -1 ∧
          a'.opt.killblank = (saysAboutBlankLines x).getD (-1)) ∨
          (x ≠ .mend ∧ a.opt.killblank ≠ -1 ∧ a'.opt.killblank = a.opt.killblank) := by
        by_cases hm : x = .mend
        · left
          subst hm
          cases h1
          exact ⟨rfl, rfl⟩
        · right
          have same : a'.opt.killblank = a.opt.killblank → (saysAboutBlankLines x = none ∨ a.opt.killblank ≠ -1) →
              (x ≠ .mend ∧ a.opt.killblank = -1 ∧ a'.opt.killblank = (saysAboutBlankLines x).getD (-1)) ∨
              (x ≠ .mend ∧ a.opt.killblank ≠ -1 ∧ a'.opt.killblank = a.opt.killblank) := by
            intro e hs
            by_cases hk : a.opt.killblank = -1
            · rcases hs with hs | hs
              · exact .inl ⟨hm, hk, by rw [hs, e, hk]; rfl⟩
              · exact absurd hk hs
            · exact .inr ⟨hm, hk, e⟩
          rcases handleOption_cases h1 with ⟨s, o, rfl, ho, rfl⟩ | ⟨s, rfl, _, rfl⟩ | ⟨rfl, rfl⟩ | ⟨rfl, rfl⟩ | ⟨s, rfl, rfl⟩ |
            ⟨s, rfl, ho⟩ | ⟨s, rfl, rfl⟩ | ⟨s, o, rfl, ho, rfl⟩ | ⟨s, o, rfl, ho, rfl⟩ | ⟨rfl, rfl⟩ | ⟨rfl, rfl⟩ | ⟨rfl, rfl⟩ | ⟨rfl, rfl⟩ |
            ⟨s, rfl, rfl⟩ | ⟨s, o, rfl, ho, rfl⟩ | ⟨s, q, rfl, _, rfl⟩ | ⟨rfl, rfl⟩ | ⟨s, o, rfl, ho, rfl⟩ | ⟨s, o, rfl, ho, rfl⟩ | ⟨s, rfl, ho⟩
          · obtain ⟨_, _, _, rfl⟩ := alignment_frame ho; exact same rfl (.inl rfl)
          · exact same rfl (.inl rfl)
          · exact same rfl (.inl rfl)
          · exact same rfl (.inl rfl)
          · exact same rfl (.inl rfl)
          · obtain ⟨_, rfl⟩ := eol_frame ho; exact same rfl (.inl rfl)
          · exact same rfl (.inl rfl)
          · obtain ⟨_, rfl⟩ := indent_frame ho; exact same rfl (.inl rfl)
          · unfold killblankOption at ho
            by_cases hk : a.opt.killblank = -1
            · rw [if_pos hk] at ho
              left
              refine ⟨hm, hk, ?_⟩
              unfold saysAboutBlankLines
              by_cases hy : Yes s
              · rw [if_pos ((C38_yes s).2 hy)] at ho
                cases ho
                simp only [if_pos hy]; rfl
              · rw [if_neg (fun hh => hy ((C38_yes s).1 hh))] at ho
                by_cases hn : No s
                · rw [if_pos ((C38_no s).2 hn)] at ho
                  cases ho
                  simp only [if_neg hy, if_pos hn]; rfl
                · rw [if_neg (fun hh => hn ((C38_no s).1 hh))] at ho
                  cases ho
            · rw [if_neg hk] at ho
              cases ho
              exact same rfl (.inr hk)
          · by_cases hk : a.opt.killblank = -1
            · rw [if_pos hk]; exact .inl ⟨hm, hk, rfl⟩
            · rw [if_neg hk]; exact .inr ⟨hm, hk, rfl⟩
          · by_cases hk : a.opt.killblank = -1
            · rw [if_pos hk]; exact .inl ⟨hm, hk, rfl⟩
            · rw [if_neg hk]; exact .inr ⟨hm, hk, rfl⟩
          · exact same rfl (.inl rfl)
          · exact absurd rfl hm
          · exact same rfl (.inl rfl)
          · obtain ⟨_, rfl⟩ := padding_frame ho; exact same rfl (.inl rfl)
          · exact same rfl (.inl rfl)
          · exact same rfl (.inl rfl)
          · obtain ⟨_, _, rfl⟩ := size_frame ho; exact same rfl (.inl rfl)
          · obtain ⟨_, _, rfl⟩ := tabs_frame ho; exact same rfl (.inl rfl)
          · obtain ⟨_, _, _, rfl⟩ := extra_frame ho; exact same rfl (.inl rfl)
      rcases step with ⟨rfl, hk⟩ | ⟨hm, hk, hk'⟩ | ⟨hm, hk, hk'⟩
      · rw [hk]; simp
      · have hmem : (Option'.mend ∈ x :: rest) ↔ Option'.mend ∈ rest := by
          simp only [List.mem_cons]
          exact ⟨fun hh => hh.resolve_left (fun e => hm e.symm), .inr⟩
        simp only [hmem]
        split
        · rfl
        · try rw [if_pos hk]
          cases hs : saysAboutBlankLines x with
          | none =>
            rw [hs] at hk'
            have hk' : a'.opt.killblank = -1 := hk'
            rw [if_pos hk', List.filterMap_cons, hs]
          | some k =>
            rw [hs] at hk'
            have : k ≠ -1 := by
              cases x <;> simp [saysAboutBlankLines] at hs
              · split at hs
                · cases hs; decide
                · split at hs
                  · cases hs; decide
                  · cases hs
              · rw [← hs]; decide
              · rw [← hs]; decide
            simp only [Option.getD_some] at hk'
            rw [hk', if_neg this, List.filterMap_cons, hs]
            rfl
      · have hmem : (Option'.mend ∈ x :: rest) ↔ Option'.mend ∈ rest := by
          simp only [List.mem_cons]
          exact ⟨fun hh => hh.resolve_left (fun e => hm e.symm), .inr⟩
        simp only [hmem, hk', if_neg hk]
  have := hset opts createNewOpt a h
  rw [this]
  rfl

/-- C38: If the first option about blank lines is `-k` with a word that says neither yes nor no, the command line is rejected. -/
theorem C38_rejected (pre : List Option') (s : Str) (post : List Option') (hy : ¬ Yes s) (hn : ¬ No s)
    (hpre : ∀ x ∈ pre, saysAboutBlankLines x = none ∧ x ≠ .mend) (a : Args) :
    optionLoop (pre ++ .kill s :: post) createNewOpt ≠ some (a, false) := by
  intro h
  have hrun : ∀ (pre : List Option') (a0 : Args), optionLoop (pre ++ .kill s :: post) a0 = some (a, false) →
      ∃ a1, optionLoop pre a0 = some (a1, false) ∧ optionLoop (.kill s :: post) a1 = some (a, false) := by
    intro pre
    induction pre with
    | nil => intro a0 h; exact ⟨a0, rfl, h⟩
    | cons x xs ih =>
      intro a0 h
      obtain ⟨a', h1, h2⟩ := optionLoop_cons h
      obtain ⟨a1, h3, h4⟩ := ih a' h2
      refine ⟨a1, ?_, h4⟩
      rw [optionLoop_cons_eq xs h1]; exact h3
  obtain ⟨a1, h1, h2⟩ := hrun pre createNewOpt h
  have hk := C38_first pre a1 h1
  rw [if_neg (fun hh => (hpre _ hh).2 rfl)] at hk
  have hnil : pre.filterMap saysAboutBlankLines = [] := by
    rw [List.filterMap_eq_nil_iff]
    exact fun x hx => (hpre x hx).1
  rw [hnil] at hk
  have hk : a1.opt.killblank = -1 := hk
  obtain ⟨a2, h3, _⟩ := optionLoop_cons h2
  have h3 : (killblankOption a1.opt s).map (fun o => { a1 with opt := o }) = some a2 := h3
  unfold killblankOption at h3
  rw [if_pos hk, if_neg (fun hh => hy ((C38_yes s).1 hh)), if_neg (fun hh => hn ((C38_no s).1 hh))] at h3
  cases h3

example : (optionLoop [.list, .kill (lit "true"), .noKillBlank] createNewOpt).map (fun r => r.1.opt.killblank) = some 1 := by decide
example : (optionLoop [.kill (lit "maybe")] createNewOpt).isNone = true := by decide

/-- After the first one, `-k` accepts every word. -/
theorem C38_later_word_disagrees :
    (optionLoop [.kill (lit "no"), .kill (lit "maybe")] createNewOpt).map (fun r => r.1.opt.killblank) = some 0 := by decide

end Boxes
