import Verif.Lemmas.Scanner

/-!
# Lemmas about the scanner: what is skipped and what makes no sense
-/
namespace Boxes
open Spec ShapeName
set_option linter.unusedSimpArgs false

theorem lineRest_none {s : Str} (h : '\n'.toNat ∉ s) : lineRest s = none := by
  unfold lineRest
  rw [if_neg]
  rw [List.contains_iff_mem]
  exact h

theorem lineRest_some {s l : Str} (h : lineRest s = some l) : ∃ r, s = l ++ '\n'.toNat :: r ∧ '\n'.toNat ∉ l := by
  have : '\n'.toNat ∈ s := by
    rcases Classical.em ('\n'.toNat ∈ s) with h' | h'
    · exact h'
    · rw [lineRest_none h'] at h; simp at h
  obtain ⟨l', r, e, hl⟩ := first_split this
  rw [e, lineRest_eq hl] at h
  obtain rfl := Option.some.inj h
  exact ⟨r, e, hl⟩

theorem scansTo_mark {m : Mode} {d : Delims} {s : Str} {ts : List Token} (hm : m ∈ [Mode.initial, .box, .shapes, .elastic, .delimspec])
    (h1 : m ∈ [Mode.initial, .box] → Apart s) (h2 : m = .delimspec → ∀ c r, s = c :: r → White c) (ih : ScansTo m d s ts) :
    ScansTo m d (0xfeff :: s) ts := by
  have hm' : m ≠ .sample := by rintro rfl; simp at hm
  refine scansTo_step (t := none) (m' := m) (d' := d) hm' (Nat.le_refl _) id ?_ ih
  intro _
  have hp : isPwhite 0xfeff = false := by decide
  have hs : lexSdelim.contains 0xfeff = false := by decide
  have hw : isWordStart 0xfeff = true := by decide
  have hword : ∀ sc, Apart s → scanWord sc (0xfeff :: s) = (none, sc, s) := by
    intro sc ha
    have := word_stop (w := [0xfeff]) (s := s) (by intro c hc; simp at hc; subst hc; unfold WordChar; right; right; right; right; decide) ha
    rw [List.singleton_append] at this
    unfold scanWord
    rw [this.1, this.2]
    dsimp only
    rw [if_pos (show [0xfeff] = [chBom] from rfl)]
  simp only [List.mem_cons, List.not_mem_nil, or_false] at hm
  rcases hm with rfl | rfl | rfl | rfl | rfl
  · simp only [scanStep, scanInitial, hp, hw, hword _ (h1 (by decide))]; simp
  · simp only [scanStep, scanBox, hp, hs, hw, hword _ (h1 (by decide))]; simp
  · simp [scanStep, scanShapes, chBom]
  · simp [scanStep, scanShapes, chBom]
  · have := takeWhile_stop (p := fun c => !isPwhite c) (w := [0xfeff]) (s := s) (by intro c hc; simp at hc; subst hc; decide)
      (fun c r e => by simp [(isPwhite_iff c).2 (h2 rfl c r e)])
    rw [List.singleton_append] at this
    simp only [scanStep, scanDelimspec, hp, this.1, this.2]
    simp [chBom]

theorem scansTo_noFile {d : Delims} {s : Str} {ts : List Token} (ih : ScansTo .initial d s ts) :
    ScansTo .parent d ('\n'.toNat :: s) ts ∧ ScansTo .parent d ('\r'.toNat :: '\n'.toNat :: s) ts := by
  constructor
  · refine scansTo_step (t := none) (m' := .initial) (d' := d) (by decide) (Nat.le_refl _) id ?_ ih
    intro _
    rfl
  · refine scansTo_step (t := none) (m' := .initial) (d' := d) (by decide) (by simp) id ?_ ih
    intro _
    rfl

theorem scansTo_senseless {m : Mode} {d : Delims} {s : Str} {ts : List Token} (c : Nat) (h : Senseless m d c s) (ih : ScansTo m d s ts) :
    ScansTo m d (c :: s) (.unrec :: ts) := by
  obtain ⟨h1, h2, h3, h4, h5, h6, h7, hm⟩ := h
  have hm' : m ≠ .sample := by rintro rfl; simp at hm
  refine scansTo_step (t := some .unrec) (m' := m) (d' := d) hm' (Nat.le_refl _) id ?_ ih
  intro hv
  have hp : isPwhite c = false := by rw [Bool.eq_false_iff]; exact fun h => h1 ((isPwhite_iff c).1 h)
  have hcom : ∀ sc, (if c = chHash then scanComment sc s else (some .unrec, sc, s)) = ((some .unrec, sc, s) : Step) := by
    intro sc
    split
    · rename_i e
      unfold scanComment
      rw [lineRest_none (h2 e)]
    · rfl
  have hword : ¬ Letter false c → c < 0x80 → isWordStart c = false := by
    intro a b
    rw [Bool.eq_false_iff]
    intro hh
    unfold isWordStart at hh
    rw [Bool.or_eq_true, isLetter_iff] at hh
    rcases hh with hh | hh
    · exact a hh
    · simp at hh; omega
  have hstr : m ∈ [Mode.box, .shapes] → scanString ⟨m, d⟩ (c :: s) = (some .unrec, ⟨m, d⟩, s) := by
    intro hmm
    unfold scanString
    cases hl : lineRest (c :: s) with
    | none => rfl
    | some line =>
      have hne : c ≠ d.sdel := by
        intro e
        obtain ⟨r, e', -⟩ := lineRest_some hl
        have hmem : '\n'.toNat ∈ c :: s := by rw [e']; simp
        rcases List.mem_cons.1 hmem with hh | hh
        · exact h1 (by rw [← hh]; unfold White; decide)
        · exact h5 hmm e hh
      have : stringToken d line = .reject := by
        refine (C40_errors d hv.1 line).1.2 ?_
        obtain ⟨r, e', -⟩ := lineRest_some hl
        cases line with
        | nil => simp
        | cons x line =>
          simp at e'
          simp [← e'.1, hne]
      simp only [this]
      rfl
  simp only [List.mem_cons, List.not_mem_nil, or_false] at hm
  rcases hm with rfl | rfl | rfl | rfl
  · simp only [scanStep, scanInitial, hp, hword (h3 rfl).1 (h3 rfl).2, hcom]; simp
  · obtain ⟨a1, a2, a3, a4⟩ := h4 rfl
    have hsym : isSymbol c = false := by rw [Bool.eq_false_iff]; exact fun h => h6 (by decide) ((isSymbol_iff c).1 h)
    have hdig : isDigit c = false := by rw [Bool.eq_false_iff]; exact fun h => a3 ((isDigit_iff' c).1 h)
    simp only [scanStep, scanBox, hp, hword a1 a2, hcom, hstr (by decide), hsym, hdig, Bool.false_eq_true, if_false, Bool.false_or]
    split
    · rfl
    · split
      · rename_i hsign
        have hd : s.takeWhile isDigit = [] := by
          cases s with
          | nil => rfl
          | cons e r =>
            rw [List.takeWhile_cons_of_neg]
            rw [isDigit_iff']
            exact a4 (by simpa using hsign) e r rfl
        simp only [scanNumber, hdig, hd]
        simp
      · rfl
  · have hb : (c == chBom) = false := by simpa [chBom] using (h7 (by decide)).1
    have hsym : isSymbol c = false := by rw [Bool.eq_false_iff]; exact fun h => h6 (by decide) ((isSymbol_iff c).1 h)
    have hsh : shapeToken (c :: s) = none := by
      have key : ∀ j, shapeNamed ((c :: s).take j) = none := by
        intro j
        cases hx : shapeNamed ((c :: s).take j) with
        | none => rfl
        | some n =>
          obtain ⟨k, hk, hw⟩ := shapeNamed_some hx
          exact absurd (List.take_append_drop j (c :: s)).symm ((h7 (by decide)).2 k n _ _ hk hw)
      unfold shapeToken
      rw [key, key, key]
      rfl
    simp only [scanStep, scanShapes, hp, hb, hsh, hsym, hcom, hstr (by decide)]
    simp
  · have hb : (c == chBom) = false := by simpa [chBom] using (h7 (by decide)).1
    have hsym : isSymbol c = false := by rw [Bool.eq_false_iff]; exact fun h => h6 (by decide) ((isSymbol_iff c).1 h)
    have hsh : shapeToken (c :: s) = none := by
      have key : ∀ j, shapeNamed ((c :: s).take j) = none := by
        intro j
        cases hx : shapeNamed ((c :: s).take j) with
        | none => rfl
        | some n =>
          obtain ⟨k, hk, hw⟩ := shapeNamed_some hx
          exact absurd (List.take_append_drop j (c :: s)).symm ((h7 (by decide)).2 k n _ _ hk hw)
      unfold shapeToken
      rw [key, key, key]
      rfl
    simp only [scanStep, scanShapes, hp, hb, hsh, hsym, hcom]
    simp

theorem sdel_facts {d : Delims} (hv : ValidDelims d) : isPwhite d.sdel = false ∧ lexSdelim.contains d.sdel = true ∧ d.sdel ≠ chBom ∧ d.sdel ≠ '\n'.toNat := by
  have : ∀ c ∈ "\"~'`!@%&*=:;<>?/|.\\".toList.map Char.toNat, isPwhite c = false ∧ lexSdelim.contains c = true ∧ c ≠ chBom ∧ c ≠ '\n'.toNat := by decide
  exact this _ hv.2.2

theorem scansTo_openString {m : Mode} {d : Delims} {s : Str} {ts : List Token} (line : Str) (hm : m ∈ [Mode.box, .shapes]) (h1 : '\n'.toNat ∉ line)
    (h2 : ∀ raw text rest, Quoted d.sesc d.sdel raw text → line ≠ raw ++ d.sdel :: rest) (ih : ScansTo m d ('\n'.toNat :: s) ts) :
    ScansTo m d (d.sdel :: (line ++ '\n'.toNat :: s)) (.unrec :: ts) := by
  have hm' : m ≠ .sample := by rintro rfl; simp at hm
  refine scansTo_step (t := some .unrec) (m' := m) (d' := d) hm' (by simp) id ?_ ih
  intro hv
  obtain ⟨w1, w2, w3, w4⟩ := sdel_facts hv
  have hline : lineRest (d.sdel :: (line ++ '\n'.toNat :: s)) = some (d.sdel :: line) := by
    have := lineRest_eq (l := d.sdel :: line) (s := s) (by simp only [List.mem_cons, not_or]; exact ⟨Ne.symm w4, h1⟩)
    simpa using this
  have hsc : scanString ⟨m, d⟩ (d.sdel :: (line ++ '\n'.toNat :: s)) = (some .unrec, ⟨m, d⟩, '\n'.toNat :: s) := by
    unfold scanString
    rw [hline]
    have : stringToken d (d.sdel :: line) = .unterminated := by
      refine (C40_errors d hv.1 _).2.2 ⟨rfl, ?_⟩
      rintro ⟨raw, text, rest, e, hq⟩
      simp at e
      exact h2 raw text rest hq e
    simp only [this]
    rw [← List.cons_append, List.drop_left]
  simp only [List.mem_cons, List.not_mem_nil, or_false] at hm
  rcases hm with rfl | rfl
  · simp only [scanStep, scanBox, w1, w2, hsc]; simp
  · simp only [scanStep, scanShapes, w1, w2, hsc]; simp [w3]

theorem scansTo_wrongDelims {d : Delims} {s : Str} {ts : List Token} (w : Str) (h1 : w ≠ []) (h2 : w ≠ [0xfeff]) (h3 : ∀ c ∈ w, ¬ White c)
    (h4 : ∀ d', ValidDelims d' → w ≠ [d'.sesc, d'.sdel]) (h5 : ∀ c r, s = c :: r → White c) (ih : ScansTo .box d s ts) :
    ScansTo .delimspec d (w ++ s) (.unrec :: ts) := by
  have hall : ∀ c ∈ w, isPwhite c = false := by
    intro c hc
    rw [Bool.eq_false_iff]
    exact fun h => h3 c hc ((isPwhite_iff c).1 h)
  have hw := takeWhile_stop (p := fun c => !isPwhite c) (w := w) (s := s) (fun c hc => by simp [hall c hc])
    (fun c r e => by simp [(isPwhite_iff c).2 (h5 c r e)])
  have hch : changeStringDelimiters w = none := by
    cases hx : changeStringDelimiters w with
    | none => rfl
    | some d' =>
      obtain ⟨e, hv⟩ := (C40_delims w d').1 hx
      exact absurd e (h4 d' hv)
  cases w with
  | nil => exact absurd rfl h1
  | cons c r =>
    show ScansTo .delimspec d (c :: (r ++ s)) _
    refine scansTo_step (t := some .unrec) (m' := .box) (d' := d) (by decide) (by simp) id ?_ ih
    intro _
    rw [List.cons_append] at hw
    simp only [scanStep, scanDelimspec, hall c (by simp), Bool.false_eq_true, if_false, hw.1, hw.2, hch]
    rw [if_neg (show ¬ (c :: r = [chBom]) from h2)]

/-! ### samples -/

theorem matchEnds_none_iff (t : Str) : matchEnds t = none ↔ ∀ y z, t = y ++ '\n'.toNat :: z → ¬ EndsHere y := by
  constructor
  · intro h y z e hy
    have := (matchEnds_iff t _).2 ⟨y, z, e, hy, rfl⟩
    rw [h] at this
    simp at this
  · intro h
    cases hx : matchEnds t with
    | none => rfl
    | some r =>
      obtain ⟨y, z, e, hy, -⟩ := (matchEnds_iff t r).1 hx
      exact absurd hy (h y z e)

theorem endsHere_start {y : Str} (h : EndsHere y) : ∃ c r, y = c :: r ∧ toLower c = 'e'.toNat ∧ ∀ x ∈ r, toLower x ≠ 'e'.toNat := by
  obtain ⟨e, t, rfl, hw, ht⟩ := h
  have hw' : e.map toLower = ['e'.toNat, 'n'.toNat, 'd'.toNat, 's'.toNat] := hw
  rcases e with _ | ⟨a, _ | ⟨b, _ | ⟨c, _ | ⟨d, _ | ⟨x, e⟩⟩⟩⟩⟩ <;> try (simp at hw'; done)
  simp only [List.map_cons, List.map_nil, List.cons.injEq, and_true] at hw'
  obtain ⟨h1, h2, h3, h4⟩ := hw'
  refine ⟨a, [b, c, d] ++ t, rfl, h1, ?_⟩
  intro x hx
  simp only [List.cons_append, List.nil_append, List.mem_cons] at hx
  rcases hx with rfl | rfl | rfl | hx
  · rw [h2]; decide
  · rw [h3]; decide
  · rw [h4]; decide
  · rcases ht x hx with rfl | rfl | rfl <;> decide

/-- the first line with an end of a sample, and where the end begins -/
theorem ends_unique {p e s p' e' s' : Str} (h : p ++ e ++ '\n'.toNat :: s = p' ++ e' ++ '\n'.toNat :: s') (h1 : EndsHere e) (h2 : NoEnd p)
    (h1' : EndsHere e') (h2' : NoEnd p') : p = p' ∧ e = e' ∧ s = s' := by
  have key : ∀ {p e s p' e' s' : Str}, p ++ e ++ '\n'.toNat :: s = p' ++ e' ++ '\n'.toNat :: s' → EndsHere e → EndsHere e' → NoEnd p' →
      ¬ (p ++ e).length < (p' ++ e').length := by
    intro p e s p' e' s' h h1 h1' h2' hlt
    have hp : (p ++ e) ++ ['\n'.toNat] <+: p' ++ e' := by
      have a : (p ++ e) ++ ['\n'.toNat] <+: p' ++ e' ++ '\n'.toNat :: s' := ⟨s, by rw [← h]; simp⟩
      exact List.prefix_of_prefix_length_le a (List.prefix_append _ _) (by simp at hlt ⊢; omega)
    obtain ⟨q, hq⟩ := hp
    have hq' : (p ++ e) ++ '\n'.toNat :: q = p' ++ e' := by rw [← hq]; simp
    rcases List.append_eq_append_iff.1 hq' with ⟨a, ha, hb⟩ | ⟨a, ha, hb⟩
    · cases a with
      | nil =>
        simp at hb
        exact endsHere_no_nl h1' (by rw [← hb]; simp)
      | cons x a =>
        simp only [List.cons_append, List.cons.injEq] at hb
        obtain ⟨rfl, -⟩ := hb
        exact h2' p e a ha h1
    · exact endsHere_no_nl h1' (by rw [hb]; simp)
  have hl : (p ++ e).length = (p' ++ e').length := by
    have a := key h h1 h1' h2'
    have b := key h.symm h1' h1 h2
    omega
  have hpe := List.append_inj h hl
  have short : ∀ {p e p' e' : Str}, p ++ e = p' ++ e' → EndsHere e → EndsHere e' → ¬ p'.length < p.length := by
    intro p e p' e' h h1 h1' hlt
    rcases List.append_eq_append_iff.1 h with ⟨a, ha, hb⟩ | ⟨a, ha, hb⟩
    · rw [ha] at hlt; simp at hlt; omega
    · obtain ⟨c, r, e1, e2, -⟩ := endsHere_start h1
      obtain ⟨c', r', f1, -, f3⟩ := endsHere_start h1'
      cases a with
      | nil => rw [ha] at hlt; simp at hlt
      | cons x a =>
        rw [f1, List.cons_append, List.cons.injEq] at hb
        exact f3 c (by rw [hb.2, e1]; simp) e2
  have hl2 : p.length = p'.length := by
    have a := short hpe.1 h1 h1'
    have b := short hpe.1.symm h1' h1
    omega
  have := List.append_inj hpe.1 hl2
  exact ⟨this.1, this.2, (List.cons.inj hpe.2).2⟩

theorem withoutFirstNewlines_snoc (b1 : Str) (c : Nat) : withoutFirstNewlines (b1 ++ [c]) =
    if c = chNl then (if withoutFirstNewlines b1 = [] then [] else withoutFirstNewlines b1 ++ [chNl])
    else withoutFirstNewlines b1 ++ [c] := by
  unfold withoutFirstNewlines
  rw [List.dropWhile_append]
  by_cases hc : c = chNl
  · subst hc
    split <;> rename_i hh
    · rw [List.isEmpty_iff] at hh
      rw [hh, if_pos rfl, if_pos rfl]
      rfl
    · have : ¬ (b1.dropWhile (fun c => decide (c = '\n'.toNat)) = []) := fun e => hh (by rw [e]; rfl)
      rw [if_pos rfl, if_neg this]
  · rw [if_neg hc]
    split <;> rename_i hh
    · rw [List.isEmpty_iff] at hh
      have : ¬ (c = '\n'.toNat) := hc
      rw [hh, List.dropWhile_cons_of_neg (by simpa using this)]
      rfl
    · rfl

theorem isSpTab_iff (c : Nat) : isSpTab c = true ↔ c = ' '.toNat ∨ c = '\t'.toNat := by
  simp [isSpTab, chSpace, chTab]

/-- what the scanner makes of a sample -/
theorem scanSample_result : ∀ (t b1 : Str) (bol : Bool), (bol = true ↔ ∃ b, b1 = b ++ ['\n'.toNat]) →
    (∀ x y, b1 = x ++ y → y ≠ [] → matchEnds (y ++ t) = none) →
    (∀ b indent, b1 = b ++ '\n'.toNat :: indent → (∀ c ∈ indent, c = ' '.toNat ∨ c = '\t'.toNat) → indent ≠ [] →
      matchEnds (t.dropWhile isSpTab) = none) →
    (scanSample bol (withoutFirstNewlines b1) t = none → NoEnd (b1 ++ t)) ∧
    ∀ ts r, scanSample bol (withoutFirstNewlines b1) t = some (ts, r) → ∃ s, r = '\n'.toNat :: s ∧
      ((∃ body indent e, b1 ++ t = body ++ indent ++ e ++ '\n'.toNat :: s ∧ (∃ b, body = b ++ ['\n'.toNat]) ∧
          (∀ c ∈ indent, c = ' '.toNat ∨ c = '\t'.toNat) ∧ EndsHere e ∧ NoEnd body ∧
          ts = [.sampleText (withoutFirstNewlines body ++ indent), .endSample]) ∨
        (∃ body e, b1 ++ t = body ++ e ++ '\n'.toNat :: s ∧ EndsHere e ∧ NoEnd body ∧
          (∀ b indent, body = b ++ '\n'.toNat :: indent → ∃ c ∈ indent, c ≠ ' '.toNat ∧ c ≠ '\t'.toNat) ∧ ts = [.endSample])) := by
  intro t
  induction t with
  | nil =>
    intro b1 bol hbol hpos _
    refine ⟨fun _ => ?_, fun ts r h => by simp [scanSample] at h⟩
    intro x y z e hy
    have := (matchEnds_none_iff _).1 (hpos x (y ++ '\n'.toNat :: z) (by simpa using e) (by simp))
    exact this y z (by simp) hy
  | cons c rest ih =>
    intro b1 bol hbol hpos hind
    have noEnd : NoEnd b1 := by
      intro x y z e hy
      have := (matchEnds_none_iff _).1 (hpos x (y ++ '\n'.toNat :: z) (by simpa using e) (by simp))
      exact this y (z ++ c :: rest) (by simp) hy
    have hdrop : (c :: rest).drop ((c :: rest).takeWhile isSpTab).length = (c :: rest).dropWhile isSpTab := by
      have h := List.takeWhile_append_dropWhile (p := isSpTab) (l := c :: rest)
      calc (c :: rest).drop ((c :: rest).takeWhile isSpTab).length
          = ((c :: rest).takeWhile isSpTab ++ (c :: rest).dropWhile isSpTab).drop ((c :: rest).takeWhile isSpTab).length := by rw [h]
        _ = _ := List.drop_left
    have hblank : ∀ x ∈ (c :: rest).takeWhile isSpTab, x = ' '.toNat ∨ x = '\t'.toNat := by
      intro x hx
      exact (isSpTab_iff x).1 (List.all_eq_true.1 List.all_takeWhile x hx)
    unfold scanSample
    simp only [hdrop]
    cases h1 : (if bol = true then matchEnds ((c :: rest).dropWhile isSpTab) else none) with
    | some r0 =>
      simp only
      refine ⟨fun h => by simp at h, fun ts r h => ?_⟩
      simp only [Option.some.injEq, Prod.mk.injEq] at h
      obtain ⟨rfl, rfl⟩ := h
      have hb : bol = true := by
        rcases Bool.eq_false_or_eq_true bol with hb | hb
        · exact hb
        · rw [hb] at h1; simp at h1
      rw [if_pos hb] at h1
      obtain ⟨e, s, h2, h3, h4⟩ := (matchEnds_iff _ _).1 h1
      refine ⟨s, h4, Or.inl ⟨b1, _, e, ?_, hbol.1 hb, hblank, h3, noEnd, rfl⟩⟩
      rw [List.append_assoc, List.append_assoc, ← h2, List.takeWhile_append_dropWhile]
    | none =>
      simp only
      have hbl : bol = true → matchEnds ((c :: rest).dropWhile isSpTab) = none := by
        intro hb
        rw [if_pos hb] at h1
        exact h1
      cases h2 : matchEnds (c :: rest) with
      | some r0 =>
        simp only
        refine ⟨fun h => by simp at h, fun ts r h => ?_⟩
        simp only [Option.some.injEq, Prod.mk.injEq] at h
        obtain ⟨rfl, rfl⟩ := h
        obtain ⟨e, s, e1, e2, e3⟩ := (matchEnds_iff _ _).1 h2
        refine ⟨s, e3, Or.inr ⟨b1, e, by rw [e1]; simp, e2, noEnd, ?_, rfl⟩⟩
        intro b indent hb
        rcases Classical.em (∃ x ∈ indent, x ≠ ' '.toNat ∧ x ≠ '\t'.toNat) with hh | hh
        · exact hh
        exfalso
        have hall : ∀ x ∈ indent, x = ' '.toNat ∨ x = '\t'.toNat := by
          intro x hx
          rcases Classical.em (x = ' '.toNat) with h | h
          · exact Or.inl h
          · exact Or.inr (Classical.byContradiction fun h' => hh ⟨x, hx, h, h'⟩)
        have hdw : (c :: rest).dropWhile isSpTab = c :: rest := by
          obtain ⟨c', r', f1, f2, -⟩ := endsHere_start e2
          rw [f1, List.cons_append, List.cons.injEq] at e1
          rw [List.dropWhile_cons_of_neg]
          rw [isSpTab_iff, e1.1]
          rintro (h | h) <;> (rw [h] at f2; revert f2; decide)
        have hnone : matchEnds ((c :: rest).dropWhile isSpTab) = none := by
          cases indent with
          | nil => exact hbl (hbol.2 ⟨b, hb⟩)
          | cons x indent => exact hind b _ hb hall (by simp)
        rw [hdw, h2] at hnone
        simp at hnone
      | none =>
        simp only
        have hpos' : ∀ x y, b1 ++ [c] = x ++ y → y ≠ [] → matchEnds (y ++ rest) = none := by
          intro x y e hy
          rcases List.eq_nil_or_concat y with rfl | ⟨y', z, rfl⟩
          · exact absurd rfl hy
          rw [List.concat_eq_append, ← List.append_assoc] at e
          obtain ⟨e1, e2⟩ := List.append_inj' e rfl
          simp at e2
          subst e2
          rw [List.concat_eq_append, List.append_assoc, List.singleton_append]
          by_cases hy' : y' = []
          · subst hy'; exact h2
          · exact hpos x y' e1 hy'
        have hind' : ∀ b indent, b1 ++ [c] = b ++ '\n'.toNat :: indent → (∀ x ∈ indent, x = ' '.toNat ∨ x = '\t'.toNat) → indent ≠ [] →
            matchEnds (rest.dropWhile isSpTab) = none := by
          intro b indent e hall hne
          rcases List.eq_nil_or_concat indent with rfl | ⟨i', z, rfl⟩
          · exact absurd rfl hne
          rw [List.concat_eq_append, ← List.cons_append, ← List.append_assoc] at e
          obtain ⟨e1, e2⟩ := List.append_inj' e rfl
          simp at e2
          subst e2
          have hc := hall c (by simp)
          have hdw : (c :: rest).dropWhile isSpTab = rest.dropWhile isSpTab := by
            rw [List.dropWhile_cons_of_pos ((isSpTab_iff c).2 hc)]
          rw [← hdw]
          cases i' with
          | nil => exact hbl (hbol.2 ⟨b, e1⟩)
          | cons x i' => exact hind b _ e1 (fun y hy => hall y (by simp at hy ⊢; rcases hy with h | h <;> simp [h])) (by simp)
        have hbol' : ((c == '\n'.toNat) = true ↔ ∃ b, b1 ++ [c] = b ++ ['\n'.toNat]) := by
          rw [beq_iff_eq]
          constructor
          · rintro rfl; exact ⟨b1, rfl⟩
          · rintro ⟨b, e⟩
            have := (List.append_inj' e rfl).2
            simpa using this
        have hrec := ih (b1 ++ [c]) (c == '\n'.toNat) hbol' hpos' hind'
        rw [withoutFirstNewlines_snoc] at hrec
        rw [show b1 ++ [c] ++ rest = b1 ++ c :: rest by simp] at hrec
        by_cases hc : c = chNl
        · have hcc : (c == '\n'.toNat) = true := by simpa using hc
          rw [hcc, if_pos hc] at hrec
          rw [if_pos hc]
          exact hrec
        · have hcc : (c == '\n'.toNat) = false := by simpa using hc
          rw [hcc, if_neg hc] at hrec
          rw [if_neg hc]
          exact hrec

/-- the scanner at the beginning of a sample -/
theorem scanSample_start (t : Str) :
    (scanSample false [] t = none → NoEnd t) ∧
    ∀ ts r, scanSample false [] t = some (ts, r) → ∃ s, r = '\n'.toNat :: s ∧
      ((∃ body indent e, t = body ++ indent ++ e ++ '\n'.toNat :: s ∧ (∃ b, body = b ++ ['\n'.toNat]) ∧
          (∀ c ∈ indent, c = ' '.toNat ∨ c = '\t'.toNat) ∧ EndsHere e ∧ NoEnd body ∧
          ts = [.sampleText (withoutFirstNewlines body ++ indent), .endSample]) ∨
        (∃ body e, t = body ++ e ++ '\n'.toNat :: s ∧ EndsHere e ∧ NoEnd body ∧
          (∀ b indent, body = b ++ '\n'.toNat :: indent → ∃ c ∈ indent, c ≠ ' '.toNat ∧ c ≠ '\t'.toNat) ∧ ts = [.endSample])) := by
  have := scanSample_result t [] false (by simp) (by intro x y e hy; simp at e; exact absurd e.2 hy) (by intro b i e; simp at e)
  exact this

theorem noEnd_blanks {body indent : Str} (h : NoEnd body) (hi : ∀ c ∈ indent, c = ' '.toNat ∨ c = '\t'.toNat) : NoEnd (body ++ indent) := by
  intro x y z e hy
  rcases List.append_eq_append_iff.1 e with ⟨a, ha, hb⟩ | ⟨a, ha, hb⟩
  · have : '\n'.toNat ∈ indent := by rw [hb]; simp
    have := hi _ this
    revert this
    decide
  · cases a with
    | nil =>
      have : '\n'.toNat ∈ indent := by simp at hb; rw [← hb]; simp
      have := hi _ this
      revert this
      decide
    | cons v a =>
      simp only [List.cons_append, List.cons.injEq] at hb
      obtain ⟨rfl, -⟩ := hb
      exact h x y a ha hy

theorem scansTo_openSample {d : Delims} {s : Str} (h : NoEnd s) : ScansTo .sample d s [] := by
  intro _ fuel hf
  cases fuel with
  | zero => simp at hf
  | succ fuel =>
    cases s with
    | nil => rfl
    | cons c rest =>
      rw [scan, if_pos rfl]
      cases hx : scanSample false [] (c :: rest) with
      | none => rfl
      | some q =>
        obtain ⟨ts, r⟩ := q
        obtain ⟨s, -, hc | hc⟩ := (scanSample_start _).2 ts r hx
        · obtain ⟨body, indent, e, h1, -, -, h4, -⟩ := hc
          exact absurd h4 (h _ _ _ h1)
        · obtain ⟨body, e, h1, h4, -⟩ := hc
          exact absurd h4 (h _ _ _ h1)

theorem scansTo_lostSample {d : Delims} {s : Str} {ts : List Token} (body e : Str) (h1 : EndsHere e) (h2 : NoEnd body)
    (h3 : ∀ b indent, body = b ++ '\n'.toNat :: indent → ∃ c ∈ indent, c ≠ ' '.toNat ∧ c ≠ '\t'.toNat)
    (ih : ScansTo .box d ('\n'.toNat :: s) ts) : ScansTo .sample d (body ++ e ++ '\n'.toNat :: s) (.endSample :: ts) := by
  intro hv fuel hf
  have hkey : scanSample false [] (body ++ e ++ '\n'.toNat :: s) = some ([.endSample], '\n'.toNat :: s) := by
    cases hx : scanSample false [] (body ++ e ++ '\n'.toNat :: s) with
    | none => exact absurd h1 ((scanSample_start _).1 hx _ _ _ rfl)
    | some q =>
      obtain ⟨ts', r⟩ := q
      obtain ⟨s', hr, hc | hc⟩ := (scanSample_start _).2 ts' r hx
      · exfalso
        obtain ⟨body', indent, e', g1, ⟨b, g2⟩, g3, g4, g5, -⟩ := hc
        obtain ⟨f1, -, -⟩ := ends_unique g1 h1 h2 g4 (noEnd_blanks g5 g3)
        obtain ⟨c, hc1, hc2, hc3⟩ := h3 b indent (by rw [f1, g2]; simp)
        rcases g3 c hc1 with h | h
        · exact hc2 h
        · exact hc3 h
      · obtain ⟨body', e', g1, g2, g3, -, g5⟩ := hc
        obtain ⟨-, -, f3⟩ := ends_unique g1 h1 h2 g2 g3
        rw [g5, hr, f3]
  cases fuel with
  | zero => simp at hf
  | succ fuel =>
    cases hb : body ++ e ++ '\n'.toNat :: s with
    | nil => simp at hb
    | cons c rest =>
      rw [hb] at hkey
      rw [scan, if_pos rfl, hkey]
      simp only
      obtain ⟨x, y, rfl, -, -⟩ := endsHere_start h1
      rw [ih hv fuel (by simp at hf ⊢; omega)]
      rfl

end Boxes
