import Verif.Lemmas.Input
import Verif.Props.Text

/-!
# Properties C09, C46, C47, C48: reading and analysing the input
-/
namespace Boxes
open Spec
set_option linter.unusedSimpArgs false

/-! ## C46 -/

private theorem leadEsc_plain {q : Str} (h : ∀ r, q ≠ 0x1b :: r) : leadEsc q = [] := by
  cases q with
  | nil => rfl
  | cons d r =>
    simp only [leadEsc]
    rw [if_neg]
    rintro rfl
    exact h r rfl

private theorem leadEsc_esc {e : Str} (he : EscSeq e) (q : Str) : leadEsc (e ++ q) = e := by
  obtain ⟨r, hr⟩ := he.head
  have h := advanceNext_esc he q
  rw [hr] at h ⊢
  rw [List.cons_append] at h ⊢
  simp only [leadEsc, if_true]
  rw [h]
  show ((0x1b :: r) ++ q).take (0x1b :: r).length = 0x1b :: r
  rw [List.take_append_of_le_length (Nat.le_refl _), List.take_length]

/-- C46: right-trimming of input lines.  `p` is the text up to the last character `c` that is not white space; behind it
one escape sequence `e` is kept if it follows directly. -/
theorem C46_trim_input (db : CharDb) {s v : Str} (h : Text s v) :
    ((∀ d ∈ v, db.white d = true) ∧ btrim32 db s = []) ∨
    ∃ p x c e q y, s = p ++ c :: (e ++ q) ∧ Text p x ∧ c ≠ 0x1b ∧ db.white c = false ∧ Text q y ∧ v = x ++ c :: y ∧
      (∀ d ∈ y, db.white d = true) ∧ (EscSeq e ∨ (e = [] ∧ ∀ r, q ≠ 0x1b :: r)) ∧ btrim32 db s = p ++ c :: e := by
  by_cases hw : ∀ d ∈ v, db.white d = true
  · exact Or.inl ⟨hw, btrim32_all_white db h hw⟩
  · right
    obtain ⟨ts, hok, rfl, rfl⟩ := h.toks
    -- the last visible character that is not white space
    have key : ∀ (ts : List Tok), Oks ts → ¬ (∀ d ∈ visOf ts, db.white d = true) →
        ∃ t1 c t2, ts = t1 ++ .inl c :: t2 ∧ db.white c = false ∧ ∀ d ∈ visOf t2, db.white d = true := by
      intro ts
      induction ts with
      | nil => intro _ h; simp at h
      | cons t ts ih =>
        intro hok hn
        by_cases hts : ∀ d ∈ visOf ts, db.white d = true
        · cases t with
          | inl c =>
            refine ⟨[], c, ts, rfl, ?_, hts⟩
            cases hc : db.white c with
            | false => rfl
            | true =>
              exfalso; apply hn
              intro d hd
              simp at hd
              rcases hd with rfl | hd
              · exact hc
              · exact hts d hd
          | inr e => exact absurd (by simpa using hts) hn
        · obtain ⟨t1, c, t2, h1, h2, h3⟩ := ih hok.tail hts
          exact ⟨t :: t1, c, t2, by rw [h1]; rfl, h2, h3⟩
    obtain ⟨t1, c, t2, rfl, hc, hw2⟩ := key ts hok hw
    have hok1 := hok.append_left
    have hok2' := hok.append_right
    have hok2 := hok2'.tail
    have hce : c ≠ 0x1b := hok2'.hd
    have hb := btrim32_text db (text_of_toks hok1) hce (text_of_toks hok2) hc hw2
    have hflat : flat (t1 ++ .inl c :: t2) = flat t1 ++ c :: flat t2 := by simp
    rw [hflat]
    cases t2 with
    | nil =>
      refine ⟨flat t1, visOf t1, c, [], [], [], by simp, text_of_toks hok1, hce, hc, Text.nil, by simp, by simp,
        Or.inr ⟨rfl, by simp⟩, ?_⟩
      rw [hb]; rfl
    | cons t t2 =>
      cases t with
      | inl d =>
        have hd : d ≠ 0x1b := hok2.hd
        refine ⟨flat t1, visOf t1, c, [], flat (.inl d :: t2), _, by simp, text_of_toks hok1, hce, hc, text_of_toks hok2,
          by simp, hw2, Or.inr ⟨rfl, ?_⟩, ?_⟩
        · intro r hr; simp at hr; exact hd hr.1
        · rw [hb, leadEsc_plain]
          intro r hr; simp at hr; exact hd hr.1
      | inr e =>
        have he : EscSeq e := hok2.hd
        refine ⟨flat t1, visOf t1, c, e, flat t2, _, by simp, text_of_toks hok1, hce, hc, text_of_toks hok2.tail,
          by simp, by simpa using hw2, Or.inl he, ?_⟩
        rw [hb, flat_esc, leadEsc_esc he]

example : btrim32 sampleDb sampleText = sampleText.take 14 := by decide
example : btrim32 sampleDb ([0x61, 0x1b, 0x5b, 0x30, 0x6d, 0x20, 0x0a]) = [0x61, 0x1b, 0x5b, 0x30, 0x6d] := by decide

/-- C46: in remove mode only the line break goes: a newline, then a carriage return. -/
theorem C46_remove_mode (db : CharDb) (opt : Opt) (junk : Nat) (hr : opt.r = true) (s : Str) :
    (trimCarefully db opt junk (s ++ [0x0d, 0x0a]) = .ok s) ∧
    (∀ c, c ≠ 0x0d → trimCarefully db opt junk (s ++ [c, 0x0a]) = .ok (s ++ [c])) ∧
    (trimCarefully db opt junk (s ++ [0x0d]) = .ok s) ∧
    (∀ c, c ≠ 0x0a → c ≠ 0x0d → trimCarefully db opt junk (s ++ [c]) = .ok (s ++ [c])) ∧
    trimCarefully db opt junk [0x0a] = if junk = 0x0d then .ub else .ok [] := by
  have hs : ∀ (t : Str) (c d : Nat), stripLast junk c (t ++ [d]) = if d = c then .ok t else .ok (t ++ [d]) := by
    intro t c d
    simp [stripLast]
  have h2 : ∀ (t : Str) (c d : Nat), t ++ [c, d] = (t ++ [c]) ++ [d] := by intro t c d; simp
  have h1 : ([0x0a] : Str) = [] ++ [0x0a] := rfl
  refine ⟨?_, ?_, ?_, ?_, ?_⟩ <;> unfold trimCarefully <;> simp only [if_pos hr]
  · rw [h2, hs, if_pos rfl, Res.ok_bind, hs, if_pos rfl]
  · intro c hc
    rw [h2, hs, if_pos rfl, Res.ok_bind, hs, if_neg hc]
  · rw [hs, if_neg (by decide), Res.ok_bind, hs, if_pos rfl]
  · intro c hc hc2
    rw [hs, if_neg hc, Res.ok_bind, hs, if_neg hc2]
  · rw [h1, hs, if_pos rfl, Res.ok_bind]; rfl

/-! ## C47 -/

/-- C47: the pieces read make up the input; every piece is non-empty, fits the buffer and has a newline at most at its
end; only a line that is too long for the buffer is split. -/
theorem C47_pieces (bytes : Str) :
    (inputPieces bytes).flatten = bytes ∧
    (∀ p ∈ inputPieces bytes, p ≠ [] ∧ p.length ≤ 16383 ∧ 0x0a ∉ p.dropLast) ∧
    (∀ a p b, inputPieces bytes = a ++ p :: b → b ≠ [] → p.getLast? = some 0x0a ∨ p.length = 16383) :=
  fgetsAll_spec (lineMaxBytes + 1) (by decide) bytes.length bytes (Nat.le_refl _)

example : inputPieces (lit "ab\n\ncd") = [lit "ab\n", lit "\n", lit "cd"] := by decide

/-- C47: one line of the input per piece, and the final newline flag says whether the last piece ends in a line break. -/
theorem C47_lines (db : CharDb) (opt : Opt) (junk : Nat) (pieces : List Str) {i : Input}
    (h : readAllInput db opt junk pieces = .ok i) :
    i.lines.length = pieces.length ∧
    (i.finalNewline = true ↔ ∃ a p c, pieces = a ++ [p ++ [c]] ∧ (c = 0x0a ∨ c = 0x0d)) := by
  have hlen : ∀ (ps : List Str) (ls : List Line), readLines db opt junk ps = .ok ls → ls.length = ps.length := by
    intro ps
    induction ps with
    | nil => intro ls h; simp [readLines] at h; subst h; rfl
    | cons p ps ih =>
      intro ls h
      simp only [readLines, Res.bind_eq_ok, Res.ok.injEq] at h
      obtain ⟨l, -, ls', h2, rfl⟩ := h
      simp [ih ls' h2]
  simp only [readAllInput, Res.bind_eq_ok, Res.ok.injEq] at h
  obtain ⟨ls, h1, rfl⟩ := h
  refine ⟨hlen _ _ h1, ?_⟩
  simp only
  rcases List.eq_nil_or_concat pieces with rfl | ⟨a, p, rfl⟩
  · simp
  · rw [List.concat_eq_append, List.getLast?_append]
    simp only [List.getLast?_singleton, Option.some_or, hasLinebreak]
    rcases List.eq_nil_or_concat p with rfl | ⟨q, c, rfl⟩
    · simp only [List.getLast?_nil, Bool.false_eq_true, false_iff, not_exists]
      rintro a' p' c ⟨h, -⟩
      have := (List.append_inj' h rfl).2
      simp at this
    · rw [List.concat_eq_append, List.getLast?_append]
      simp only [List.getLast?_singleton, Option.some_or, Bool.or_eq_true, beq_iff_eq]
      constructor
      · intro h
        exact ⟨a, q, c, rfl, by rcases h with h | h; exact Or.inr h; exact Or.inl h⟩
      · rintro ⟨a', p', c', h, h2⟩
        have h3 := (List.append_inj' h rfl).2
        simp only [List.cons.injEq, and_true] at h3
        have h4 := (List.append_inj' h3 rfl).2
        simp at h4
        subst h4
        rcases h2 with h2 | h2
        · exact Or.inr h2
        · exact Or.inl h2

/-! ## C48 -/

private theorem readLine_total (db : CharDb) (hdb : Sane db) (opt : Opt) (ht : 1 ≤ opt.tabstop) (junk : Nat)
    (hj : opt.r = true → junk ≠ 0x0d ∧ junk ≠ 0x0a) (s : Str) (hs : ∀ c ∈ s, ¬ Forbidden db c) :
    ∃ l t, readLine db opt junk s = .ok l ∧ l.text = some t ∧ Good db t := by
  have hstrip : opt.r = true → ∀ (c : Nat) (t : Str), (c = 0x0a ∨ c = 0x0d) → (∀ d ∈ t, ¬ Forbidden db d) →
      ∃ t', stripLast junk c t = .ok t' ∧ ∀ d ∈ t', ¬ Forbidden db d := by
    intro hr c t hc ht
    unfold stripLast
    split
    · split
      · exact ⟨_, rfl, fun d hd => ht d (List.dropLast_subset t hd)⟩
      · exact ⟨_, rfl, ht⟩
    · rw [if_neg]
      · exact ⟨_, rfl, ht⟩
      · rintro rfl
        obtain ⟨h1, h2⟩ := hj hr
        rcases hc with h | h
        · exact h2 h
        · exact h1 h
  have htrim : ∃ t, trimCarefully db opt junk s = .ok t ∧ ∀ c ∈ t, ¬ Forbidden db c := by
    unfold trimCarefully
    cases hr : opt.r with
    | true =>
      obtain ⟨t1, h1, h2⟩ := hstrip hr 0x0a s (Or.inl rfl) hs
      obtain ⟨t2, h3, h4⟩ := hstrip hr 0x0d t1 (Or.inr rfl) h2
      refine ⟨t2, ?_, h4⟩
      rw [if_pos rfl, h1, Res.ok_bind, h3]
    | false =>
      rw [if_neg (by simp)]
      obtain ⟨n, hn⟩ := btrim32_prefix db s
      exact ⟨_, rfl, by rw [hn]; intro c hc; exact hs c (List.mem_of_mem_take hc)⟩
  obtain ⟨t, h1, h2⟩ := htrim
  unfold readLine
  rw [h1, Res.ok_bind]
  split
  · rename_i hl
    have hp := expandTabs_pos (decide (opt.tabexp = 'k')) ht (s := t) (List.length_pos_iff.1 hl)
    simp only
    rw [if_neg (by omega)]
    have hmem : ∀ c ∈ (expandTabs (decide (opt.tabexp = 'k')) opt.tabstop t).1, ¬ Forbidden db c := by
      intro c hc
      rcases expandLoop_mem opt.tabstop t [] [] c hc with hc | hc | hc
      · simp at hc
      · exact h2 c hc
      · subst hc
        rintro ⟨hf, -⟩
        rw [hdb.space_ok] at hf; simp at hf
    obtain ⟨b, hb, hb2⟩ := fromUnicode_total db _ hmem
    exact ⟨_, b, rfl, hb, hb2⟩
  · exact ⟨_, emptyBxs, rfl, rfl, good_empty db⟩

/-- C48: reading and analysing never fails and never runs into undefined behaviour if the input has no forbidden control
characters (and, in remove mode, the memory in front of the line buffer does not happen to hold a line break). -/
theorem C48_reading_total (db : CharDb) (hdb : Sane db) (opt : Opt) (ht : 1 ≤ opt.tabstop) (junk : Nat)
    (hj : opt.r = true → junk ≠ 0x0d ∧ junk ≠ 0x0a) (d : Design) (pieces : List Str)
    (hp : ∀ s ∈ pieces, ∀ c ∈ s, ¬ Forbidden db c) :
    ∃ i j, readAllInput db opt junk pieces = .ok i ∧ analyzeInput db opt d [] i = .ok j ∧
      j.lines.length = pieces.length ∧ ∀ l ∈ j.lines, l.text ≠ none := by
  have hlines : ∀ (ps : List Str), (∀ s ∈ ps, ∀ c ∈ s, ¬ Forbidden db c) →
      ∃ ls ts, readLines db opt junk ps = .ok ls ∧ ls.length = ps.length ∧ HasTexts ls ts ∧ ∀ t ∈ ts, Good db t := by
    intro ps
    induction ps with
    | nil => intro _; exact ⟨[], [], rfl, rfl, rfl, by simp⟩
    | cons p ps ih =>
      intro h
      obtain ⟨ls, ts, h1, h2, h3, h3'⟩ := ih (fun s hs => h s (by simp [hs]))
      obtain ⟨l, t, h4, h5, h6⟩ := readLine_total db hdb opt ht junk hj p (h p (by simp))
      refine ⟨l :: ls, t :: ts, ?_, by simp [h2], ?_, ?_⟩
      · simp only [readLines, h4, Res.ok_bind, h1]
      · have h3'' : ls.map Line.text = ts.map some := h3
        simp [HasTexts, h5, h3'']
      · intro m hm
        rcases List.mem_cons.1 hm with rfl | hm
        · exact h6
        · exact h3' m hm
  obtain ⟨ls, ts, h1, h2, h3, h4⟩ := hlines pieces hp
  have hsome : ∀ (ls : List Line) (us : List (Option Bxs)), ls.map Line.text = us → (∀ u ∈ us, u ≠ none) →
      ∀ l ∈ ls, l.text ≠ none := by
    intro ls us h hu l hl
    exact hu _ (by rw [← h]; exact List.mem_map_of_mem hl)
  obtain ⟨fn, hread⟩ : ∃ fn, readAllInput db opt junk pieces = .ok ⟨ls, 0, lineMaxBytes, fn⟩ := by
    simp only [readAllInput, h1, Res.ok_bind]; exact ⟨_, rfl⟩
  refine ⟨⟨ls, 0, lineMaxBytes, fn⟩, ?_⟩
  by_cases hne : ls = []
  · subst hne
    refine ⟨⟨[], 0, lineMaxBytes, fn⟩, hread, ?_, h2, by simp⟩
    simp [analyzeInput, maxCols]
  · obtain ⟨n, m, -, -, -, -, hA, hB⟩ := analyzeInput_eq db opt d ⟨ls, 0, lineMaxBytes, fn⟩ ts h3 hne
      (fun t ht => (h4 t ht).indent)
    by_cases hc : d.indentmode ≠ 't' ∧ opt.r = false
    · obtain ⟨ls', hls, hls2, -⟩ := hA hc
      refine ⟨_, hread, hls, ?_, ?_⟩
      · have e1 := congrArg List.length hls2
        have e2 := congrArg List.length h3
        simp only [List.length_map] at e1 e2
        show ls'.length = _
        omega
      · apply hsome ls' _ hls2
        intro u hu
        obtain ⟨t, ht, rfl⟩ := List.mem_map.1 hu
        unfold unindented
        split
        · obtain ⟨b, hb, -⟩ := cutFront_total db (h4 t ht) n
          rw [hb]; simp
        · simp
    · refine ⟨_, hread, hB hc, h2, ?_⟩
      apply hsome ls _ h3
      intro u hu
      obtain ⟨t, ht, rfl⟩ := List.mem_map.1 hu
      simp

/-- A form feed in the input makes the program dereference a NULL pointer. -/
theorem C48_control_character_disagrees :
    ∃ i, readAllInput sampleDb {} 0 [lit "a\x0cb\n"] = .ok i ∧ analyzeInput sampleDb {} {} [] i = .ub := by
  refine ⟨_, rfl, ?_⟩; decide

example : ∀ s ∈ [lit "  ab\n", lit "\n", lit "\tcd"], ∀ c ∈ s, ¬ Forbidden sampleDb c := by decide

/-! ## C09 -/

private theorem columns_cons (db : CharDb) (c : Nat) (v : Str) : columns db (c :: v) = width db c + columns db v := by
  simp [columns]

private theorem columns_append' (db : CharDb) (v w : Str) : columns db (v ++ w) = columns db v + columns db w := by
  simp [columns]

/-- narrow blanks: leading blanks count as columns -/
theorem columns_take (db : CharDb) : ∀ (v : Str) (n : Nat), NarrowBlanks db v → n ≤ leadingBlanks db v →
    columns db (v.take n) = n ∧ n ≤ v.length
  | v, 0, _, _ => by simp [columns]
  | [], n + 1, _, h => by simp [leadingBlanks] at h
  | c :: v, n + 1, hn, h => by
    unfold leadingBlanks at h
    by_cases hc : Blank db c
    · rw [List.takeWhile_cons, if_pos (by simpa using hc)] at h
      obtain ⟨h1, h2⟩ := columns_take db v n (fun d hd => hn d (by simp [hd])) (by simp at h; exact h)
      rw [List.take_succ_cons, columns_cons, h1, hn c (by simp) hc]
      exact ⟨by omega, by simp; omega⟩
    · rw [List.takeWhile_cons, if_neg (by simpa using hc)] at h
      simp at h

theorem indent_narrow (db : CharDb) (v : Str) (h : NarrowBlanks db v) :
    columns db (v.takeWhile (fun c => decide (Blank db c))) = leadingBlanks db v := by
  have h1 := (columns_take db v (leadingBlanks db v) h (Nat.le_refl _)).1
  have h2 : v.take (leadingBlanks db v) = v.takeWhile (fun c => decide (Blank db c)) := by
    unfold leadingBlanks
    exact (List.prefix_iff_eq_take.1 (List.takeWhile_prefix _)).symm
  rw [← h2, h1]

/-- C09: common indentation when drawing a box (the input lines are the texts `p.1` with visible part `p.2`; `f p` is the
new text of the line).  The least indentation `n` of the lines that have columns is found, every such line loses exactly
`n` leading blanks, lines without columns stay as they are, and the longest line is that of the new lines. -/
theorem C09_indentation (db : CharDb) (opt : Opt) (d : Design) (hi : d.indentmode ≠ 't') (hr : opt.r = false) (i : Input)
    (ls : List (Str × Str)) (hne : ls ≠ []) (hl : i.lines.map Line.text = ls.map (fun p => fromUnicode db p.1))
    (ht : ∀ p ∈ ls, Text p.1 p.2 ∧ (∀ c ∈ p.2, ¬ Forbidden db c) ∧ NarrowBlanks db p.2) :
    ∃ (j : Input) (n : Nat) (f : Str × Str → Str), analyzeInput db opt d [] i = .ok j ∧ j.indent = n ∧ j.finalNewline = i.finalNewline ∧
      (∀ p ∈ ls, 0 < columns db p.2 → n ≤ leadingBlanks db p.2) ∧
      ((∃ p ∈ ls, 0 < columns db p.2) → n = 16382 ∨ ∃ p ∈ ls, 0 < columns db p.2 ∧ leadingBlanks db p.2 = n) ∧
      ((∀ p ∈ ls, columns db p.2 = 0) → n = 0) ∧
      j.lines.map Line.text = ls.map (fun p => fromUnicode db (f p)) ∧
      j.lines.map Line.tabpos = i.lines.map Line.tabpos ∧
      (∀ p ∈ ls,
        (n ≤ leadingBlanks db p.2 ∧ Text (f p) (p.2.drop n) ∧ f p <:+ p.1 ∧ (n = 0 → p.2 ≠ [] → f p = p.1) ∧ (0 < n → From n p.1 p.2 (f p)) ∧
          columns db p.2 = n + columns db (p.2.drop n)) ∨
        (columns db p.2 = 0 ∧ 0 < n ∧ f p = p.1)) ∧
      (∀ p ∈ ls, columns db p.2 - n ≤ j.maxline) ∧ (∃ p ∈ ls, columns db p.2 - n = j.maxline) := by
  have hex : ∀ (ls : List (Str × Str)), (∀ p ∈ ls, Text p.1 p.2 ∧ (∀ c ∈ p.2, ¬ Forbidden db c) ∧ NarrowBlanks db p.2) →
      ls.map (fun p => fromUnicode db p.1) = (ls.map (fun p => (fromUnicode db p.1).getD emptyBxs)).map some := by
    intro ls h
    rw [List.map_map]
    apply List.map_congr_left
    intro p hp
    obtain ⟨h1, h2, -⟩ := h p hp
    cases hb : fromUnicode db p.1 with
    | some b => simp [hb]
    | none => obtain ⟨c, hc, hf⟩ := (C01_rejected_iff db h1).1 hb; exact absurd hf (h2 c hc)
  have hb : ∀ p ∈ ls, ∃ b, fromUnicode db p.1 = some b ∧ b.cols = columns db p.2 ∧ b.indent = leadingBlanks db p.2 ∧
      b.vis = p.2.length := by
    intro p hp
    obtain ⟨h1, h2, h3⟩ := ht p hp
    cases hb : fromUnicode db p.1 with
    | some b =>
      obtain ⟨-, -, m3, -, m1, -, m2, -⟩ := C01_metrics db h1 hb
      exact ⟨b, rfl, m1, by rw [m2, indent_narrow db _ h3], m3⟩
    | none => obtain ⟨c, hc, hf⟩ := (C01_rejected_iff db h1).1 hb; exact absurd hf (h2 c hc)
  have hT : HasTexts i.lines (ls.map (fun p => (fromUnicode db p.1).getD emptyBxs)) := by
    unfold HasTexts; rw [hl]; exact hex ls ht
  have hine : i.lines ≠ [] := by
    intro h
    rw [h] at hl
    simp at hl
    exact hne hl
  have hle : ∀ p ∈ ls, leadingBlanks db p.2 ≤ columns db p.2 := by
    intro p hp
    obtain ⟨-, -, h3⟩ := ht p hp
    obtain ⟨e1, e2⟩ := columns_take db p.2 (leadingBlanks db p.2) h3 (Nat.le_refl _)
    have : columns db p.2 = columns db (p.2.take (leadingBlanks db p.2)) + columns db (p.2.drop (leadingBlanks db p.2)) := by
      rw [← columns_append', List.take_append_drop]
    omega
  obtain ⟨n, m, hci, hm1, hm2, hnm, hA, -⟩ := analyzeInput_eq db opt d i _ hT hine (by
    intro t ht'
    obtain ⟨p, hp, rfl⟩ := List.mem_map.1 ht'
    obtain ⟨b, e, e1, e2, -⟩ := hb p hp
    rw [e]; simp only [Option.getD_some]; rw [e1, e2]; exact hle p hp)
  obtain ⟨ls', hj, htx, htab⟩ := hA ⟨hi, hr⟩
  have hn1 : ∀ p ∈ ls, 0 < columns db p.2 → n ≤ leadingBlanks db p.2 := by
    intro p hp hc
    obtain ⟨b, e, e1, e2, -⟩ := hb p hp
    have := hci.le b (List.mem_map.2 ⟨p, hp, by rw [e]; rfl⟩) (by omega)
    omega
  let g (p : Str × Str) : Option Bxs := unindented db n ((fromUnicode db p.1).getD emptyBxs)
  have hg : ∀ p ∈ ls, ∃ r, g p = some r ∧ fromUnicode db r.memory = some r ∧
      ((n ≤ leadingBlanks db p.2 ∧ Text r.memory (p.2.drop n) ∧ r.memory <:+ p.1 ∧ (n = 0 → p.2 ≠ [] → r.memory = p.1) ∧ (0 < n → From n p.1 p.2 r.memory) ∧
          columns db p.2 = n + columns db (p.2.drop n)) ∨
        (columns db p.2 = 0 ∧ 0 < n ∧ r.memory = p.1)) := by
    intro p hp
    obtain ⟨b, e, e1, e2, -⟩ := hb p hp
    obtain ⟨h1, h2, h3⟩ := ht p hp
    have hmem := (C01_metrics db h1 e).1
    show ∃ r, unindented db n ((fromUnicode db p.1).getD emptyBxs) = some r ∧ _
    rw [e]
    simp only [Option.getD_some, unindented]
    by_cases hc : b.cols ≥ n
    · rw [if_pos hc]
      obtain ⟨r, r1, r2, r3, r4, r5, r6⟩ := C06_cut_front db h1 e n
      have hnb : n ≤ leadingBlanks db p.2 := by
        by_cases h0 : 0 < columns db p.2
        · exact hn1 p hp h0
        · have : n = 0 := by omega
          omega
      refine ⟨r, r1, r2, Or.inl ⟨hnb, r3, r4, r5, r6, ?_⟩⟩
      have h4 := (columns_take db p.2 n h3 hnb).1
      have h5 : columns db p.2 = columns db (p.2.take n) + columns db (p.2.drop n) := by
        rw [← columns_append', List.take_append_drop]
      omega
    · rw [if_neg hc]
      refine ⟨b, rfl, by rw [hmem]; exact e, Or.inr ⟨?_, by omega, hmem⟩⟩
      by_cases h0 : 0 < columns db p.2
      · have h1 := hn1 p hp h0
        have h2 := hle p hp
        omega
      · omega
  refine ⟨_, n, fun p => ((g p).getD emptyBxs).memory, hj, rfl, rfl, hn1, ?_, ?_, ?_, htab, ?_, ?_, ?_⟩
  · rintro ⟨p, hp, hc⟩
    obtain ⟨b, e, e1, e2, -⟩ := hb p hp
    rcases hci.attained ⟨b, List.mem_map.2 ⟨p, hp, by rw [e]; rfl⟩, by omega⟩ with h | ⟨t, ht', hc', hin⟩
    · exact Or.inl h
    · obtain ⟨q, hq, rfl⟩ := List.mem_map.1 ht'
      obtain ⟨b', e', e1', e2', -⟩ := hb q hq
      rw [e'] at hc' hin
      simp only [Option.getD_some] at hc' hin
      exact Or.inr ⟨q, hq, by omega, by omega⟩
  · intro hz
    apply hci.none
    intro t ht'
    obtain ⟨q, hq, rfl⟩ := List.mem_map.1 ht'
    obtain ⟨b', e', e1', -⟩ := hb q hq
    rw [e']
    simp only [Option.getD_some]
    rw [e1']; exact hz q hq
  · simp only
    rw [htx, List.map_map]
    apply List.map_congr_left
    intro p hp
    obtain ⟨r, r1, r2, -⟩ := hg p hp
    show g p = _
    rw [r1]; simp [r2]
  · intro p hp
    obtain ⟨r, r1, r2, r3⟩ := hg p hp
    simp only [r1, Option.getD_some]
    exact r3
  · intro p hp
    obtain ⟨b, e, e1, -⟩ := hb p hp
    have := hm1 b (List.mem_map.2 ⟨p, hp, by rw [e]; rfl⟩)
    simp only
    omega
  · obtain ⟨t, ht', hc⟩ := hm2
    obtain ⟨q, hq, rfl⟩ := List.mem_map.1 ht'
    obtain ⟨b, e, e1, -⟩ := hb q hq
    rw [e] at hc
    simp only [Option.getD_some] at hc
    exact ⟨q, hq, by simp only; omega⟩

example : ∃ i j, readAllInput sampleDb {} 0 [lit "    ab\n", lit "\n", lit "  c d\n"] = .ok i ∧
    analyzeInput sampleDb {} {} [] i = .ok j ∧ j.indent = 2 ∧ j.maxline = 4 ∧
    j.lines.map Line.text = [fromUnicode sampleDb (lit "  ab"), some emptyBxs, fromUnicode sampleDb (lit "c d")] := by
  refine ⟨_, _, rfl, rfl, ?_⟩; decide

/-- C09: when text indentation is kept or a box is removed, the lines are untouched. -/
theorem C09_kept (db : CharDb) (opt : Opt) (d : Design) (h : d.indentmode = 't' ∨ opt.r = true) (i : Input)
    (ts : List Bxs) (hl : i.lines.map Line.text = ts.map some) (hne : ts ≠ []) (hin : ∀ t ∈ ts, t.indent ≤ t.cols) :
    ∃ j, analyzeInput db opt d [] i = .ok j ∧ j.lines = i.lines ∧ j.finalNewline = i.finalNewline ∧
      (∀ t ∈ ts, t.cols ≤ j.maxline) ∧ (∃ t ∈ ts, t.cols = j.maxline) ∧
      (∀ t ∈ ts, 0 < t.cols → j.indent ≤ t.indent) ∧
      ((∃ t ∈ ts, 0 < t.cols) → j.indent = 16382 ∨ ∃ t ∈ ts, 0 < t.cols ∧ t.indent = j.indent) ∧
      ((∀ t ∈ ts, t.cols = 0) → j.indent = 0) ∧ j.indent ≤ j.maxline := by
  have hine : i.lines ≠ [] := by
    intro h
    rw [h] at hl
    simp at hl
    exact hne hl
  obtain ⟨n, m, hci, hm1, hm2, hnm, -, hB⟩ := analyzeInput_eq db opt d i ts hl hine hin
  refine ⟨_, hB ?_, rfl, rfl, hm1, hm2, hci.le, hci.attained, hci.none, hnm⟩
  rintro ⟨h1, h2⟩
  rcases h with h | h
  · exact h1 h
  · rw [h] at h2; simp at h2

/-! ## C49 -/

/-- C49: whatever the replacement rules do, the longest-line value stays an upper bound of all line widths, and no line is
lost. -/
theorem C49_substitution_bound (db : CharDb) (d : Design) (rules : List Subst) (i j : Input)
    (h : applySubstitutions db d rules i = .ok j) (hb : ∀ l ∈ i.lines, ∀ t, l.text = some t → t.cols ≤ i.maxline) :
    j.lines.length = i.lines.length ∧ i.maxline ≤ j.maxline ∧ ∀ l ∈ j.lines, ∀ t, l.text = some t → t.cols ≤ j.maxline := by
  have hline : ∀ (rules : List Subst) (l l' : Line) (m m' : Nat), substLine db rules l m = .ok (l', m') →
      (∀ t, l.text = some t → t.cols ≤ m) → m ≤ m' ∧ ∀ t, l'.text = some t → t.cols ≤ m' := by
    intro rules
    induction rules with
    | nil => intro l l' m m' h hl; simp [substLine] at h; obtain ⟨rfl, rfl⟩ := h; exact ⟨Nat.le_refl _, hl⟩
    | cons f fs ih =>
      intro l l' m m' h hl
      simp only [substLine, Res.bind_eq_ok] at h
      obtain ⟨t, -, h⟩ := h
      cases hf : f t.memory with
      | none => rw [hf] at h; simp at h
      | some s =>
        rw [hf] at h
        simp only [Res.bind_eq_ok] at h
        obtain ⟨t', -, h⟩ := h
        obtain ⟨h1, h2⟩ := ih _ _ _ _ h (by intro u hu; simp at hu; subst hu; split <;> omega)
        exact ⟨by split at h1 <;> omega, h2⟩
  have hlines : ∀ (ls ls' : List Line) (m m' : Nat), substLines db rules ls m = .ok (ls', m') →
      (∀ l ∈ ls, ∀ t, l.text = some t → t.cols ≤ m) →
      ls'.length = ls.length ∧ m ≤ m' ∧ ∀ l ∈ ls', ∀ t, l.text = some t → t.cols ≤ m' := by
    intro ls
    induction ls with
    | nil => intro ls' m m' h _; simp [substLines] at h; obtain ⟨rfl, rfl⟩ := h; simp
    | cons l ls ih =>
      intro ls' m m' h hl
      simp only [substLines, Res.bind_eq_ok, Res.ok.injEq, Prod.mk.injEq] at h
      obtain ⟨q, h1, q', h2, rfl, rfl⟩ := h
      obtain ⟨a1, a2⟩ := hline rules l q.1 m q.2 h1 (hl l (by simp))
      obtain ⟨b1, b2, b3⟩ := ih q'.1 q.2 q'.2 h2 (fun k hk t ht => Nat.le_trans (hl k (by simp [hk]) t ht) a1)
      refine ⟨by simp [b1], by omega, ?_⟩
      intro k hk t ht
      rcases List.mem_cons.1 hk with rfl | hk
      · exact Nat.le_trans (a2 t ht) b2
      · exact b3 k hk t ht
  simp only [applySubstitutions, Res.bind_eq_ok] at h
  obtain ⟨q, h1, h2⟩ := h
  obtain ⟨a1, a2, a3⟩ := hlines i.lines q.1 i.maxline q.2 h1 hb
  split at h2
  · simp only [Res.bind_eq_ok, Res.ok.injEq] at h2
    obtain ⟨n, -, rfl⟩ := h2
    exact ⟨a1, a2, a3⟩
  · simp only [Res.ok.injEq] at h2
    subst h2
    exact ⟨a1, a2, a3⟩

example : ∃ j, applySubstitutions sampleDb {} [fun s => some (s ++ lit "!!"), fun _ => some (lit "x")]
    { lines := [{ text := some emptyBxs }] } = .ok j ∧ j.maxline = 2 := ⟨_, rfl, by decide⟩

end Boxes
