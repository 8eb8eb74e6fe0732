import Verif.Lemmas.Grammar
import Verif.Lemmas.Readable

/-!
# C61, C62: reading configuration files

* C61: a text is split into certain tokens exactly if it is written as the specification `Reads` says.
* C62: tokens are understood as declarations exactly if the grammar says so, and the text of a configuration file is understood as
  what it declares.
-/
set_option linter.unusedSimpArgs false
namespace Boxes
open Spec

/-- C61: The scanner finds certain tokens in a text exactly if the text consists of these tokens. -/
theorem C61_tokens (m : Mode) {d : Delims} (hd : ValidDelims d) (text : Str) (toks : List Token) (fuel : Nat) (hf : text.length < fuel) :
    scan fuel ⟨m, d⟩ text = some toks ↔ Reads m d text toks :=
  ⟨scan_reads fuel m d text toks hd hf, fun h => reads_scans h hd fuel hf⟩

/-- C61: a text can be read in one way only. -/
theorem C61_unique {m : Mode} {d : Delims} {text : Str} {toks toks' : List Token} (hd : ValidDelims d) (h : Reads m d text toks)
    (h' : Reads m d text toks') : toks = toks' := by
  have h1 := (C61_tokens m hd text toks _ (Nat.lt_succ_self _)).2 h
  have h2 := (C61_tokens m hd text toks' _ (Nat.lt_succ_self _)).2 h'
  rw [h1] at h2
  simpa using h2

/-- C61: Every text without a carriage return consists of tokens. -/
theorem C61_total (m : Mode) {d : Delims} (hd : ValidDelims d) (text : Str) (h : '\r'.toNat ∉ text) : ∃ toks, Reads m d text toks := by
  obtain ⟨toks, e⟩ := scan_some (text.length + 1) m d text hd h
  exact ⟨toks, (C61_tokens m hd text toks _ (Nat.lt_succ_self _)).1 e⟩

theorem file_complete {ds : List Decl} {toks : List Token} (h : FileTokens ds toks) : ∀ fuel, toks.length < fuel →
    declarations fuel toks = ds := by
  induction h with
  | nil => intro fuel hf; cases fuel <;> rfl
  | parent p h ih =>
    intro fuel hf
    cases fuel with
    | zero => simp at hf
    | succ f =>
      simp only [declarations]
      rw [ih f (by simp at hf; omega)]
  | @design n as is n' ds t ts h h2 ih =>
    cases h with | @mk tl hne hl =>
    intro fuel hf
    cases fuel with
    | zero => simp at hf
    | succ f =>
      have hal := (aliasNames_iff (as.flatMap (fun a => [Token.sym ','.toNat, Token.asciiId a]) ++
        (tl ++ Token.endBox :: Token.asciiId n' :: ts)) as (tl ++ Token.endBox :: Token.asciiId n' :: ts)).2 ⟨rfl, by
          intro r
          cases hl with
          | nil => simp
          | cons h1 h2 =>
            obtain ⟨-, c, r', rfl, -, hc⟩ := itemTokens_head h1
            simp
            intro e
            exact absurd e (hc _)⟩
      have hit := layoutItems_complete hl ((tl ++ Token.endBox :: Token.asciiId n' :: ts).length + 1) n' ts (by simp; omega)
      have e : Token.box :: Token.asciiId n :: (as.flatMap (fun a => [Token.sym ','.toNat, Token.asciiId a]) ++ tl ++
          [Token.endBox, Token.asciiId n']) ++ ts = Token.box :: Token.asciiId n ::
          (as.flatMap (fun a => [Token.sym ','.toNat, Token.asciiId a]) ++ (tl ++ Token.endBox :: Token.asciiId n' :: ts)) := by simp
      rw [e]
      simp only [declarations]
      rw [hal]
      simp only [hit, if_neg hne]
      rw [ih f (by simp at hf; omega)]
  | @junk t ds ts h1 h2 h ih =>
    intro fuel hf
    cases fuel with
    | zero => simp at hf
    | succ f =>
      have := ih f (by simp at hf; omega)
      unfold declarations
      split
      · simp_all
      · rename_i e
        simp at e
        exact absurd e.2 (h2 e.1 _ _)
      · rename_i e
        simp at e
        exact absurd e.2 (h1 e.1 _ _)
      · rename_i e
        simp at e
        rw [← e.2, this]
  | @flawed n as is ds t ts hl hn hc h ih =>
    intro fuel hf
    cases fuel with
    | zero => simp at hf
    | succ f =>
      have hal := (aliasNames_iff (aliasTokens as ++ (t ++ ts)) as (t ++ ts)).2 ⟨rfl, hc⟩
      have hit := layoutItems_flawed hl ((t ++ ts).length + 1) ts hn (by simp; omega)
      rw [List.append_assoc]
      simp only [declarations]
      rw [hal]
      simp only [hit]
      rw [if_neg (by simp), ih f (by simp at hf; omega)]
  | @nothing n as n' ds ts h ih =>
    intro fuel hf
    cases fuel with
    | zero => simp at hf
    | succ f =>
      have hal := (aliasNames_iff (aliasTokens as ++ .endBox :: .asciiId n' :: ts) as (.endBox :: .asciiId n' :: ts)).2 ⟨rfl, by simp⟩
      simp only [declarations]
      rw [hal]
      simp only [layoutItems, if_true]
      rw [ih f (by simp at hf; omega)]
  | @noAlias n as ds ts hn h ih =>
    intro fuel hf
    cases fuel with
    | zero => simp at hf
    | succ f =>
      have hal := (aliasNames_none (aliasTokens as ++ .sym ','.toNat :: ts)).2 ⟨as, ts, rfl, hn⟩
      simp only [declarations]
      rw [hal]
      simp only
      rw [ih f (by simp at hf ⊢; omega)]

theorem layoutItems_length : ∀ (fuel : Nat) (toks : List Token), (layoutItems fuel toks).2.2.length ≤ toks.length
  | 0, toks => by simp [layoutItems]
  | fuel + 1, toks => by
    unfold layoutItems
    split
    · simp; omega
    · split
      · rename_i i rest hi
        obtain ⟨t, -, rfl⟩ := firstItem_sound _ _ _ hi
        have := layoutItems_length fuel rest
        show (layoutItems fuel rest).2.2.length ≤ _
        simp only [List.length_append]
        omega
      · simp

theorem file_sound : ∀ (fuel : Nat) (toks : List Token), toks.length < fuel → FileTokens (declarations fuel toks) toks
  | 0, _, hf => by simp at hf
  | fuel + 1, toks, hf => by
    unfold declarations
    split
    · exact .nil
    · rename_i p rest
      exact .parent p (file_sound fuel rest (by simp at hf; omega))
    · rename_i n rest
      split
      · rename_i hal
        obtain ⟨as, ts, e, h⟩ := (aliasNames_none rest).1 hal
        have := file_sound fuel rest (by simp at hf; omega)
        rw [e] at this ⊢
        exact .noAlias n as h this
      · rename_i as rest' ha
        rw [aliasNames_iff] at ha
        dsimp only
        generalize hl : layoutItems (rest'.length + 1) rest' = q
        obtain ⟨is, n', rest''⟩ := q
        have hlen := layoutItems_length (rest'.length + 1) rest'
        rw [hl] at hlen
        have hrec := file_sound fuel rest'' (by
          have := congrArg List.length ha.1
          simp at this hf hlen
          omega)
        dsimp only
        rcases layoutItems_cases _ _ _ _ _ (Nat.lt_succ_self _) hl with ⟨t, ht, e⟩ | ⟨is0, t, rfl, rfl, ht, e, hn⟩
        · rw [ha.1, e]
          by_cases hne : is = []
          · subst hne
            cases ht
            rw [if_pos rfl, List.nil_append]
            exact .nothing n as n' hrec
          · rw [if_neg hne]
            simpa using FileTokens.design (.mk n as n' hne ht) hrec
        · rw [if_neg (by simp), ha.1, e, ← List.append_assoc]
          exact .flawed n as ht hn (fun r h => ha.2 r (e.trans h)) hrec
    · rename_i t rest h1 h2
      exact .junk t (by rintro rfl n r rfl; exact h2 _ _ rfl rfl) (by rintro rfl n r rfl; exact h1 _ _ rfl rfl)
        (file_sound fuel rest (by simp at hf; omega))

/-- C62: The declarations found in a list of tokens are exactly those of the grammar. -/
theorem C62_grammar (toks : List Token) (ds : List Decl) :
    FileTokens ds toks ↔ declarations (toks.length + 1) toks = ds := by
  constructor
  · intro h
    exact file_complete h _ (Nat.lt_succ_self _)
  · rintro rfl
    exact file_sound _ _ (Nat.lt_succ_self _)

/-- C62: a configuration file is understood as what it declares, and in no other way. -/
theorem C62_read (text : Str) (ds : List Decl) :
    readDecls text = some ds ↔ ∃ toks, Reads .initial standard text toks ∧ FileTokens ds toks := by
  unfold readDecls
  have : ({} : Scanner) = ⟨.initial, standard⟩ := rfl
  rw [this, Option.map_eq_some_iff]
  simp only [C61_tokens .initial validDelims_standard text _ _ (Nat.lt_succ_self _), C62_grammar]

/-- C62: Every text without a carriage return is understood as some declarations. -/
theorem C62_total (text : Str) (h : '\r'.toNat ∉ text) : ∃ ds, readDecls text = some ds := by
  obtain ⟨toks, e⟩ := C61_total .initial validDelims_standard text h
  exact ⟨_, (C62_read _ _).2 ⟨toks, e, (C62_grammar _ _).2 rfl⟩⟩

/-! ### Where the code differs -/

/-- A carriage return alone is white space, but if it follows the word `parent`, the scanner exits (src/lexer.l:210-227). -/
theorem C61_exit_disagrees : readDecls (lit "parent\rx\n") = none ∧ readDecls (lit "\rparent x\r\n") = some [.parent (lit " x")] := by
  decide +kernel

/-- A sample is expected to be any text up to a line `ends`.  If a line of the sample ends in the letters `ends`, the sample ends
there and its text is lost, which is a syntax error (src/lexer.l:286). -/
theorem C61_sample_disagrees :
    readDecls (lit "BOX a\nsample\n my friends\nends\nend a\n") = some [.box (lit "a") [] [.bad] []] ∧
    readDecls (lit "BOX a\nsample\n my friend\nends\nend a\n") = some [.box (lit "a") [] [.sample (lit " my friend\n")] (lit "a")] := by
  decide +kernel

/-- A comment on the last line is not a comment if the line break is missing: the words in it are tokens. -/
theorem C61_comment_disagrees :
    readDecls (lit "# no parent x") = some [.parent (lit " x")] ∧ readDecls (lit "# no parent x\n") = some [] := by
  decide +kernel

/-- A byte order mark is skipped, but not in front of a word. -/
theorem C61_bom_disagrees :
    readDecls (0xfeff :: lit "parent x\n") = some [] ∧ readDecls (0xfeff :: lit "\nparent x\n") = some [.parent (lit " x")] := by
  decide +kernel

/-! ### Examples -/

theorem apart_cons {c : Nat} {r : Str} (h : isWordChar c = false) : Apart (c :: r) := by
  intro c' r' e
  simp at e
  obtain ⟨rfl, rfl⟩ := e
  rw [← isWordChar_iff, h]
  simp

theorem asciiWord_of {c : Nat} {r : Str} (h : isLetter c = true) (h' : ∀ x ∈ c :: r, isWordChar x = true ∧ x < 0x80) : AsciiWord (c :: r) :=
  ⟨⟨c, r, rfl, (isLetter_iff c).1 h⟩, fun x hx => ⟨(isWordChar_iff x).1 (h' x hx).1, (h' x hx).2⟩⟩

/-- the text of a configuration file, in pieces -/
def exampleText : Str :=
  lit "# c" ++ 10 :: (lit "Box" ++ 32 :: (lit "a" ++ 10 :: (lit "sample" ++ (lit "\n--\n" ++ lit " " ++ lit "Ends\r" ++ 10 ::
    (lit "PADDING" ++ 32 :: 123 :: (lit "all" ++ 32 :: 45 :: (lit "12" ++ 125 :: 10 ::
      (lit "elastic" ++ 40 :: (lit "NW" ++ 41 :: 10 :: (lit "tags" ++ 34 :: (lit "x" ++ 34 :: 10 ::
        (lit "END" ++ 32 :: (lit "a" ++ [10])))))))))))))

example : exampleText = lit "# c\nBox a\nsample\n--\n Ends\r\nPADDING {all -12}\nelastic(NW)\ntags\"x\"\nEND a\n" := by decide

/-- the specification `Reads` holds of the text of a configuration file -/
theorem exampleText_reads : Reads .initial standard exampleText
    [.box, .asciiId (lit "a"), .sample, .sampleText (lit "--\n "), .endSample, .padding, .sym 123, .asciiId (lit "all"), .number (-12),
      .sym 125, .elastic, .sym 40, .shape .NW, .sym 41, .tags, .string (lit "x"), .endBox, .asciiId (lit "a")] := by
  have ap : ∀ {c : Nat} {r : Str}, isWordChar c = false → Apart (c :: r) := fun h => apart_cons h
  have wh : ∀ {c : Nat}, isPwhite c = true → White c := fun {c} h => (isPwhite_iff c).1 h
  have dg : ∀ {c : Nat}, isDigit c = true → Digit c := fun {c} h => (isDigit_iff' c).1 h
  have ne : ∀ (l : List String) (w : Str), (∀ k ∈ l, strCaseEq w (lit k) = false ∧ (lit k).map toLower = lit k) → ∀ k ∈ l, ¬ Word k w := by
    intro l w h k hk hw
    have h1 := strCaseEq_word hw k
    rw [(h k hk).1] at h1
    simp at h1
    exact h1 (h k hk).2.symm
  unfold exampleText
  refine .comment (lit " c") (by decide) (by decide) (.white 10 (by decide) (wh (by decide)) ?_)
  refine .box (lit "Box") rfl (ap (by decide)) (.white 32 (by decide) (wh (by decide)) ?_)
  refine .innerName (lit "a") (asciiWord_of (by decide) (by decide)) (ne _ _ (by decide)) (ap (by decide))
    (.white 10 (by decide) (wh (by decide)) ?_)
  refine .sample (lit "sample") rfl (ap (by decide)) ?_
  refine .sampleText (lit "\n--\n") (lit " ") (lit "Ends\r") ⟨lit "\n--", by decide⟩ (by decide) ⟨lit "Ends", lit "\r", rfl, rfl, by decide⟩ ?_
    (.white 10 (by decide) (wh (by decide)) ?_)
  · rintro x y z e ⟨w, t, rfl, hw, -⟩
    have h1 : w.length = 4 := by
      have := congrArg List.length hw
      simpa using this
    have h2 := congrArg List.length e
    simp [h1] at h2
    have : (lit "\n--\n").length = 4 := by decide
    omega
  refine .plain (lit "PADDING") "padding" _ (by decide) rfl (ap (by decide)) (.white 32 (by decide) (wh (by decide)) ?_)
  refine .symbol 123 (by decide) (by decide) (by decide) (by decide) ?_
  refine .innerName (lit "all") (asciiWord_of (by decide) (by decide)) (ne _ _ (by decide)) (ap (by decide))
    (.white 32 (by decide) (wh (by decide)) ?_)
  refine .signed (lit "12") 45 (by decide) ?_ ?_ (by decide) ?_
  · intro c hc; exact dg (List.all_eq_true.1 (by decide : (lit "12").all isDigit = true) c hc)
  · intro c r e
    simp at e
    rw [← e.1, ← isDigit_iff']
    decide
  refine .symbol 125 (by decide) (by decide) (by decide) (by decide) (.white 10 (by decide) (wh (by decide)) ?_)
  refine .elastic (lit "elastic") rfl (ap (by decide)) (.symbol 40 (by decide) (by decide) (by decide) (by decide) ?_)
  refine .shape (lit "NW") "nw" .NW (by decide) (by decide) rfl ?_ (.closeElastic (.white 10 (by decide) (wh (by decide)) ?_))
  · refine longestShape_apart (k := "nw") (n := .NW) (by decide) rfl ?_
    intro c r e
    simp at e
    rw [← e.1, ← isLetter_iff]
    decide
  refine .plain (lit "tags") "tags" _ (by decide) rfl (ap (by decide)) ?_
  refine .string (lit "x") (lit "x") (by decide) ?_ (by decide) (by decide) (.white 10 (by decide) (wh (by decide)) ?_)
  · exact .plain _ (by decide) (by decide) .nil
  refine .endBox (lit "END") rfl (ap (by decide)) (.white 32 (by decide) (wh (by decide)) ?_)
  refine .outerName (lit "a") (asciiWord_of (by decide) (by decide)) (ne _ _ (by decide)) (ap (by decide))
    (.white 10 (by decide) (wh (by decide)) (.nil _ _ (by decide)))

/-- the hypotheses of `C62_read` hold of the text of a configuration file -/
example : readDecls exampleText = some [.box (lit "a") [] [.sample (lit "--\n "), .padding [(lit "all", -12)], .elastic [.NW], .tags [lit "x"]]
    (lit "a")] := by
  refine (C62_read _ _).2 ⟨_, exampleText_reads, ?_⟩
  rw [C62_grammar]
  decide

end Boxes
