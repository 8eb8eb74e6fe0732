import Verif.Props.Logging
import Verif.Props.Cmdline
import Verif.Model.Messages
import Verif.Spec.Messages

set_option linter.unusedSimpArgs false
set_option linter.unusedVariables false

namespace Boxes
open Spec

theorem complain_eq (r : String) (s : Str) : complain (lit r ++ s) = tells r s := by
  unfold complain tells say
  rw [← List.append_assoc]
  rfl

theorem complain_lit (r : String) : complain (lit r) = tells r [] := by
  have := complain_eq r []
  rwa [List.append_nil] at this

theorem tells_ne (r : String) (s : Str) : tells r s ≠ [] := by simp [tells]

theorem usageShort_eq : usageShort = usageHint := by decide

theorem decimalInt_eq (v : Int) : decimalInt v = integer10 v := by
  unfold decimalInt integer10
  split
  · rfl
  · rename_i h
    have : v.toNat = v.natAbs := by omega
    rw [this]; rfl

/-- the terms that were collected are fine, then what the loop prints is about the next one -/
theorem parseQueryLoop_says : ∀ (l query : List Str) (pos : Bool), (∀ t ∈ (l.map strip).filter (fun t => decide (t ≠ [])), 0x0a ∉ t) →
    FineTerms query → parseQueryLoop l query pos = none →
    ∃ pre t post, (l.map strip).filter (fun t => decide (t ≠ [])) = pre ++ t :: post ∧ FineTerms (query ++ pre) ∧
      ((¬ TagTerm t ∧ parseQueryLoopMessage l query = tells "not a tag -- " (bare t)) ∨
       (TagTerm t ∧ (∃ e ∈ query ++ pre, SameName (bare e) (bare t)) ∧ parseQueryLoopMessage l query = tells "duplicate query expression -- " t)) := by
  intro l
  induction l with
  | nil => intro query pos _ _ h; simp [parseQueryLoop] at h
  | cons q rest ih =>
    intro query pos hn hf h
    rw [parseQueryLoop, trimdup_strip] at h
    simp only [Option.bind_eq_bind, Option.bind_some] at h
    rw [parseQueryLoopMessage, trimdup_strip]
    simp only
    by_cases he : strip q = []
    · rw [if_pos (by simp [he])] at h ⊢
      have e : ((q :: rest).map strip).filter (fun t => decide (t ≠ [])) = (rest.map strip).filter (fun t => decide (t ≠ [])) := by simp [he]
      rw [e] at hn ⊢
      exact ih query pos hn hf h
    · have e : ((q :: rest).map strip).filter (fun t => decide (t ≠ [])) = strip q :: (rest.map strip).filter (fun t => decide (t ≠ [])) := by simp [he]
      rw [e] at hn ⊢
      rw [if_neg (by simpa using he)] at h ⊢
      rw [rawTag_eq] at h ⊢
      have hnq : 0x0a ∉ bare (strip q) := by
        intro hm
        refine hn (strip q) List.mem_cons_self ?_
        unfold bare at hm
        split at hm
        · simp at hm
        · split at hm
          · rename_i hx _; rw [hx]; exact List.mem_cons_of_mem _ hm
          · rename_i hx _; exact hm
      have htag : validateTag (bare (strip q)) = true ↔ TagTerm (strip q) := by
        rw [validateTag_iff]
        unfold TagTerm
        rw [(C41_exact (bare (strip q)) hnq).1]
      by_cases hv : validateTag (bare (strip q)) = true
      · rw [if_neg (by simp [hv])] at h ⊢
        by_cases hd : query.any (fun e => strCaseEq (rawTag e) (bare (strip q))) = true
        · rw [if_pos hd]
          refine ⟨[], strip q, _, rfl, by simpa using hf, .inr ⟨htag.1 hv, ?_, complain_eq _ _⟩⟩
          obtain ⟨x, hx, hs⟩ := List.any_eq_true.1 hd
          rw [rawTag_eq] at hs
          exact ⟨x, by simpa using hx, (sameName_iff _ _).1 hs⟩
        · rw [if_neg hd] at h ⊢
          have hf' : FineTerms (query ++ [strip q]) := by
            refine ⟨?_, ?_⟩
            · intro t ht
              rcases List.mem_append.1 ht with ht | ht
              · exact hf.1 t ht
              · rw [List.mem_singleton.1 ht]; exact htag.1 hv
            · rw [List.pairwise_append]
              refine ⟨hf.2, by simp, ?_⟩
              intro x hx y hy hs
              rw [List.mem_singleton.1 hy] at hs
              exact hd (List.any_eq_true.2 ⟨x, hx, by rw [rawTag_eq]; exact (sameName_iff _ _).2 hs⟩)
          obtain ⟨pre, t, post, h1, h2, h3⟩ := ih _ _ (fun t ht => hn t (List.mem_cons_of_mem _ ht)) hf' h
          refine ⟨strip q :: pre, t, post, by rw [h1]; rfl, ?_, ?_⟩
          · rw [List.append_assoc] at h2; exact h2
          · rw [List.append_assoc] at h3; exact h3
      · rw [if_pos (by simp [hv])]
        exact ⟨[], strip q, _, rfl, by simpa using hf, .inl ⟨fun ht => hv (htag.2 ht), complain_eq _ _⟩⟩

theorem query_explained (s : Str) (hn : 0x0a ∉ s) (h : parseQuery s = none) : Explains (.query s) (parseQueryMessage s) := by
  unfold parseQuery at h
  unfold parseQueryMessage
  cases hl : parseQueryLoop (strtokComma [] s) [] false with
  | none =>
    simp only
    obtain ⟨pre, t, post, h1, h2, h3⟩ := parseQueryLoop_says _ [] false
      (by rw [terms_eq]; exact fun t ht hm => hn (mem_terms_sub ht 0x0a hm)) ⟨by simp, .nil⟩ hl
    rw [terms_eq] at h1
    rw [List.nil_append] at h2 h3
    rcases h3 with ⟨a, b⟩ | ⟨a, b, c⟩
    · rw [b]; exact .noTag h1 h2 a
    · rw [c]; exact .twice h1 h2 a b
  | some r =>
    obtain ⟨q, pos⟩ := r
    rw [hl] at h
    simp only [Option.bind_eq_bind, Option.bind_some] at h ⊢
    by_cases hz : q.length = 0
    · rw [if_pos hz, complain_eq]
      refine .noTerm ?_
      have hq := parseQueryLoop_eq (strtokComma [] s) [] false
      simp only at hq
      rw [terms_eq] at hq
      by_cases ha : Accept (terms s) []
      · have := hq.1 ha
        rw [hl] at this
        simp only [List.nil_append, Option.some.injEq, Prod.mk.injEq] at this
        rw [← this.1]
        exact List.length_eq_zero_iff.1 hz
      · rw [hq.2 ha] at hl; cases hl
    · rw [if_neg hz] at h
      split at h <;> cases h

theorem query_silent (s : Str) {q : List Str} (h : parseQuery s = some q) : parseQueryMessage s = [] := by
  unfold parseQuery at h
  unfold parseQueryMessage
  cases hl : parseQueryLoop (strtokComma [] s) [] false with
  | none => rw [hl] at h; cases h
  | some r =>
    rw [hl] at h
    simp only [Option.bind_eq_bind, Option.bind_some] at h ⊢
    split at h
    · cases h
    · rename_i hz; rw [if_neg hz]

theorem size_explained (o : Opt) (s : Str) (h : sizeOfBox o s = none) : Explains (.size s) (sizeOfBoxMessage o s) := by
  unfold sizeOfBoxMessage
  rw [h, Option.isNone_none, if_pos rfl, complain_eq]
  have hsplit : ∀ k : Nat, k ∈ s → ∃ a b, s = a ++ k :: b ∧ k ∉ a ∧ s.takeWhile (· != k) = a ∧ (s.dropWhile (· != k)).drop 1 = b := by
    intro k hk
    obtain ⟨a, b, hab, hna⟩ := first_occurrence hk
    obtain ⟨h1, h2⟩ := takeWhile_append_stop (p := (· != k)) a (k :: b)
      (by intro c hc; simp; rintro rfl; exact hna hc) (by simp)
    refine ⟨a, b, hab, hna, by rw [hab, h1], by rw [hab, h2]; rfl⟩
  unfold withX splitAtX
  by_cases hx : 0x78 ∈ s
  · rw [if_pos hx]
    obtain ⟨a, b, hab, -, h1, h2⟩ := hsplit 0x78 hx
    rw [h1, h2]
    simp only
    rw [← hab]
    exact .size (.inl hx)
  · rw [if_neg hx]
    by_cases hX : 0x58 ∈ s
    · rw [if_pos hX]
      obtain ⟨a, b, hab, hna, h1, h2⟩ := hsplit 0x58 hX
      rw [h1, h2]
      simp only
      rw [hab]
      have hb : 0x78 ∉ b := fun hh => hx (by rw [hab]; simp [hh])
      have ha : 0x78 ∉ a := fun hh => hx (by rw [hab]; simp [hh])
      exact .sizeUpper ha hb hna
    · rw [if_neg hX]
      exact .size (.inr hX)

theorem distance_of (s : Str) : Distance s (toInt (strtol s).value) := by
  rcases strtol_cases s with ⟨v, rest, hb, hst⟩ | ⟨hst, hn⟩
  · refine ⟨v, .inl ⟨rest, hb⟩, ?_⟩
    have : (strtol s).value = max (-(2 ^ 63)) (min (2 ^ 63 - 1) v) := by
      rw [hst]
      unfold clamped longMax
      split
      · simp only; omega
      · split <;> (simp only; omega)
    rw [this]
    exact toInt_wraps _
  · refine ⟨0, .inr ⟨rfl, hn⟩, ?_⟩
    rw [hst]
    exact toInt_wraps _

theorem tabs_explained (o : Opt) (s : Str) (h : tabHandling o s = none) : Explains (.tabs s) (tabHandlingMessage o s) := by
  unfold tabHandlingMessage
  simp only
  by_cases hw : toInt (strtol s).value < 1 ∨ toInt (strtol s).value > maxTabstop
  · rw [if_pos hw, complain_eq, decimalInt_eq]
    exact .distance (distance_of s) (by unfold maxTabstop at hw; omega)
  · rw [if_neg hw, h, Option.isNone_none, if_pos rfl, complain_eq]
    exact .tabs (distance_of s) (by omega) (by unfold maxTabstop at hw; omega)

theorem tabs_silent (o o' : Opt) (s : Str) (h : tabHandling o s = some o') : tabHandlingMessage o s = [] := by
  unfold tabHandlingMessage
  simp only
  have hw : ¬ (toInt (strtol s).value < 1 ∨ toInt (strtol s).value > maxTabstop) := by
    intro hw
    unfold tabHandling at h
    simp only at h
    rw [if_pos hw] at h
    cases h
  rw [if_neg hw, h, Option.isNone_some]
  rfl

theorem known_area (t : Str) : (strCaseEq t (lit "ALL") || logAreaNames.any (strCaseEq t ·)) = true ↔ ∃ k, Names t k := by
  rw [Bool.or_eq_true, all_named, List.any_eq_true]
  constructor
  · rintro (h | ⟨w, hw, h⟩)
    · exact ⟨.main, .inr h⟩
    · obtain ⟨i, hi, rfl⟩ := List.getElem_of_mem hw
      obtain ⟨k, hk⟩ := topic_of_num (show i < 5 from hi)
      refine ⟨k, .inl ((topic_names t k _ ?_).1 h)⟩
      rw [hk]
      exact List.getElem?_eq_getElem hi
  · rintro ⟨k, h | h⟩
    · right
      have hi : topicNum k < logAreaNames.length := topicNum_lt k
      exact ⟨logAreaNames[topicNum k], List.getElem_mem hi, (topic_names t k _ (List.getElem?_eq_getElem hi)).2 h⟩
    · exact .inl h

theorem debugLoop_says : ∀ l : List Str, (∃ t ∈ (l.map strip).filter (fun t => decide (t ≠ [])), ∀ k, ¬ Names t k) →
    ∃ pre t post, (l.map strip).filter (fun t => decide (t ≠ [])) = pre ++ t :: post ∧ (∀ e ∈ pre, ∃ k, Names e k) ∧ (∀ k, ¬ Names t k) ∧
      debugLoopMessage l = tells "invalid debug area -- " (t ++ say ". Valid values: ALL, MAIN, REGEXP, PARSER, LEXER, DISCOVERY") := by
  intro l
  induction l with
  | nil => rintro ⟨t, ht, -⟩; simp at ht
  | cons q rest ih =>
    intro h
    rw [debugLoopMessage, trimdup_strip]
    simp only
    by_cases he : strip q = []
    · rw [if_pos (by simp [he])]
      have e : ((q :: rest).map strip).filter (fun t => decide (t ≠ [])) = (rest.map strip).filter (fun t => decide (t ≠ [])) := by simp [he]
      rw [e] at h ⊢
      exact ih h
    · have e : ((q :: rest).map strip).filter (fun t => decide (t ≠ [])) = strip q :: (rest.map strip).filter (fun t => decide (t ≠ [])) := by simp [he]
      rw [e] at h ⊢
      rw [if_neg (by simpa using he)]
      by_cases hk : ∃ k, Names (strip q) k
      · rw [if_pos ((known_area _).2 hk)]
        have h' : ∃ t ∈ (rest.map strip).filter (fun t => decide (t ≠ [])), ∀ k, ¬ Names t k := by
          obtain ⟨t, ht, hn⟩ := h
          rcases List.mem_cons.1 ht with rfl | ht
          · obtain ⟨k, hk⟩ := hk; exact absurd hk (hn k)
          · exact ⟨t, ht, hn⟩
        obtain ⟨pre, t, post, h1, h2, h3, h4⟩ := ih h'
        refine ⟨strip q :: pre, t, post, by rw [h1]; rfl, ?_, h3, h4⟩
        intro e he
        rcases List.mem_cons.1 he with rfl | he
        · exact hk
        · exact h2 e he
      · rw [if_neg (fun hh => hk ((known_area _).1 hh))]
        refine ⟨[], strip q, _, rfl, by simp, fun k hn => hk ⟨k, hn⟩, ?_⟩
        have e1 : lit ". Valid values: " ++ areaList (lit "ALL" :: logAreaNames) =
            say ". Valid values: ALL, MAIN, REGEXP, PARSER, LEXER, DISCOVERY" ++ ['\n'.toNat] := by decide
        unfold tells
        have e2 : ∀ a b c d e f : Str, c ++ d = e ++ f → ∀ x, a ++ (b ++ x ++ c) ++ d = a ++ b ++ (x ++ e) ++ f := by
          intro a b c d e f h x
          simp only [List.append_assoc, h]
        exact e2 _ _ _ _ _ _ e1 _

theorem beyond_eq (s : Str) : (if strnEq 7 s (lit "(undoc)") then s.drop 7 else s) = beyondUndoc s := by
  have hu : strnEq 7 s (lit "(undoc)") = true ↔ undocWord <+: s := strnEq_len_prefix (lit "(undoc)") s
  unfold beyondUndoc
  by_cases h : undocWord <+: s
  · rw [if_pos h, if_pos (hu.2 h)]; rfl
  · rw [if_neg h, if_neg (fun hh => h (hu.1 hh))]

theorem extra_explained (a : Args) (ha : a.debug.length = 5) (s : Str) (h : undocumentedOptions a s = none) :
    Explains (.extra s) (undocumentedOptionsMessage a s) := by
  unfold undocumentedOptionsMessage
  simp only [beyond_eq, h, Option.isNone_none, if_true, complain_eq]
  by_cases hd : strnCaseEq 5 (beyondUndoc s) (lit "debug") = true
  · rw [if_pos hd]
    have hw := (says_debug _).1 hd
    have hs := (List.take_append_drop 5 (beyondUndoc s)).symm
    have huniq : ∀ arg, Areas s arg → (beyondUndoc s).drop 5 = ':'.toNat :: arg := by
      rintro arg ⟨d, h1, h2⟩
      rw [h2, List.drop_left' (show d.length = 5 from word_length h1)]
    cases hr : (beyondUndoc s).drop 5 with
    | nil =>
      refine .extra ?_
      intro arg harg
      have := huniq arg harg
      rw [hr] at this; cases this
    | cons c rest =>
      simp only
      by_cases hc : c = 0x3a
      · rw [if_pos hc]
        subst hc
        obtain ⟨c1, -⟩ := C72_areas a.debug ha rest
        cases hdb : debugAreas a.debug (some rest) with
        | none =>
          rw [Option.isNone_none, if_pos rfl]
          have hex : ∃ t ∈ terms rest, ∀ k, ¬ Names t k := by
            refine Classical.byContradiction fun hc => ?_
            have := c1.2 (fun t ht => Classical.byContradiction fun hk => hc ⟨t, ht, fun k hn => hk ⟨k, hn⟩⟩)
            rw [hdb] at this
            obtain ⟨d, hd⟩ := this
            cases hd
          rw [← terms_eq] at hex
          obtain ⟨pre, t, post, h1, h2, h3, h4⟩ := debugLoop_says _ hex
          rw [terms_eq] at h1
          rw [h4]
          exact .area ⟨_, hw, by rw [hr] at hs; exact hs⟩ h1 h2 h3
        | some d =>
          rw [Option.isNone_some, if_neg (by simp)]
          refine .extra ?_
          intro arg harg
          have := huniq arg harg
          rw [hr] at this
          cases this
          exact c1.1 ⟨d, hdb⟩
      · rw [if_neg hc]
        refine .extra ?_
        intro arg harg
        have := huniq arg harg
        rw [hr] at this
        cases this
        exact absurd rfl hc
  · rw [if_neg hd]
    refine .extra ?_
    rintro arg ⟨d, h1, h2⟩
    refine absurd ((says_debug _).2 ?_) hd
    rw [h2, List.take_left' (show d.length = 5 from word_length h1)]
    exact h1

theorem extra_silent (a a' : Args) (s : Str) (h : undocumentedOptions a s = some a') : undocumentedOptionsMessage a s = [] := by
  unfold undocumentedOptionsMessage
  simp only [h, Option.isNone_some, Bool.false_eq_true, if_false]
  have hx : ∃ b : Args, ∃ a1, b.debug = a.debug ∧ extraDebug b (if strnEq 7 s (lit "(undoc)") then s.drop 7 else s) = some a1 := by
    unfold undocumentedOptions at h
    obtain ⟨a1, h1, -⟩ := Option.bind_eq_some_iff.1 h
    by_cases hu : strnEq 7 s (lit "(undoc)") = true
    · rw [if_pos hu] at h1 ⊢; exact ⟨{ a with qundoc := true }, a1, rfl, h1⟩
    · rw [if_neg hu] at h1 ⊢; exact ⟨_, a1, rfl, h1⟩
  obtain ⟨b, a1, hb, h1⟩ := hx
  rw [beyond_eq] at h1
  simp only [beyond_eq]
  unfold extraDebug at h1
  split
  · rename_i hd
    rw [if_pos hd] at h1
    cases hr : (beyondUndoc s).drop 5 with
    | nil => rfl
    | cons c rest =>
      rw [hr] at h1
      simp only at h1 ⊢
      split
      · rename_i hc
        rw [if_pos hc, hb] at h1
        cases hdb : debugAreas a.debug (some rest) with
        | none => rw [hdb] at h1; cases h1
        | some d => rfl
      · rename_i hc
        rw [if_neg hc] at h1
        cases h1
  · rfl

/-- every option: it is accepted without a message, or refused with one that explains it -/
theorem option_message (a : Args) (ha : a.debug.length = 5) (x : Option') (h1 : x ≠ .help) (h2 : x ≠ .version) (h3 : x ≠ .bad)
    (hn : ∀ s, x = .query s → 0x0a ∉ s) :
    ((handleOption a x).isSome = true → optionMessage a x = []) ∧ (handleOption a x = none → Explains x (optionMessage a x)) := by
  cases x with
  | help => exact absurd rfl h1
  | version => exact absurd rfl h2
  | bad => exact absurd rfl h3
  | align s =>
    show (((alignment a.opt s).map _).isSome = true → alignmentMessage a.opt s = []) ∧ ((alignment a.opt s).map _ = none → Explains (.align s) (alignmentMessage a.opt s))
    unfold alignmentMessage
    cases alignment a.opt s with
    | none => exact ⟨fun h => by simp at h, fun _ => by rw [Option.isNone_none, if_pos rfl, complain_eq]; exact .align s⟩
    | some o => exact ⟨fun _ => rfl, fun h => by simp at h⟩
  | create s =>
    show ((commandLineDesign a s).isSome = true → commandLineDesignMessage s = []) ∧ (commandLineDesign a s = none → Explains (.create s) (commandLineDesignMessage s))
    unfold commandLineDesignMessage commandLineDesign
    cases s with
    | nil => exact ⟨fun h => by simp at h, fun _ => by rw [if_pos (by rfl), complain_lit]; exact .create⟩
    | cons c r => exact ⟨fun _ => by simp, fun h => by simp at h⟩
  | eol s =>
    show ((eolOverride a s).isSome = true → eolOverrideMessage a s = []) ∧ (eolOverride a s = none → Explains (.eol s) (eolOverrideMessage a s))
    unfold eolOverrideMessage
    cases eolOverride a s with
    | none => exact ⟨fun h => by simp at h, fun _ => by rw [Option.isNone_none, if_pos rfl, complain_eq]; exact .eol s⟩
    | some o => exact ⟨fun _ => rfl, fun h => by cases h⟩
  | indent s =>
    show (((indentationMode a.opt s).map _).isSome = true → indentationModeMessage a.opt s = []) ∧ ((indentationMode a.opt s).map _ = none → Explains (.indent s) (indentationModeMessage a.opt s))
    unfold indentationModeMessage
    cases indentationMode a.opt s with
    | none => exact ⟨fun h => by simp at h, fun _ => by rw [Option.isNone_none, if_pos rfl, complain_lit]; exact .indent s⟩
    | some o => exact ⟨fun _ => rfl, fun h => by simp at h⟩
  | kill s =>
    show (((killblankOption a.opt s).map _).isSome = true → killblankMessage a.opt s = []) ∧ ((killblankOption a.opt s).map _ = none → Explains (.kill s) (killblankMessage a.opt s))
    unfold killblankMessage
    cases killblankOption a.opt s with
    | none => exact ⟨fun h => by simp at h, fun _ => by rw [Option.isNone_none, if_pos rfl, complain_lit]; exact .kill s⟩
    | some o => exact ⟨fun _ => rfl, fun h => by simp at h⟩
  | padding s =>
    show (((paddingOption a.opt s).map _).isSome = true → paddingMessage a.opt s = []) ∧ ((paddingOption a.opt s).map _ = none → Explains (.padding s) (paddingMessage a.opt s))
    unfold paddingMessage
    cases paddingOption a.opt s with
    | none => exact ⟨fun h => by simp at h, fun _ => by rw [Option.isNone_none, if_pos rfl, complain_eq]; exact .padding s⟩
    | some o => exact ⟨fun _ => rfl, fun h => by simp at h⟩
  | query s =>
    show (((parseQuery s).map _).isSome = true → parseQueryMessage s = []) ∧ ((parseQuery s).map _ = none → Explains (.query s) (parseQueryMessage s))
    cases hq : parseQuery s with
    | none => exact ⟨fun h => by simp at h, fun _ => query_explained s (hn s rfl) hq⟩
    | some q => exact ⟨fun _ => query_silent s hq, fun h => by simp at h⟩
  | size s =>
    show (((sizeOfBox a.opt s).map _).isSome = true → sizeOfBoxMessage a.opt s = []) ∧ ((sizeOfBox a.opt s).map _ = none → Explains (.size s) (sizeOfBoxMessage a.opt s))
    cases hq : sizeOfBox a.opt s with
    | none => exact ⟨fun h => by simp at h, fun _ => size_explained _ s hq⟩
    | some q => exact ⟨fun _ => by unfold sizeOfBoxMessage; rw [hq]; rfl, fun h => by simp at h⟩
  | tabs s =>
    show (((tabHandling a.opt s).map _).isSome = true → tabHandlingMessage a.opt s = []) ∧ ((tabHandling a.opt s).map _ = none → Explains (.tabs s) (tabHandlingMessage a.opt s))
    cases hq : tabHandling a.opt s with
    | none => exact ⟨fun h => by simp at h, fun _ => tabs_explained _ s hq⟩
    | some q => exact ⟨fun _ => tabs_silent _ _ s hq, fun h => by simp at h⟩
  | extra s =>
    show ((undocumentedOptions a s).isSome = true → undocumentedOptionsMessage a s = []) ∧ (undocumentedOptions a s = none → Explains (.extra s) (undocumentedOptionsMessage a s))
    cases hq : undocumentedOptions a s with
    | none => exact ⟨fun h => by simp at h, fun _ => extra_explained _ ha s hq⟩
    | some q => exact ⟨fun _ => extra_silent _ _ s hq, fun h => by simp at h⟩
  | _ => exact ⟨fun _ => rfl, fun h => by simp [handleOption] at h⟩

theorem explains_ne {x : Option'} {m : Str} (h : Explains x m) : m ≠ [] := by
  cases h <;> exact tells_ne _ _

theorem loop_message (library : Str) : ∀ (opts : List Option') (a : Args), a.debug.length = 5 → Consistent a → (∀ s, .query s ∈ opts → 0x0a ∉ s) →
    ((optionLoop opts a).isSome = true → optionLoopMessage library opts a = []) ∧
    (optionLoop opts a = none → ∃ pre x post b, opts = pre ++ x :: post ∧ optionLoop pre a = some (b, false) ∧ optionLoop [x] b = none ∧
      ((x = .bad ∧ optionLoopMessage library opts a = library ++ usageHint) ∨ Explains x (optionLoopMessage library opts a))) := by
  intro opts
  induction opts with
  | nil => intro a _ _ _; exact ⟨fun _ => rfl, fun h => by simp [optionLoop] at h⟩
  | cons x rest ih =>
    intro a h5 hc hn
    by_cases h1 : x = .help
    · subst h1; exact ⟨fun _ => rfl, fun h => by simp [optionLoop] at h⟩
    by_cases h2 : x = .version
    · subst h2; exact ⟨fun _ => rfl, fun h => by simp [optionLoop] at h⟩
    by_cases h3 : x = .bad
    · subst h3
      refine ⟨fun h => by simp [optionLoop] at h, fun _ => ⟨[], .bad, rest, a, rfl, rfl, rfl, .inl ⟨rfl, ?_⟩⟩⟩
      rw [← usageShort_eq]; rfl
    have hm : optionLoopMessage library (x :: rest) a = optionMessage a x ++ (match handleOption a x with
        | none => []
        | some a => optionLoopMessage library rest a) := by
      cases x <;> first | rfl | exact absurd rfl h1 | exact absurd rfl h2 | exact absurd rfl h3
    have hl := optionLoop_bind (x := x) rest a h1 h2 h3
    obtain ⟨o1, o2⟩ := option_message a h5 x h1 h2 h3 (fun s hs => hn s (by rw [hs]; exact List.mem_cons_self))
    cases hh : handleOption a x with
    | none =>
      rw [hh] at hl
      rw [hm, hh]
      simp only [List.append_nil]
      rw [hl]
      refine ⟨fun h => by simp at h, fun _ => ⟨[], x, rest, a, rfl, rfl, ?_, .inr (o2 hh)⟩⟩
      rw [optionLoop_bind (x := x) [] a h1 h2 h3, hh]; rfl
    | some b =>
      have hone : optionLoop [x] a = some (b, false) := optionLoop_cons_eq [] hh
      obtain ⟨hcb, -, -⟩ := loop_listening [x] a b hone hc
      obtain ⟨i1, i2⟩ := ih b hcb.five hcb (fun s hs => hn s (List.mem_cons_of_mem _ hs))
      rw [optionLoop_cons_eq rest hh, hm, hh, o1 (by rw [hh]; rfl)]
      simp only [List.nil_append]
      refine ⟨i1, fun h => ?_⟩
      obtain ⟨pre, y, post, c, p1, p2, p3, p4⟩ := i2 h
      exact ⟨x :: pre, y, post, c, by rw [p1]; rfl, by rw [optionLoop_cons_eq pre hh]; exact p2, p3, p4⟩

theorem files_message (canRead canWrite : Str → Bool) (reason : Str) (a : Args) (files : List Str) :
    ((inputOutputFiles canRead canWrite a files).isSome = true → inputOutputFilesMessage canRead canWrite reason files = []) ∧
    (inputOutputFiles canRead canWrite a files = none → ExplainsFiles canRead canWrite reason files (inputOutputFilesMessage canRead canWrite reason files)) := by
  match files with
  | [] => exact ⟨fun _ => rfl, fun h => by simp [inputOutputFiles] at h⟩
  | i :: o :: t :: more =>
    refine ⟨fun h => by simp [inputOutputFiles] at h, fun _ => ?_⟩
    show ExplainsFiles _ _ _ _ (complain (lit "illegal parameter -- " ++ t) ++ usageShort)
    rw [complain_eq, usageShort_eq]
    exact .third
  | [i] =>
    simp only [inputOutputFiles, inputOutputFilesMessage]
    by_cases hi : i = lit "-"
    · rw [if_pos hi, if_neg (by simp [hi])]
      exact ⟨fun _ => rfl, fun h => by simp at h⟩
    · by_cases hr : canRead i = true
      · rw [if_neg hi, if_pos hr, if_neg (by simp [hr])]
        exact ⟨fun _ => rfl, fun h => by simp at h⟩
      · rw [if_neg hi, if_neg hr, if_pos ⟨hi, by simpa using hr⟩, complain_eq]
        exact ⟨fun h => by simp at h, fun _ => .input (by simp) hi (by simpa using hr)⟩
  | [i, o] =>
    simp only [inputOutputFiles, inputOutputFilesMessage]
    have key : ∀ b : Args, (i = say "-" ∨ canRead i = true) →
        (((if o = lit "-" then some { b with outfile := none } else if canWrite o then some { b with outfile := some o } else none : Option Args).isSome = true →
          (if o ≠ lit "-" ∧ canWrite o = false then complain reason else []) = []) ∧
        ((if o = lit "-" then some { b with outfile := none } else if canWrite o then some { b with outfile := some o } else none : Option Args) = none →
          ExplainsFiles canRead canWrite reason [i, o] (if o ≠ lit "-" ∧ canWrite o = false then complain reason else []))) := by
      intro b hi
      by_cases ho : o = lit "-"
      · rw [if_pos ho, if_neg (by simp [ho])]
        exact ⟨fun _ => rfl, fun h => by simp at h⟩
      · by_cases hw : canWrite o = true
        · rw [if_neg ho, if_pos hw, if_neg (by simp [hw])]
          exact ⟨fun _ => rfl, fun h => by simp at h⟩
        · rw [if_neg ho, if_neg hw, if_pos ⟨ho, by simpa using hw⟩]
          refine ⟨fun h => by simp at h, fun _ => ?_⟩
          have : complain reason = tells "" reason := complain_eq "" reason
          rw [this]
          exact .output hi ho (by simpa using hw)
    by_cases hi : i = lit "-"
    · rw [if_pos hi, if_neg (by simp [hi])]
      exact key _ (.inl hi)
    · by_cases hr : canRead i = true
      · rw [if_neg hi, if_pos hr, if_neg (by simp [hr])]
        exact key _ (.inr hr)
      · rw [if_neg hi, if_neg hr, if_pos ⟨hi, by simpa using hr⟩, complain_eq]
        exact ⟨fun h => by simp at h, fun _ => .input (by simp) hi (by simpa using hr)⟩

theorem fresh_consistent : Consistent createNewOpt := ⟨rfl, rfl⟩

end Boxes
