import Verif.Model.Lexer
import Verif.Spec.Lexer
import Verif.Props.Text

/-!
# Property C40: strings in configuration files
-/
namespace Boxes
open Spec
set_option linter.unusedSimpArgs false

private theorem stringLoop_sound (dl : Delims) (line done : Str) (q : Nat) : ∀ text qcnt,
    stringLoop dl line done q = some (text, qcnt) →
      ∃ raw t rest k, line = raw ++ dl.sdel :: rest ∧ Quoted dl.sesc dl.sdel raw t ∧ text = done ++ t ∧
        raw.length = t.length + k ∧ qcnt = q + k := by
  fun_induction stringLoop dl line done q with
  | case1 => simp
  | case2 => simp
  | case3 done q d rest ih =>
    intro text qcnt h
    obtain ⟨raw, t, r, k, h1, h2, h3, h4, h5⟩ := ih text qcnt h
    exact ⟨dl.sesc :: d :: raw, d :: t, r, k + 1, by simp [h1, *], Quoted.escaped d h2, by simp [h3],
      by simp [h4]; omega, by omega⟩
  | case4 rest done q h1 =>
    intro text qcnt h
    simp at h
    exact ⟨[], [], rest, 0, by simp, Quoted.nil, by simp [h.1], rfl, by simp [h.2]⟩
  | case5 c rest done q h1 h2 ih =>
    intro text qcnt h
    obtain ⟨raw, t, r, k, e1, e2, e3, e4, e5⟩ := ih text qcnt h
    exact ⟨c :: raw, c :: t, r, k, by simp [e1], Quoted.plain c h1 h2 e2, by simp [e3], by simp [e4]; omega, e5⟩

private theorem stringLoop_complete (dl : Delims) (hne : dl.sesc ≠ dl.sdel) {raw t : Str}
    (h : Quoted dl.sesc dl.sdel raw t) : ∀ (rest done : Str) (q : Nat), ∃ k, raw.length = t.length + k ∧
    stringLoop dl (raw ++ dl.sdel :: rest) done q = some (done ++ t, q + k) := by
  induction h with
  | nil =>
    intro rest done q
    exact ⟨0, rfl, by unfold stringLoop; simp [Ne.symm hne]⟩
  | plain c h1 h2 _ ih =>
    intro rest done q
    obtain ⟨k, e1, e2⟩ := ih rest (done ++ [c]) q
    exact ⟨k, by simp [e1]; omega, by rw [List.cons_append]; unfold stringLoop; simp [h1, h2, e2]⟩
  | escaped c _ ih =>
    intro rest done q
    obtain ⟨k, e1, e2⟩ := ih rest (done ++ [c]) (q + 1)
    exact ⟨k + 1, by simp [e1]; omega, by simp [stringLoop, e2]; omega⟩

/-- C40: the string token at the beginning of a line.  The scanner finds the text `text` and goes on with `rest` exactly if the
line is an opening delimiter, characters that mean `text`, a closing delimiter, and `rest`. -/
theorem C40_scan (dl : Delims) (hne : dl.sesc ≠ dl.sdel) (line text rest : Str) :
    stringToken dl line = .token text rest ↔
      ∃ raw, line = dl.sdel :: (raw ++ dl.sdel :: rest) ∧ Quoted dl.sesc dl.sdel raw text := by
  constructor
  · intro h
    unfold stringToken at h
    split at h
    · simp at h
    · rename_i c r
      split at h
      · simp at h
      · rename_i hc
        simp only [ne_eq, Decidable.not_not] at hc
        split at h
        · simp at h
        · rename_i tx q hl
          simp only [StrToken.token.injEq] at h
          obtain ⟨raw, t, rs, k, h1, h2, h3, h4, h5⟩ := stringLoop_sound dl r [] 0 _ _ hl
          simp only [List.nil_append] at h3
          subst h3
          obtain ⟨ht, hr⟩ := h
          subst ht
          refine ⟨raw, ?_, h2⟩
          have : (c :: r).drop (tx.length + 2 + q) = rs := by
            rw [h1]
            have : tx.length + 2 + q = (c :: (raw ++ [dl.sdel])).length := by simp; omega
            rw [show c :: (raw ++ dl.sdel :: rs) = (c :: (raw ++ [dl.sdel])) ++ rs by simp, this, List.drop_left]
          rw [this] at hr
          rw [hc, h1, hr]
  · rintro ⟨raw, h1, h2⟩
    obtain ⟨k, e1, e2⟩ := stringLoop_complete dl hne h2 rest [] 0
    subst h1
    simp only [stringToken, ne_eq, not_true_eq_false, if_false, e2, List.nil_append, StrToken.token.injEq, true_and]
    have : text.length + 2 + (0 + k) = (dl.sdel :: (raw ++ [dl.sdel])).length := by simp; omega
    rw [show dl.sdel :: (raw ++ dl.sdel :: rest) = (dl.sdel :: (raw ++ [dl.sdel])) ++ rest by simp, this, List.drop_left]

/-- C40: a line that begins with the delimiter and has no closing one is reported as an unterminated string; a line that begins
with something else is not taken for a string. -/
theorem C40_errors (dl : Delims) (hne : dl.sesc ≠ dl.sdel) (line : Str) :
    (stringToken dl line = .reject ↔ line.head? ≠ some dl.sdel) ∧
    (stringToken dl line = .unterminated ↔ line.head? = some dl.sdel ∧
      ¬ ∃ raw text rest, line = dl.sdel :: (raw ++ dl.sdel :: rest) ∧ Quoted dl.sesc dl.sdel raw text) := by
  have hr : stringToken dl line = .reject ↔ line.head? ≠ some dl.sdel := by
    unfold stringToken
    cases line with
    | nil => simp
    | cons c r =>
      by_cases hc : c = dl.sdel
      · simp only [hc, ne_eq, not_true_eq_false, if_false, List.head?_cons]
        simp only [iff_false]
        split <;> simp
      · simp [hc]
  refine ⟨hr, ?_⟩
  constructor
  · intro h
    refine ⟨Decidable.byContradiction fun hh => ?_, ?_⟩
    · rw [hr.2 hh] at h; simp at h
    · rintro ⟨raw, text, rest, h1, h2⟩
      rw [(C40_scan dl hne line text rest).2 ⟨raw, h1, h2⟩] at h
      simp at h
  · rintro ⟨h1, h2⟩
    cases hs : stringToken dl line with
    | reject => exact absurd h1 (hr.1 hs)
    | unterminated => rfl
    | token text rest =>
      obtain ⟨raw, e1, e2⟩ := (C40_scan dl hne line text rest).1 hs
      exact absurd ⟨raw, text, rest, e1, e2⟩ h2

/-- C40: a delimiter specification is accepted exactly if it consists of an escape character and a different character that is
one of the possible delimiters. -/
theorem C40_delims (spec : Str) (dl : Delims) :
    changeStringDelimiters spec = some dl ↔
      spec = [dl.sesc, dl.sdel] ∧ dl.sesc ≠ dl.sdel ∧ dl.sesc < 0x80 ∧
        dl.sdel ∈ "\"~'`!@%&*=:;<>?/|.\\".toList.map Char.toNat := by
  have hs : ∀ d, d ∈ "\"~'`!@%&*=:;<>?/|.\\".toList.map Char.toNat → d < 0x80 := by decide
  have hl : lexSdelim = "\"~'`!@%&*=:;<>?/|.\\".toList.map Char.toNat := by decide
  unfold changeStringDelimiters
  split
  · rename_i e d
    rw [hl]
    have := hs d
    by_cases h1 : e ≥ 0x80 ∨ d ≥ 0x80
    · simp only [h1, if_true]
      simp only [reduceCtorEq, false_iff]
      rintro ⟨h2, h3, h4, h5⟩
      simp at h2
      have := hs _ h5
      omega
    · by_cases h2 : e = d
      · subst h2
        rw [if_neg h1, if_pos rfl]
        refine ⟨fun h => by simp at h, ?_⟩
        rintro ⟨h3, h4, -⟩
        have h3 : e = dl.sesc ∧ e = dl.sdel := by simpa using h3
        exact absurd (h3.1.symm.trans h3.2) h4
      · by_cases h3 : d ∈ "\"~'`!@%&*=:;<>?/|.\\".toList.map Char.toNat
        · have h3' := List.contains_iff_mem.2 h3
          simp only [h1, h2, h3', if_false, Bool.not_true, Bool.false_eq_true, Option.some.injEq]
          constructor
          · rintro rfl; exact ⟨rfl, h2, by simp only; omega, h3⟩
          · rintro ⟨h4, -⟩
            simp at h4
            cases dl; simp_all
        · have h3' : (List.map Char.toNat "\"~'`!@%&*=:;<>?/|.\\".toList).contains d = false := by
            simpa using h3
          simp only [h1, h2, h3', if_false, Bool.not_false, if_true, reduceCtorEq, false_iff]
          rintro ⟨h4, -, -, h5⟩
          simp at h4
          rw [h4.2] at h3
          exact h3 h5
  · rename_i hx
    simp only [reduceCtorEq, false_iff]
    rintro ⟨h, -⟩
    exact hx _ _ h

example : changeStringDelimiters [0x5c, 0x22] = some defaultDelims := by decide
example : changeStringDelimiters (lit "$!") = some ⟨'$'.toNat, '!'.toNat⟩ ∧ changeStringDelimiters (lit "!!") = none := by decide

/-- C40: the escaped form of a line.  A backslash is put in front of each visible backslash and each visible quote. -/
private theorem escapeText_eq (db : CharDb) {s v : Str} {b : Bxs} (h : Text s v) (hb : fromUnicode db s = some b) :
    ∀ {p pv rest rv : Str}, Text p pv → Text rest rv → s = p ++ rest →
      Escaped rest (escapeText b rest p.length) := by
  intro p pv rest rv hp hr
  induction hr generalizing p pv with
  | nil => intro _; exact Escaped.nil
  | @vis c s' v' hc ht ih =>
    intro hs
    have hvis : b.isVisibleChar p.length = true :=
      (C06_is_visible db h hb _).2 ⟨p, c, s', pv, v', hs, rfl, hp, ht, hc⟩
    have hp' : Text (p ++ [c]) (pv ++ [c]) := hp.append (Text.vis c hc Text.nil)
    have := ih hp' (by simp [hs])
    simp only [List.length_append, List.length_singleton] at this
    by_cases hx : c = '\\'.toNat ∨ c = '"'.toNat
    · have e : escapeText b (c :: s') p.length = '\\'.toNat :: c :: escapeText b s' (p.length + 1) := by
        rw [escapeText, if_pos]
        · rfl
        · rw [hvis]
          rcases hx with rfl | rfl <;> decide
      rw [e]
      exact Escaped.special c hx this
    · have e : escapeText b (c :: s') p.length = c :: escapeText b s' (p.length + 1) := by
        rw [escapeText, if_neg]
        intro hh
        apply hx
        rw [Bool.and_eq_true, Bool.or_eq_true, beq_iff_eq, beq_iff_eq] at hh
        exact hh.1
      rw [e]
      exact Escaped.other c hc (fun e => hx (Or.inl e)) (fun e => hx (Or.inr e)) this
  | @esc q s' v' hq ht ih =>
    intro hs
    have hp' : Text (p ++ q) pv := by simpa using hp.append (Text.esc q hq Text.nil)
    have := ih hp' (by simp [hs])
    have key : ∀ (x y : Str), q = x ++ y → escapeText b (y ++ s') (p.length + x.length) =
        y ++ escapeText b s' (p ++ q).length := by
      intro x y
      induction y generalizing x with
      | nil => intro hq'; simp [hq']
      | cons c y ihy =>
        intro hq'
        have hinv : b.isVisibleChar (p.length + x.length) = false := by
          rw [Bool.eq_false_iff]
          intro hh
          obtain ⟨p1, c1, q1, vp, vq, h1, h2, h3, h4, h5⟩ := (C06_is_visible db h hb _).1 hh
          obtain ⟨ts, k1, k2, -⟩ := h.toks
          obtain ⟨tp, a1, a2, -⟩ := hp.toks
          obtain ⟨tq, b1, b2, -⟩ := ht.toks
          obtain ⟨tp1, c1', c2, -⟩ := h3.toks
          obtain ⟨tq1, d1, d2, -⟩ := h4.toks
          have u : tp ++ .inr q :: tq = tp1 ++ .inl c1 :: tq1 := by
            apply toks_unique (a1.append (Oks.cons (t := .inr q) hq b1)) (c1'.append (Oks.cons (t := .inl c1) h5 d1))
            simp [a2, b2, c2, d2, ← h1, ← hs]
          have hlen : q.length = x.length + (y.length + 1) := by rw [hq']; simp
          rcases List.append_eq_append_iff.1 u with ⟨l, e1, e2⟩ | ⟨l, e1, e2⟩
          · cases l with
            | nil => simp at e2
            | cons t l =>
              simp only [List.cons_append, List.cons.injEq] at e2
              have : p1.length = p.length + q.length + (flat l).length := by
                rw [← c2, e1, ← e2.1]; simp [a2]; omega
              omega
          · cases l with
            | nil => simp at e2
            | cons t l =>
              simp only [List.cons_append, List.cons.injEq] at e2
              have : p.length = p1.length + 1 + (flat l).length := by
                rw [← a2, e1, ← e2.1]; simp [c2]; omega
              omega
        rw [List.cons_append, escapeText, hinv]
        simp only [Bool.and_false, Bool.false_eq_true, if_false, List.cons_append, List.cons.injEq, true_and]
        have := ihy (x ++ [c]) (by simp [hq'])
        simpa [Nat.add_assoc] using this
    have e := key [] q rfl
    simp only [List.length_nil, Nat.add_zero] at e
    rw [e]
    exact Escaped.esc q hq this

theorem escaped_text {s t : Str} (h : Escaped s t) :
    ∃ v tv, Text s v ∧ Text t tv ∧ ∀ c ∈ tv, c = '\\'.toNat ∨ c ∈ v := by
  induction h with
  | nil => exact ⟨[], [], Text.nil, Text.nil, by simp⟩
  | @special c s t hc _ ih =>
    have hne : c ≠ 0x1b := by rcases hc with rfl | rfl <;> decide
    obtain ⟨v, tv, h1, h2, h3⟩ := ih
    refine ⟨c :: v, '\\'.toNat :: c :: tv, Text.vis c hne h1, Text.vis _ (by decide) (Text.vis c hne h2), ?_⟩
    intro x hx
    rcases List.mem_cons.1 hx with rfl | hx
    · exact Or.inl rfl
    · rcases List.mem_cons.1 hx with rfl | hx
      · exact Or.inr (by simp)
      · exact (h3 x hx).imp id (fun h => by simp [h])
  | @other c s t h1 _ _ _ ih =>
    obtain ⟨v, tv, e1, e2, e3⟩ := ih
    refine ⟨c :: v, c :: tv, Text.vis c h1 e1, Text.vis c h1 e2, ?_⟩
    intro x hx
    rcases List.mem_cons.1 hx with rfl | hx
    · exact Or.inr (by simp)
    · exact (e3 x hx).imp id (fun h => by simp [h])
  | esc q hq _ ih =>
    obtain ⟨v, tv, e1, e2, e3⟩ := ih
    exact ⟨v, tv, Text.esc q hq e1, Text.esc q hq e2, e3⟩

private def escTok : Tok → Str
  | .inl c => if c = '\\'.toNat ∨ c = '"'.toNat then ['\\'.toNat, c] else [c]
  | .inr q => q

private theorem escaped_toks {s t : Str} (h : Escaped s t) : ∃ ts : List Tok, Oks ts ∧ flat ts = s ∧ t = ts.flatMap escTok := by
  induction h with
  | nil => exact ⟨[], Oks.nil, rfl, rfl⟩
  | special c hc _ ih =>
    obtain ⟨ts, h1, h2, h3⟩ := ih
    exact ⟨.inl c :: ts, Oks.cons (t := .inl c) (show c ≠ 0x1b by rcases hc with rfl | rfl <;> decide) h1, by simp [h2],
      by rw [List.flatMap_cons, escTok, if_pos hc, h3]; rfl⟩
  | other c hc h1 h2 _ ih =>
    obtain ⟨ts, e1, e2, e3⟩ := ih
    exact ⟨.inl c :: ts, Oks.cons (t := .inl c) hc e1, by simp [e2],
      by rw [List.flatMap_cons, escTok, if_neg (fun h => h.elim h1 h2), e3]; rfl⟩
  | esc q hq _ ih =>
    obtain ⟨ts, h1, h2, h3⟩ := ih
    exact ⟨.inr q :: ts, Oks.cons (t := .inr q) hq h1, by simp [h2], by rw [List.flatMap_cons, escTok, h3]⟩

private theorem escaped_unique {s t t' : Str} (h : Escaped s t) (h' : Escaped s t') : t = t' := by
  obtain ⟨a, a1, a2, a3⟩ := escaped_toks h
  obtain ⟨b, b1, b2, b3⟩ := escaped_toks h'
  rw [a3, b3, toks_unique a1 b1 (a2.trans b2.symm)]

private theorem quoted_append {e d : Nat} {a b c f : Str} (h1 : Quoted e d a b) (h2 : Quoted e d c f) :
    Quoted e d (a ++ c) (b ++ f) := by
  induction h1 with
  | nil => exact h2
  | plain x hx hy _ ih => exact Quoted.plain x hx hy ih
  | escaped x _ ih => exact Quoted.escaped x ih

private theorem quoted_plain {e d : Nat} : ∀ {a : Str}, e ∉ a → d ∉ a → Quoted e d a a
  | [], _, _ => Quoted.nil
  | c :: a, h1, h2 => by
    simp only [List.mem_cons, not_or] at h1 h2
    exact Quoted.plain c (Ne.symm h1.1) (Ne.symm h2.1) (quoted_plain h1.2 h2.2)

/-- C40: what the design listing prints between quotes for a line: `Escaped s t` says that in `t`, a backslash is put in front of
each backslash and quote that is not part of an escape sequence.  The line is always printable. -/
theorem C40_escape (db : CharDb) (hbs : db.cntrl '\\'.toNat = false) {s v : Str} {b : Bxs} (h : Text s v)
    (hb : fromUnicode db s = some b) : ∃ e, escape db b = some e ∧ Escaped s e.memory := by
  have he := escapeText_eq db h hb Text.nil h rfl
  obtain ⟨v', tv, h1, h2, h3⟩ := escaped_text he
  have hmem : b.memory = s := (C01_metrics db h hb).1
  have hv : v' = v := Spec.Text.unique h1 h
  subst hv
  unfold escape
  rw [hmem]
  cases hx : fromUnicode db (escapeText b s 0) with
  | none =>
    obtain ⟨c, hc, hf⟩ := (C01_rejected_iff db h2).1 hx
    rcases h3 c hc with rfl | hm
    · rw [hf.1] at hbs; simp at hbs
    · have := (C01_rejected_iff db h).2 ⟨c, hm, hf⟩
      rw [this] at hb; simp at hb
  | some e =>
    refine ⟨e, rfl, ?_⟩
    rw [(C01_metrics db h2 hx).1]
    exact he

/-- C40: a line printed by the design listing between quotes is read back by the scanner as the identical line, and the scanner
continues behind the closing quote. -/
theorem C40_round_trip (db : CharDb) (hbs : db.cntrl '\\'.toNat = false) {s v : Str} {b : Bxs} (h : Text s v)
    (hb : fromUnicode db s = some b) (hp : PlainSequences s) (rest : Str) :
    ∃ e, escape db b = some e ∧
      stringToken defaultDelims ('"'.toNat :: (e.memory ++ '"'.toNat :: rest)) = .token s rest := by
  obtain ⟨e, he1, he2⟩ := C40_escape db hbs h hb
  refine ⟨e, he1, (C40_scan defaultDelims (by decide) _ _ _).2 ⟨e.memory, rfl, ?_⟩⟩
  have key : ∀ {s : Str}, PlainSequences s → ∃ t, Escaped s t ∧ Quoted defaultDelims.sesc defaultDelims.sdel t s := by
    intro s hs
    induction hs with
    | nil => exact ⟨[], Escaped.nil, Quoted.nil⟩
    | vis c hc _ ih =>
      obtain ⟨t, h1, h2⟩ := ih
      by_cases hx : c = '\\'.toNat ∨ c = '"'.toNat
      · exact ⟨_, Escaped.special c hx h1, Quoted.escaped c h2⟩
      · exact ⟨_, Escaped.other c hc (fun e => hx (Or.inl e)) (fun e => hx (Or.inr e)) h1,
          Quoted.plain c (fun e => hx (Or.inl e)) (fun e => hx (Or.inr e)) h2⟩
    | esc q hq h1 h2 _ ih =>
      obtain ⟨t, h3, h4⟩ := ih
      exact ⟨_, Escaped.esc q hq h3, quoted_append (quoted_plain h1 h2) h4⟩
  obtain ⟨t, h1, h2⟩ := key hp
  rw [escaped_unique he2 h1]
  exact h2

/-- Not so when an escape sequence contains a quote (`ESC [ 1 " q` selects character protection): the listing prints it without
a backslash, and the scanner takes it for the end of the string. -/
theorem C40_sequence_disagrees : ∃ s v : Str, Text s v ∧
    (((fromUnicode sampleDb s).bind (escape sampleDb)).map fun e =>
      stringToken defaultDelims ('"'.toNat :: (e.memory ++ ['"'.toNat]))) =
    some (.token (0x1b :: lit "[1") (lit "qab\"")) ∧ s ≠ 0x1b :: lit "[1" := by
  refine ⟨0x1b :: lit "[1\"qab", lit "ab", ?_, by decide +kernel, by decide⟩
  exact Text.esc (0x1b :: lit "[1\"q") (EscSeq.csi 0x5b (lit "1\"") 0x71 (by decide) (by decide) (by decide) (by decide))
      (Text.plain (by decide))

/-- `a\"b` in red: the quote and the backslash are escaped, and read back. -/
example : (((fromUnicode sampleDb (0x1b :: lit "[31ma\\\"b")).bind (escape sampleDb)).map fun e =>
    (e.memory, stringToken defaultDelims ('"'.toNat :: (e.memory ++ lit "\", more")))) =
    some (0x1b :: lit "[31ma\\\\\\\"b", .token (0x1b :: lit "[31ma\\\"b") (lit ", more")) := by
  decide +kernel

example : PlainSequences (0x1b :: lit "[31ma\\\"b") :=
  PlainSequences.esc (0x1b :: lit "[31m") (EscSeq.csi 0x5b (lit "31") 0x6d (by decide) (by decide) (by decide) (by decide))
    (by decide) (by decide) (.vis _ (by decide) (.vis _ (by decide) (.vis _ (by decide) (.vis _ (by decide) .nil))))

example : stringToken ⟨'\\'.toNat, '"'.toNat⟩ (lit "\"abc\\\"") = .unterminated := by decide

end Boxes
