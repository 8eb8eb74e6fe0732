import Verif.Spec.Rules
import Verif.Props.Print

/-!
# Replacement and reversion rules (C49)
-/
namespace Boxes
open Spec
set_option linter.unusedSimpArgs false

theorem substLine_iff (db : CharDb) : ∀ (rules : List Subst) (l : Line) (t : Bxs) (m : Nat), l.text = some t → ∀ l' m',
    (substLine db rules l m = .ok (l', m') ↔ ∃ (ss : List Str) (bs : List Bxs), stages rules t.memory = some ss ∧ ss.map (fromUnicode db) = bs.map some ∧
      l' = { l with text := some (bs.getLast?.getD t) } ∧ m' = largest m (bs.map (·.cols))) := by
  intro rules
  induction rules with
  | nil =>
    intro l t m hl l' m'
    simp only [substLine, stages, Res.ok.injEq, Prod.mk.injEq, Option.some.injEq]
    constructor
    · rintro ⟨rfl, rfl⟩
      refine ⟨[], [], rfl, rfl, ?_, rfl⟩
      cases l; simp_all
    · rintro ⟨ss, bs, rfl, h2, rfl, rfl⟩
      have : bs = [] := by cases bs with
        | nil => rfl
        | cons _ _ => simp at h2
      subst this
      refine ⟨?_, rfl⟩
      cases l; simp_all
  | cons f fs ih =>
    intro l t m hl l' m'
    rw [substLine, hl, Res.get_some, Res.ok_bind]
    simp only [stages]
    cases hf : f t.memory with
    | none => simp
    | some s =>
      simp only [Option.bind_some, Option.map_eq_some_iff]
      cases hb : fromUnicode db s with
      | none =>
        constructor
        · intro h; simp [Res.get] at h
        · rintro ⟨ss, bs, ⟨ss', -, rfl⟩, h2, -⟩
          cases bs with
          | nil => simp at h2
          | cons b bs => simp [hb] at h2
      | some b =>
        rw [Res.get_some, Res.ok_bind, ih { l with text := some b } b _ rfl l' m', fromUnicode_memory hb]
        have hmax : (if b.cols > m then b.cols else m) = max m b.cols := by split <;> omega
        rw [hmax]
        constructor
        · rintro ⟨ss, bs, h1, h2, rfl, rfl⟩
          refine ⟨s :: ss, b :: bs, ⟨ss, h1, rfl⟩, by simp [hb, h2], ?_, by simp [largest]⟩
          cases bs with
          | nil => rfl
          | cons c cs => rw [List.getLast?_cons_cons]; simp [List.getLast?_cons]
        · rintro ⟨ss, bs, ⟨ss', h1, rfl⟩, h2, rfl, rfl⟩
          cases bs with
          | nil => simp at h2
          | cons c cs =>
            simp only [List.map_cons, hb, List.cons.injEq, Option.some.injEq] at h2
            obtain ⟨rfl, h2⟩ := h2
            refine ⟨ss', cs, h1, h2, ?_, by simp [largest]⟩
            cases cs with
            | nil => rfl
            | cons d ds => rw [List.getLast?_cons_cons]; simp [List.getLast?_cons]

/-- what happens to one line: the texts `bs` that the rules make of it one after the other -/
def LineStages (db : CharDb) (rules : List Subst) (l : Line) (bs : List Bxs) : Prop :=
  ∃ t ss, l.text = some t ∧ stages rules t.memory = some ss ∧ ss.map (fromUnicode db) = bs.map some

theorem substLines_iff (db : CharDb) (rules : List Subst) : ∀ (ls : List Line) (ts : List Bxs), HasTexts ls ts → ∀ m ls' m',
    (substLines db rules ls m = .ok (ls', m') ↔ ∃ bss : List (List Bxs), bss.length = ls.length ∧
      (∀ (k : Nat) l bs, ls[k]? = some l → bss[k]? = some bs → LineStages db rules l bs) ∧
      ls'.length = ls.length ∧ (∀ (k : Nat) l t bs, ls[k]? = some l → l.text = some t → bss[k]? = some bs →
        ls'[k]? = some { l with text := some (bs.getLast?.getD t) }) ∧
      m' = largest m (bss.flatten.map (·.cols))) := by
  intro ls
  induction ls with
  | nil =>
    intro ts _ m ls' m'
    simp only [substLines, Res.ok.injEq, Prod.mk.injEq]
    constructor
    · rintro ⟨rfl, rfl⟩
      exact ⟨[], rfl, by simp, rfl, by simp, rfl⟩
    · rintro ⟨bss, h1, -, h3, -, rfl⟩
      have h1 := List.eq_nil_of_length_eq_zero h1
      have h3 := List.eq_nil_of_length_eq_zero h3
      subst h1; subst h3
      exact ⟨rfl, rfl⟩
  | cons l ls ih =>
    intro ts hts m ls' m'
    cases ts with
    | nil => simp [HasTexts] at hts
    | cons t ts =>
      simp only [HasTexts, List.map_cons, List.cons.injEq] at hts
      obtain ⟨ht, hts⟩ := hts
      simp only [substLines, Res.bind_eq_ok, Res.ok.injEq, Prod.mk.injEq]
      constructor
      · rintro ⟨⟨l1, m1⟩, h1, ⟨ls1, m2⟩, h2, rfl, rfl⟩
        obtain ⟨ss, bs, g1, g2, rfl, rfl⟩ := (substLine_iff db rules l t m ht l1 m1).1 h1
        obtain ⟨bss, k1, k2, k3, k4, rfl⟩ := (ih ts hts _ ls1 m2).1 h2
        refine ⟨bs :: bss, by simp [k1], ?_, by simp [k3], ?_, ?_⟩
        · intro k l' bs' e1 e2
          cases k with
          | zero =>
            simp only [List.getElem?_cons_zero, Option.some.injEq] at e1 e2
            subst e1; subst e2
            exact ⟨t, ss, ht, g1, g2⟩
          | succ k => exact k2 k l' bs' e1 e2
        · intro k l' t' bs' e1 e2 e3
          cases k with
          | zero =>
            simp only [List.getElem?_cons_zero, Option.some.injEq] at e1 e3
            subst e1; subst e3
            rw [ht] at e2
            cases e2
            rfl
          | succ k => exact k4 k l' t' bs' e1 e2 e3
        · simp [largest]
      · rintro ⟨bss, h1, h2, h3, h4, rfl⟩
        cases bss with
        | nil => simp at h1
        | cons bs bss =>
          cases ls' with
          | nil => simp at h3
          | cons l1 ls1 =>
            obtain ⟨t0, ss, e1, e2, e3⟩ := h2 0 l bs rfl rfl
            rw [ht] at e1
            cases e1
            have hl1 : l1 = { l with text := some (bs.getLast?.getD t) } := by
              have := h4 0 l t bs rfl ht rfl
              simpa using this
            refine ⟨(l1, largest m (bs.map (·.cols))), (substLine_iff db rules l t m ht _ _).2 ⟨ss, bs, e2, e3, hl1, rfl⟩,
              (ls1, largest m ((bs :: bss).flatten.map (·.cols))), ?_, rfl, rfl⟩
            refine (ih ts hts _ _ _).2 ⟨bss, by simpa using h1, fun k l' bs' => h2 (k + 1) l' bs', by simpa using h3,
              fun k l' t' bs' => h4 (k + 1) l' t' bs', by simp [largest]⟩

/-- C49: what the rules do.  Every line is replaced by what the last rule makes of it, each rule working on the result of the rule before
it; the longest-line value becomes the width of the widest text that came up on the way (if that is larger); with the indentation mode `text` the
indentation is determined again; nothing else changes. -/
theorem C49_rewritten (db : CharDb) (d : Design) (rules : List Subst) (i : Input) (ts : List Bxs) (hts : HasTexts i.lines ts) (j : Input) :
    applySubstitutions db d rules i = .ok j ↔ ∃ bss : List (List Bxs), bss.length = i.lines.length ∧
      (∀ (k : Nat) l bs, i.lines[k]? = some l → bss[k]? = some bs → LineStages db rules l bs) ∧
      j.lines.length = i.lines.length ∧ (∀ (k : Nat) l t bs, i.lines[k]? = some l → l.text = some t → bss[k]? = some bs →
        j.lines[k]? = some { l with text := some (bs.getLast?.getD t) }) ∧
      j.maxline = largest i.maxline (bss.flatten.map (·.cols)) ∧ j.finalNewline = i.finalNewline ∧
      (if d.indentmode = 't' then getIndent j.lines = .ok j.indent else j.indent = i.indent) := by
  unfold applySubstitutions
  rw [Res.bind_eq_ok]
  constructor
  · rintro ⟨⟨ls, m⟩, h1, h2⟩
    obtain ⟨bss, g1, g2, g3, g4, rfl⟩ := (substLines_iff db rules i.lines ts hts _ _ _).1 h1
    refine ⟨bss, g1, g2, ?_⟩
    split at h2
    · rename_i ht
      simp only [Res.bind_eq_ok, Res.ok.injEq] at h2
      obtain ⟨n, h2, rfl⟩ := h2
      exact ⟨g3, g4, rfl, rfl, by rw [if_pos ht]; exact h2⟩
    · rename_i ht
      simp only [Res.ok.injEq] at h2
      subst h2
      exact ⟨g3, g4, rfl, rfl, by rw [if_neg ht]⟩
  · rintro ⟨bss, g1, g2, g3, g4, g5, g6, g7⟩
    refine ⟨(j.lines, j.maxline), (substLines_iff db rules i.lines ts hts _ _ _).2 ⟨bss, g1, g2, g3, g4, g5⟩, ?_⟩
    by_cases ht : d.indentmode = 't'
    · rw [if_pos ht] at g7 ⊢
      simp only
      rw [g7, Res.ok_bind]
      cases j; simp_all
    · rw [if_neg ht] at g7 ⊢
      cases j; simp_all

theorem substLine_bad (db : CharDb) : ∀ (rules : List Subst) (l : Line) (t : Bxs) (m : Nat), l.text = some t →
    (∀ s ∈ attempts rules t.memory, ∃ b, fromUnicode db s = some b) →
    (substLine db rules l m = .fail 1 ∧ stages rules t.memory = none) ∨
    (∃ l' m', substLine db rules l m = .ok (l', m') ∧ (∃ t', l'.text = some t') ∧ ∃ ss, stages rules t.memory = some ss) := by
  intro rules
  induction rules with
  | nil => intro l t m hl _; exact .inr ⟨l, m, rfl, ⟨t, hl⟩, [], rfl⟩
  | cons f fs ih =>
    intro l t m hl h
    rw [substLine, hl, Res.get_some, Res.ok_bind]
    simp only [stages]
    simp only [attempts] at h
    cases hf : f t.memory with
    | none => exact .inl ⟨rfl, rfl⟩
    | some s =>
      rw [hf] at h
      simp only [List.mem_cons, forall_eq_or_imp] at h
      obtain ⟨⟨b, hb⟩, h⟩ := h
      simp only [hb, Res.get_some, Res.ok_bind, Option.bind_some]
      rcases ih { l with text := some b } b (if b.cols > m then b.cols else m) rfl (by rw [fromUnicode_memory hb]; exact h) with ⟨h1, h2⟩ | ⟨l', m', h1, h2, ss, h3⟩
      · rw [fromUnicode_memory hb] at h2
        exact .inl ⟨h1, by rw [h2]; rfl⟩
      · rw [fromUnicode_memory hb] at h3
        exact .inr ⟨l', m', h1, h2, s :: ss, by rw [h3]; rfl⟩

/-- C49: if the rules never make a text with a character that the program refuses, they either all succeed for every line, or the program ends
with an error because a rule failed. -/
theorem C49_refused (db : CharDb) (d : Design) (rules : List Subst) (i : Input) (ts : List Bxs) (hts : HasTexts i.lines ts)
    (hok : ∀ t ∈ ts, ∀ s ∈ attempts rules t.memory, ∃ b, fromUnicode db s = some b) :
    (applySubstitutions db d rules i = .fail 1 ∧ ∃ t ∈ ts, stages rules t.memory = none) ∨
    ((∃ j, applySubstitutions db d rules i = .ok j) ∧ ∀ t ∈ ts, ∃ ss, stages rules t.memory = some ss) := by
  have hlines : ∀ (ls : List Line) (ts : List Bxs) (m : Nat), HasTexts ls ts →
      (∀ t ∈ ts, ∀ s ∈ attempts rules t.memory, ∃ b, fromUnicode db s = some b) →
      (substLines db rules ls m = .fail 1 ∧ ∃ t ∈ ts, stages rules t.memory = none) ∨
      ((∃ ls' m' ts', substLines db rules ls m = .ok (ls', m') ∧ HasTexts ls' ts') ∧ ∀ t ∈ ts, ∃ ss, stages rules t.memory = some ss) := by
    intro ls
    induction ls with
    | nil =>
      intro ts m hts _
      have : ts = [] := by cases ts with
        | nil => rfl
        | cons _ _ => simp [HasTexts] at hts
      subst this
      exact .inr ⟨⟨[], m, [], rfl, rfl⟩, by simp⟩
    | cons l ls ih =>
      intro ts m hts hok
      cases ts with
      | nil => simp [HasTexts] at hts
      | cons t ts =>
        simp only [HasTexts, List.map_cons, List.cons.injEq] at hts
        obtain ⟨ht, hts⟩ := hts
        simp only [List.mem_cons, forall_eq_or_imp] at hok
        rcases substLine_bad db rules l t m ht hok.1 with ⟨h1, h2⟩ | ⟨l', m', h1, ⟨t', ht'⟩, ss, h3⟩
        · refine .inl ⟨?_, t, List.mem_cons_self, h2⟩
          rw [substLines, h1]; rfl
        · rcases ih ts m' hts hok.2 with ⟨g1, t2, g2, g3⟩ | ⟨⟨ls', m'', ts', g1, g2⟩, g3⟩
          · refine .inl ⟨?_, t2, List.mem_cons_of_mem _ g2, g3⟩
            rw [substLines, h1, Res.ok_bind]
            simp only
            rw [g1]; rfl
          · refine .inr ⟨⟨l' :: ls', m'', t' :: ts', ?_, ?_⟩, ?_⟩
            · rw [substLines, h1, Res.ok_bind]
              simp only
              rw [g1]; rfl
            · simp only [HasTexts, List.map_cons, ht']
              rw [show ls'.map Line.text = ts'.map some from g2]
            · simp only [List.mem_cons, forall_eq_or_imp]
              exact ⟨⟨ss, h3⟩, g3⟩
  unfold applySubstitutions
  rcases hlines i.lines ts i.maxline hts hok with ⟨h1, h2⟩ | ⟨⟨ls', m', ts', h1, h2⟩, h3⟩
  · exact .inl ⟨by rw [h1]; rfl, h2⟩
  · refine .inr ⟨?_, h3⟩
    rw [h1, Res.ok_bind]
    split
    · obtain ⟨n, hn, -⟩ := getIndent_eq h2
      simp only
      rw [hn, Res.ok_bind]
      exact ⟨_, rfl⟩
    · exact ⟨_, rfl⟩

/-- A rule that makes a control character (`\x07`, as in an extended replacement string) leads to a NULL pointer that is followed. -/
theorem C49_control_disagrees : applySubstitutions sampleDb {} [fun s => some (s ++ [0x07])] { lines := [{ text := some emptyBxs }] } = .ub := by
  decide +kernel

/-- Texts that come up between two rules count for the width of the box: the box can be wider than its text. -/
theorem C49_between_disagrees : ∃ j, applySubstitutions sampleDb {} [fun s => some (s ++ lit "!!!!"), fun _ => some (lit "x")]
    { lines := [{ text := some emptyBxs }] } = .ok j ∧ j.maxline = 4 ∧ (j.lines.filterMap (·.text)).map (·.cols) = [1] := ⟨_, rfl, by decide, by decide⟩

example : stages [fun s => some (s ++ lit "!"), fun s => some (s ++ s)] (lit "a") = some [lit "a!", lit "a!a!"] := by decide
example : stages [fun s => some (s ++ lit "!"), fun _ => none] (lit "a") = none ∧ attempts [fun s => some (s ++ lit "!"), fun _ => none] (lit "a") = [lit "a!"] := by decide

end Boxes
