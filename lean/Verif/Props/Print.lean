import Verif.Spec.Print
import Verif.Lemmas.Output
import Verif.Props.Remove

set_option linter.unusedSimpArgs false

/-!
# Printing what is left after a box was removed (C68)
-/
namespace Boxes
open Spec

theorem fromChar_from (db : CharDb) {s v : Str} {b : Bxs} (h : Text s v) (hb : fromUnicode db s = some b) (n : Nat) :
    ∃ p, b.fromChar n = .ok p ∧ From n s v p := by
  obtain ⟨k, h1, h2, -⟩ := firstChar_from db h hb n
  refine ⟨s.drop k, ?_, h2⟩
  unfold Bxs.fromChar
  rw [h1, Res.get_some, Res.ok_bind, (C01_metrics db h hb).1]

theorem text_no_esc {s v : Str} (h : Text s v) : ∀ c ∈ v, c ≠ 0x1b := by
  induction h with
  | nil => simp
  | vis c hc _ ih =>
    intro d hd
    rcases List.mem_cons.1 hd with rfl | hd
    · exact hc
    · exact ih d hd
  | esc e _ _ ih => exact ih

theorem from_text {n : Nat} {s v p : Str} (hs : Text s v) (h : From n s v p) : Text p (v.drop n) := by
  rcases h with ⟨hn, rfl⟩ | ⟨a, e, c, q, -, h2, h3, -, h5, h6⟩
  · rw [List.drop_of_length_le hn]; exact Text.nil
  · obtain ⟨hn, hc⟩ := List.getElem?_eq_some_iff.1 h3
    have hv : v.drop n = c :: v.drop (n + 1) := by rw [← hc]; exact List.drop_eq_getElem_cons hn
    have hq : Text (c :: q) (v.drop n) := by
      rw [hv]
      exact Text.vis c (text_no_esc hs c (hc ▸ List.getElem_mem hn)) h5
    rw [h2]
    rcases h6 with ⟨he, -⟩ | ⟨rfl, -⟩
    · exact Text.esc e he hq
    · exact hq

theorem last_nonblank (db : CharDb) (v : Str) (h : ∃ c ∈ v, ¬ Blank db c) :
    ∃ x c y, v = x ++ c :: y ∧ ¬ Blank db c ∧ (∀ d ∈ y, Blank db d) ∧ dropTrailing db v = x ++ [c] := by
  have hsp := List.takeWhile_append_dropWhile (p := fun c => decide (Blank db c)) (l := v.reverse)
  have hall := List.all_takeWhile (p := fun c => decide (Blank db c)) (l := v.reverse)
  have hhd := List.head?_dropWhile_not (p := fun c => decide (Blank db c)) v.reverse
  unfold dropTrailing
  cases hd : v.reverse.dropWhile (fun c => decide (Blank db c)) with
  | nil =>
    rw [hd, List.append_nil] at hsp
    rw [hsp] at hall
    obtain ⟨c, hc, hb⟩ := h
    have := List.all_eq_true.1 hall c (List.mem_reverse.2 hc)
    exact absurd (of_decide_eq_true this) hb
  | cons c l =>
    rw [hd] at hsp hhd
    refine ⟨l.reverse, c, (v.reverse.takeWhile (fun c => decide (Blank db c))).reverse, ?_, ?_, ?_, by simp⟩
    · have := congrArg List.reverse hsp
      rw [List.reverse_reverse] at this
      refine this.symm.trans ?_; simp
    · simpa using hhd
    · intro d hd'
      exact of_decide_eq_true (List.all_eq_true.1 hall d (List.mem_reverse.1 hd'))

theorem trimmed_rtrim (db : CharDb) {s v : Str} {b : Bxs} (h : Text s v) (hb : fromUnicode db s = some b) :
    ∃ r v', b.rtrim db = some r ∧ fromUnicode db r.memory = some r ∧ EndTrimmed db s v r.memory v' := by
  have hm := C01_metrics db h hb
  by_cases hall : ∀ c ∈ v, Blank db c
  · refine ⟨b, v, C04_rtrim_blank db h hb hall, by rw [hm.1]; exact hb, by rw [hm.1]; exact h, Or.inl ⟨hall, hm.1, rfl⟩⟩
  · have hex : ∃ c ∈ v, ¬ Blank db c := by simpa using hall
    obtain ⟨r, h1, h2, h3, h4⟩ := C04_rtrim db h hb hex
    refine ⟨r, _, h1, h2, h4, Or.inr ⟨hex, rfl, ?_⟩⟩
    obtain ⟨x, c, y, e1, e2, e3, e4⟩ := last_nonblank db v hex
    have htr := hm.2.2.2.2.2.2.2.2 x c y e1 e2 e3
    unfold Bxs.rtrim at h1
    by_cases h0 : y = []
    · subst h0
      rw [if_pos (by rw [htr]; rfl)] at h1
      injection h1 with h1
      subst h1
      exact Or.inl ⟨by rw [e4, e1], hm.1⟩
    · have hy : y.length ≠ 0 := fun h' => h0 (List.eq_nil_of_length_eq_zero h')
      have hvl : v.length = x.length + 1 + y.length := by rw [e1]; simp; omega
      have hdl : (dropTrailing db v).length = x.length + 1 := by rw [e4]; simp
      rw [if_neg (by omega), hm.2.2.1, if_neg (by omega), htr] at h1
      obtain ⟨k, k1, k2, -⟩ := firstChar_from db h hb (x.length + 1)
      rw [hm.2.2.1, if_neg (by omega)] at k1
      rw [show v.length - y.length = x.length + 1 by omega, k1, hm.1] at h1
      simp only [Option.bind_eq_bind, Option.bind_some] at h1
      have hmem : r.memory = s.take k := by
        have := fromUnicode_memory h1
        exact this
      refine Or.inr ⟨?_, s.drop k, by rw [hmem, List.take_append_drop], by rw [hdl]; exact k2⟩
      intro heq
      have := congrArg List.length heq
      omega

/-- what `fromUnicode` needs -/
theorem analysed (db : CharDb) {s v : Str} (h : Text s v) (hf : ∀ c ∈ v, ¬ Forbidden db c) : ∃ b, fromUnicode db s = some b := by
  cases hb : fromUnicode db s with
  | some b => exact ⟨b, rfl⟩
  | none =>
    obtain ⟨c, hc, hcf⟩ := (C01_rejected_iff db h).1 hb
    exact absurd hcf (hf c hc)

theorem outputLine_printed (db : CharDb) (opt : Opt) (n : Nat) (l : Line) {s v : Str} {b : Bxs} (h : Text s v)
    (hb : fromUnicode db s = some b) (hts : 1 ≤ opt.tabstop)
    (htab : opt.tabexp = 'k' → l.tabpos.Pairwise (fun a b => a + tabCols opt.tabstop a ≤ b)) :
    ∃ p, outputLine opt n l b = .ok p ∧ Printed db opt n l.tabpos s v p := by
  unfold outputLine
  by_cases hu : opt.tabexp = 'u'
  · rw [if_pos hu, if_neg (by omega)]
    have hind := (C01_metrics db h hb).2.2.2.2.2.2.1
    obtain ⟨p, h1, h2⟩ := fromChar_from db h hb b.indent
    rw [h1, Res.ok_bind]
    refine ⟨_, rfl, fun hh => absurd hu hh, fun _ => ?_, fun hk => ?_⟩
    · obtain ⟨g1, a, c, g2, g3⟩ := C08_unexpand opt.tabstop hts b.indent
      rw [hind] at h2 g1
      exact ⟨_, p, a, c, rfl, g2, g3, by rw [hind]; exact g1, h2⟩
    · rw [hu] at hk
      exact absurd hk (by decide)
  · rw [if_neg hu]
    by_cases hk : opt.tabexp = 'k'
    · rw [if_pos hk]
      obtain ⟨r, r1, r2⟩ := tabbifyIndent_total opt.tabstop n hts _ (htab hk)
      obtain ⟨p, h1, h2⟩ := fromChar_from db h hb n
      rw [r1, Res.get_some, Res.ok_bind, h1, Res.ok_bind]
      refine ⟨_, rfl, fun _ hh => absurd hk hh, fun hh => absurd hh hu, fun _ => ⟨r, p, rfl, h2, r2, ?_⟩⟩
      intro hone
      obtain ⟨r', e1, e2, e3⟩ := C08_keep_partial opt.tabstop hts n _ (pairwise_lt_of_tabs hts (htab hk)) hone
      rw [r1] at e1
      injection e1 with e1
      subst e1
      exact ⟨e2, e3⟩
    · rw [if_neg hk]
      obtain ⟨p, h1, h2⟩ := fromChar_from db h hb 0
      rw [h1, Res.ok_bind]
      exact ⟨_, rfl, fun _ _ => h2, fun hh => absurd hh hu, fun hh => absurd hh hk⟩

theorem rtrimLines_total (db : CharDb) (opt : Opt) : ∀ (lines : List Line) (ls : List (Str × Str)), Remaining db opt lines ls →
    ∃ out ts, rtrimLines db lines = .ok out ∧ Remaining db opt out ts ∧ ts.length = ls.length ∧
      ∀ (k : Nat) p, ls[k]? = some p → ∃ q, ts[k]? = some q ∧ EndTrimmed db p.1 p.2 q.1 q.2 ∧
        ∃ l l', lines[k]? = some l ∧ out[k]? = some l' ∧ l' = { l with text := fromUnicode db q.1 }
  | [], [], h => ⟨[], [], rfl, h, rfl, by simp⟩
  | [], _ :: _, h => by have := h.texts; simp at this
  | _ :: _, [], h => by have := h.texts; simp at this
  | l :: lines, p :: ls, h => by
    have htx := h.texts
    simp only [List.map_cons, List.cons.injEq] at htx
    obtain ⟨out, ts, h1, h2, h3, h4⟩ := rtrimLines_total db opt lines ls
      ⟨htx.2, fun p hp => h.good p (by simp [hp]), fun hk l hl => h.tabs hk l (by simp [hl]), h.tabstop⟩
    obtain ⟨g1, g2⟩ := h.good p (by simp)
    obtain ⟨b, hb⟩ := analysed db g1 g2
    obtain ⟨r, v', r1, r2, r3⟩ := trimmed_rtrim db g1 hb
    refine ⟨{ l with text := some r } :: out, (r.memory, v') :: ts, ?_, ⟨?_, ?_, ?_, h.tabstop⟩, by simp [h3], ?_⟩
    · unfold rtrimLines
      rw [h1, Res.ok_bind, htx.1, hb]
      dsimp only
      rw [r1, Res.get_some, Res.ok_bind]
    · simp only [List.map_cons, List.cons.injEq]
      exact ⟨r2.symm, h2.texts⟩
    · intro q hq
      rcases List.mem_cons.1 hq with rfl | hq
      · refine ⟨r3.1, ?_⟩
        intro c hc hf
        have := (C01_rejected_iff db r3.1).2 ⟨c, hc, hf⟩
        rw [r2] at this
        simp at this
      · exact h2.good q hq
    · intro hk x hx
      rcases List.mem_cons.1 hx with rfl | hx
      · exact h.tabs hk l (by simp)
      · exact h2.tabs hk x hx
    · intro k q hq
      cases k with
      | zero =>
        simp only [List.getElem?_cons_zero, Option.some.injEq] at hq
        subst hq
        exact ⟨_, rfl, r3, l, _, rfl, rfl, by rw [r2]⟩
      | succ k =>
        simp only [List.getElem?_cons_succ] at hq ⊢
        exact h4 k q hq

theorem outputLines_total (db : CharDb) (opt : Opt) (fin : Bool) (n : Nat) : ∀ (lines : List Line) (ls : List (Str × Str)),
    Remaining db opt lines ls →
    ∃ out, outputLines opt fin n lines = .ok out ∧ out.length = ls.length ∧
      ∀ (k : Nat) p, ls[k]? = some p → ∃ l o, lines[k]? = some l ∧ out[k]? = some o ∧ Printed db opt n l.tabpos p.1 p.2 o.1 ∧
        o.2 = if k + 1 = ls.length ∧ fin = false then [] else opt.eol
  | [], [], h => ⟨[], rfl, rfl, by simp⟩
  | [], _ :: _, h => by have := h.texts; simp at this
  | _ :: _, [], h => by have := h.texts; simp at this
  | l :: lines, p :: ls, h => by
    have htx := h.texts
    simp only [List.map_cons, List.cons.injEq] at htx
    obtain ⟨out, h1, h2, h3⟩ := outputLines_total db opt fin n lines ls
      ⟨htx.2, fun p hp => h.good p (by simp [hp]), fun hk l hl => h.tabs hk l (by simp [hl]), h.tabstop⟩
    obtain ⟨g1, g2⟩ := h.good p (by simp)
    obtain ⟨b, hb⟩ := analysed db g1 g2
    obtain ⟨o, o1, o2⟩ := outputLine_printed db opt n l g1 hb h.tabstop (fun hk => h.tabs hk l (by simp))
    have hlen : lines.length = ls.length := by simpa using congrArg List.length htx.2
    refine ⟨(o, if fin ∨ lines ≠ [] then opt.eol else []) :: out, ?_, ?_, ?_⟩
    · unfold outputLines
      rw [h1, Res.ok_bind, htx.1, hb]
      dsimp only
      rw [o1, Res.ok_bind]
    · simp [h2]
    · intro k q hq
      cases k with
      | zero =>
        simp only [List.getElem?_cons_zero, Option.some.injEq] at hq
        subst hq
        refine ⟨l, _, rfl, rfl, o2, ?_⟩
        cases lines with
        | nil =>
          obtain rfl := List.eq_nil_of_length_eq_zero hlen.symm
          cases fin <;> simp
        | cons x xs =>
          cases ls with
          | nil => simp at hlen
          | cons y ys => cases fin <;> simp
      | succ k =>
        simp only [List.getElem?_cons_succ] at hq ⊢
        obtain ⟨l', o', e1, e2, e3, e4⟩ := h3 k q hq
        refine ⟨l', o', e1, e2, e3, ?_⟩
        rw [e4]
        simp

/-- C68: every remaining line is printed, in order, without its trailing blanks, followed by the line terminator (the last one only if the
input ended with a line break).  The remaining lines themselves are replaced by the trimmed ones and nothing else changes; when a box is
being repaired, nothing is printed. -/
theorem C68_printed (db : CharDb) (opt : Opt) (trimOnly : Bool) (i : Input) (ls : List (Str × Str)) (h : Remaining db opt i.lines ls) :
    ∃ j out, outputInput db opt trimOnly i = .ok (j, out) ∧ j.maxline = i.maxline ∧ j.indent = i.indent ∧
      j.finalNewline = i.finalNewline ∧ j.lines.length = ls.length ∧ (trimOnly = true → out = []) ∧
      (trimOnly = false → out.length = ls.length) ∧
      ∀ (k : Nat) p, ls[k]? = some p → ∃ s v l, EndTrimmed db p.1 p.2 s v ∧ i.lines[k]? = some l ∧
        j.lines[k]? = some { l with text := fromUnicode db s } ∧
        (trimOnly = false → ∃ q, out[k]? = some (q, if k + 1 = ls.length ∧ i.finalNewline = false then [] else opt.eol) ∧
          Printed db opt i.indent l.tabpos s v q) := by
  obtain ⟨ls', ts, h1, h2, h3, h4⟩ := rtrimLines_total db opt i.lines ls h
  have hl' : ls'.length = ls.length := by
    have := congrArg List.length h2.texts
    simp at this
    omega
  unfold outputInput
  rw [h1, Res.ok_bind]
  cases trimOnly with
  | true =>
    refine ⟨{ i with lines := ls' }, [], rfl, rfl, rfl, rfl, hl', fun _ => rfl, by simp, ?_⟩
    intro k p hp
    obtain ⟨q, q1, q2, l, l', q3, q4, rfl⟩ := h4 k p hp
    exact ⟨q.1, q.2, l, q2, q3, q4, by simp⟩
  | false =>
    obtain ⟨out, o1, o2, o3⟩ := outputLines_total db opt i.finalNewline i.indent ls' ts h2
    simp only [Bool.false_eq_true, if_false]
    rw [o1, Res.ok_bind]
    refine ⟨{ i with lines := ls' }, out, rfl, rfl, rfl, rfl, hl', by simp, fun _ => by omega, ?_⟩
    intro k p hp
    obtain ⟨q, q1, q2, l, l', q3, q4, rfl⟩ := h4 k p hp
    refine ⟨q.1, q.2, l, q2, q3, q4, fun _ => ?_⟩
    obtain ⟨l'', o, e1, e2, e3, e4⟩ := o3 k q q1
    rw [q4] at e1
    injection e1 with e1
    subst e1
    refine ⟨o.1, ?_, e3⟩
    rw [e2, ← h3, ← e4]

/-- C68: nothing of the text is lost.  With its tabs replaced, the printed line shows the line that is left; for unexpanded tabs provided
that blanks are one column wide, and for kept tabs provided that the line has the common indentation and that several restored tabs do not
get into each other's way (C08). -/
theorem C68_shows (db : CharDb) (opt : Opt) (n : Nat) (tabpos : List Nat) (s v q : Str) (h : Text s v)
    (hu : opt.tabexp = 'u' → NarrowBlanks db v)
    (hk : opt.tabexp = 'k' → n ≤ leadingBlanks db v ∧
      ∀ a b c, fitting opt.tabstop n tabpos = a ++ b :: c → c ≠ [] → opt.tabstop ∣ b + 1)
    (hp : Printed db opt n tabpos s v q) : Shows db opt.tabstop v q := by
  by_cases h1 : opt.tabexp = 'u'
  · obtain ⟨ind, rest, a, c, g1, g2, g3, g4, g5⟩ := hp.unexpanded h1
    have hcol : columns db (v.takeWhile (fun c => decide (Blank db c))) = leadingBlanks db v := by
      have := columns_takeWhile_narrow db (hu h1)
      rw [isBlank_fun] at this
      exact this
    rw [hcol] at g4 g5
    refine ⟨ind, rest, _, g1, ?_, Nat.le_refl _, g4, from_text h g5⟩
    rw [g2]
    intro x hx
    simp only [List.mem_append, List.mem_replicate] at hx
    rcases hx with hx | hx
    · exact Or.inr hx.2
    · exact Or.inl hx.2
  · by_cases h2 : opt.tabexp = 'k'
    · obtain ⟨ind, rest, g1, g2, g3, g4⟩ := hp.kept h2
      obtain ⟨k1, k2⟩ := hk h2
      exact ⟨ind, rest, n, g1, g3, k1, (g4 k2).1, from_text h g2⟩
    · have := hp.plain h1 h2
      exact ⟨[], q, 0, rfl, by simp, Nat.zero_le _, Expand.nil _, by simpa using from_text h this⟩

/-- C68: right after the removal of a box with a left side, every line has the common indentation, so that keeping tabs loses nothing. -/
theorem C68_common_indent (db : CharDb) (opt : Opt) (d : Design) (i j : Input) (ctx : RemoveCtx) (ls : List (Str × Str))
    (hf : findBox db d i = .ok (some ctx)) (hno : ctx.topEnd ≤ ctx.bottomStart) (hleft : (determineEmptySides d).left = false)
    (h : removeBox db opt d i = .ok j) (hr : Remaining db opt j.lines ls) (hnar : ∀ p ∈ ls, NarrowBlanks db p.2) :
    ∀ p ∈ ls, j.indent ≤ leadingBlanks db p.2 := by
  obtain ⟨_, _, _, _, _, _, _, _, body, mid, mid', k, k', n, b1, b2, b3, b4, b5, b6, b7, b8, b9, b10, b11, b12⟩ :=
    C23_structure db opt d i j ctx hf hno h
  obtain rfl := b7.closed hleft
  have hmid : mid' = mid := by
    apply List.ext_getElem?
    intro x
    by_cases hx : x < mid.length
    · rw [List.getElem?_eq_getElem hx, List.getElem?_eq_getElem (by omega : x < mid'.length)]
      exact congrArg some ((b9 x _ _ (List.getElem?_eq_getElem hx) (List.getElem?_eq_getElem (by omega))).1 rfl)
    · rw [List.getElem?_eq_none (by omega), List.getElem?_eq_none (by omega)]
  rw [hmid] at b10
  rw [← b10] at b12
  intro p hp
  obtain ⟨x, hx⟩ := List.getElem?_of_mem hp
  have hmap := congrArg (fun l => l[x]?) hr.texts
  simp only [List.getElem?_map, hx, Option.map_some] at hmap
  cases hl : j.lines[x]? with
  | none => rw [hl] at hmap; simp at hmap
  | some l =>
    rw [hl] at hmap
    simp only [Option.map_some, Option.some.injEq] at hmap
    obtain ⟨t, t1, t2, t3⟩ := b12.bounds l (List.mem_of_getElem? hl)
    obtain ⟨g1, g2⟩ := hr.good p hp
    rw [t1] at hmap
    have := (C01_metrics db g1 hmap.symm).2.2.2.2.2.2.1
    have hcol := columns_takeWhile_narrow db (hnar p hp)
    rw [isBlank_fun] at hcol
    unfold leadingBlanks
    omega

/-! ## examples and counterexamples -/

/-- a box without blank lines around it, indented by two columns -/
def boxedTight : Input := mkInput ["  ..-=<>=-.", "  O|      )", "  || ab   (", "  ||cd    )", "  ||      (", "  `'######'"] 2

/-- what is printed when the box is removed -/
def removedText (opt : Opt) (rules : List Subst) (i : Input) : Res (List (Str × Str)) := do
  let q ← handleRemoveBox sampleDb opt sampleDesign rules i
  .ok q.2

example : removedText { r := true, tabexp := 'e' } [] boxedTight = .ok [(lit "  ab", lit "\n"), (lit "  cd", lit "\n")] := by decide +kernel

example : removedText { r := true, tabexp := 'u', tabstop := 2 } [] boxedTight = .ok [(lit "\tab", lit "\n"), (lit "\tcd", lit "\n")] := by
  decide +kernel

example : removedText { r := true, tabexp := 'k' } [] boxedTight = .ok [(lit "  ab", lit "\n"), (lit "  cd", lit "\n")] := by decide +kernel

/-- the lines that are left after the removal meet the hypotheses -/
example : ∃ ctx j, findBox sampleDb sampleDesign boxedTight = .ok (some ctx) ∧ ctx.topEnd ≤ ctx.bottomStart ∧
    (determineEmptySides sampleDesign).left = false ∧ removeBox sampleDb { r := true, killblank := 1, tabexp := 'k' } sampleDesign boxedTight = .ok j ∧
    j.lines.map Line.text = [(lit "  ab   ", lit "  ab   "), (lit "  cd    ", lit "  cd    ")].map (fun p => fromUnicode sampleDb p.1) ∧
    j.indent = 2 ∧ j.maxline = 8 := by
  have h : ((match findBox sampleDb sampleDesign boxedTight,
      removeBox sampleDb { r := true, killblank := 1, tabexp := 'k' } sampleDesign boxedTight with
    | .ok (some ctx), .ok j => decide (ctx.topEnd ≤ ctx.bottomStart ∧ (determineEmptySides sampleDesign).left = false ∧
        j.lines.map Line.text = [(lit "  ab   ", lit "  ab   "), (lit "  cd    ", lit "  cd    ")].map (fun p => fromUnicode sampleDb p.1) ∧
        j.indent = 2 ∧ j.maxline = 8)
    | _, _ => false) = true) := by decide +kernel
  split at h
  · rename_i ctx j h1 h2
    have := of_decide_eq_true h
    exact ⟨ctx, j, h1, this.1, this.2.1, h2, this.2.2⟩
  · simp at h

example : Remaining sampleDb { tabexp := 'k', tabstop := 4 }
    [{ text := fromUnicode sampleDb (lit "    ab  "), tabpos := [0] }, { text := fromUnicode sampleDb (lit "  cd"), tabpos := [] }]
    [(lit "    ab  ", lit "    ab  "), (lit "  cd", lit "  cd")] := by
  refine ⟨rfl, ?_, ?_, by decide⟩
  · intro p hp
    simp only [List.mem_cons, List.not_mem_nil, or_false] at hp
    rcases hp with rfl | rfl
    · exact ⟨Text.plain (by decide), by decide⟩
    · exact ⟨Text.plain (by decide), by decide⟩
  · intro _ l hl
    simp only [List.mem_cons, List.not_mem_nil, or_false] at hl
    rcases hl with rfl | rfl <;> simp

/-- With kept tabs, text is lost after a reversion rule that shortens the indentation: `input.indent` is not brought up to date
(src/input.c:178-188 does so only for indentation mode `text`), and as many characters are left out at the front (src/remove.c:1207-1216).
Here the rule takes away leading spaces, and of `ab` and `cd` nothing is printed but two spaces each. -/
theorem C68_rule_disagrees :
    removedText { r := true, tabexp := 'k' } [fun s => some (s.dropWhile (· == 0x20))] boxedTight =
      .ok [(lit "  ", lit "\n"), (lit "  ", lit "\n")] ∧
    removedText { r := true, tabexp := 'e' } [fun s => some (s.dropWhile (· == 0x20))] boxedTight =
      .ok [(lit "ab", lit "\n"), (lit "cd", lit "\n")] := by decide +kernel

/-- Of several escape sequences at the beginning of a line only the last one is printed (`bxs_first_char_ptr`, src/bxstring.c:381-390), here
not the one for bold. -/
theorem C68_escape_disagrees :
    (do
      let q ← outputInput sampleDb {} false
        { lines := [{ text := fromUnicode sampleDb ([0x1b] ++ lit "[1m" ++ [0x1b] ++ lit "[31mab"), tabpos := [] }], maxline := 2, indent := 0, finalNewline := true }
      .ok q.2 : Res (List (Str × Str))) = .ok [([0x1b] ++ lit "[31mab", lit "\n")] := by decide +kernel

end Boxes
