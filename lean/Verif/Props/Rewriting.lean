import Verif.Spec.Rewriting
import Verif.Props.Rules
import Verif.Props.Whole

/-!
# Boxes of designs with replacement rules (C49, C69)
-/
namespace Boxes
open Spec ShapeName
set_option linter.unusedSimpArgs false

/-- the rules work on what the analysis without rules gives -/
theorem analyze_then_rules {db : CharDb} {opt : Opt} (hr : opt.r = false) (d : Design) (rules : List Subst) (i j : Input) (hne : i.lines ≠ [])
    (h : analyzeInput db opt d [] i = .ok j) : analyzeInput db opt d rules i = applySubstitutions db d rules j := by
  unfold analyzeInput at h ⊢
  rw [Res.bind_eq_ok] at h
  obtain ⟨m, h1, h2⟩ := h
  rw [h1, Res.ok_bind]
  rw [if_neg hne] at h2 ⊢
  rw [Res.bind_eq_ok] at h2
  obtain ⟨n, h3, h4⟩ := h2
  rw [h3, Res.ok_bind]
  rw [Res.bind_eq_ok] at h4
  obtain ⟨k, h5, h6⟩ := h4
  rw [h5, Res.ok_bind]
  rw [if_pos hr] at h6 ⊢
  have hnil : ∀ (ls : List Line) m, substLines db [] ls m = .ok (ls, m) := by
    intro ls
    induction ls with
    | nil => intro m; rfl
    | cons l ls ih => intro m; simp only [substLines, substLine, Res.ok_bind, ih]
  unfold applySubstitutions at h6 ⊢
  rw [hnil, Res.ok_bind] at h6
  split at h6
  · rename_i ht
    rw [Res.bind_eq_ok] at h6
    obtain ⟨n', h7, h8⟩ := h6
    cases h8
    simp only [if_pos ht]
  · cases h6
    rfl

theorem stages_attempts : ∀ {rules : List Subst} {s : Str} {ss : List Str}, stages rules s = some ss → attempts rules s = ss
  | [], s, ss, h => by simp only [stages, Option.some.injEq] at h; exact h
  | f :: fs, s, ss, h => by
    unfold stages at h
    unfold attempts
    rw [Option.bind_eq_some_iff] at h
    obtain ⟨t, h1, h2⟩ := h
    rw [Option.map_eq_some_iff] at h2
    obtain ⟨r, h3, rfl⟩ := h2
    rw [h1]
    simp only [stages_attempts h3]

theorem largest_ge (m : Nat) (l : List Nat) : m ≤ largest m l ∧ (∀ x ∈ l, x ≤ largest m l) ∧ (largest m l = m ∨ largest m l ∈ l) := by
  unfold largest
  induction l generalizing m with
  | nil => simp
  | cons a l ih =>
    obtain ⟨h1, h2, h3⟩ := ih (max m a)
    simp only [List.foldl_cons]
    refine ⟨by omega, ?_, ?_⟩
    · intro x hx
      rcases List.mem_cons.1 hx with rfl | hx
      · omega
      · exact h2 x hx
    · rcases h3 with h3 | h3
      · rcases Nat.le_total m a with h | h
        · exact .inr (by rw [h3, Nat.max_eq_right h]; exact List.mem_cons_self)
        · exact .inl (by rw [h3, Nat.max_eq_left h])
      · exact .inr (List.mem_cons_of_mem _ h3)

/-- a text without forbidden characters is analysed to its metrics -/
theorem legit_bxs {db : CharDb} {s v : Str} (ht : Text s v) (hl : Legit db v) :
    ∃ b, fromUnicode db s = some b ∧ b.cols = columns db v ∧ b.indent = leadingBlanks db v ∧ b.memory = s := by
  obtain ⟨b, hb⟩ := analysed db ht hl.1
  obtain ⟨-, -, -, -, m1, -, m2, -⟩ := C01_metrics db ht hb
  exact ⟨b, hb, m1, by rw [m2, indent_narrow db _ hl.2], fromUnicode_memory hb⟩

/-- the text block after the rules -/
theorem rewritten_block {db : CharDb} (opt : Opt) (d : Design) (rules : List Subst) (j0 : Input) (ls us : List (Str × Str))
    (hb : TextBlock db opt d j0 ls) (hl : ∀ p ∈ ls, Legit db p.2) (hmax : ∃ p ∈ ls, columns db p.2 = j0.maxline)
    (hus : LeastIndent db (us.map Prod.snd) j0.indent) (ht : ∀ p ∈ ls, TameRules db rules p.1) :
    (applySubstitutions db d rules j0 = .fail 1 ∧ ∃ p ∈ ls, stages rules p.1 = none) ∨
    ∃ (j : Input) (ws : List (Str × Str)), applySubstitutions db d rules j0 = .ok j ∧ RewrittenTo db rules ls ws j.maxline ∧
      TextBlock db opt d j ws ∧ j.finalNewline = j0.finalNewline ∧ j.lines.length = j0.lines.length ∧
      LeastIndent db ((if d.indentmode = 't' then ws else us).map Prod.snd) j.indent := by
  have hbx : ∀ p ∈ ls, ∃ b, fromUnicode db p.1 = some b ∧ b.cols = columns db p.2 ∧ b.indent = leadingBlanks db p.2 ∧ b.memory = p.1 :=
    fun p hp => legit_bxs (hb.good p hp).1 (hl p hp)
  have hT : HasTexts j0.lines (ls.map (fun p => (fromUnicode db p.1).getD emptyBxs)) := by
    unfold HasTexts
    rw [hb.texts, List.map_map]
    apply List.map_congr_left
    intro p hp
    obtain ⟨b, e, -⟩ := hbx p hp
    simp [e]
  have hattempt : ∀ p ∈ ls, ∀ s ∈ attempts rules p.1, ∃ b, fromUnicode db s = some b := by
    intro p hp s hs
    obtain ⟨w, h1, h2⟩ := ht p hp s hs
    obtain ⟨b, hb, -⟩ := legit_bxs h1 h2
    exact ⟨b, hb⟩
  rcases C49_refused db d rules j0 _ hT (by
    intro t ht' s hs
    obtain ⟨p, hp, rfl⟩ := List.mem_map.1 ht'
    obtain ⟨b, e, -, -, e4⟩ := hbx p hp
    rw [e] at hs
    simp only [Option.getD_some, e4] at hs
    exact hattempt p hp s hs) with ⟨h1, t, h2, h3⟩ | ⟨⟨j, h1⟩, h2⟩
  · left
    obtain ⟨p, hp, rfl⟩ := List.mem_map.1 h2
    obtain ⟨b, e, -, -, e4⟩ := hbx p hp
    rw [e] at h3
    simp only [Option.getD_some, e4] at h3
    exact ⟨h1, p, hp, h3⟩
  · right
    have hst : ∀ p ∈ ls, ∃ ss, stages rules p.1 = some ss := by
      intro p hp
      obtain ⟨b, e, -, -, e4⟩ := hbx p hp
      obtain ⟨ss, h⟩ := h2 _ (List.mem_map.2 ⟨p, hp, rfl⟩)
      rw [e] at h
      simp only [Option.getD_some, e4] at h
      exact ⟨ss, h⟩
    obtain ⟨bss, g1, g2, g3, g4, g5, g6, g7⟩ := (C49_rewritten db d rules j0 _ hT j).1 h1
    have hlen : j0.lines.length = ls.length := by simpa using congrArg List.length hb.texts
    -- the final text of each line with its visible part
    have hfinal : ∀ p ∈ ls, ∃ w : Str × Str, ∃ ss, stages rules p.1 = some ss ∧ w.1 = ss.getLast?.getD p.1 ∧ Text w.1 w.2 ∧ Legit db w.2 := by
      intro p hp
      obtain ⟨ss, hss⟩ := hst p hp
      cases hl' : ss.getLast? with
      | none => exact ⟨p, ss, hss, by simp [hl'], (hb.good p hp).1, hl p hp⟩
      | some s =>
        obtain ⟨w, w1, w2⟩ := ht p hp s (by rw [stages_attempts hss]; exact List.mem_of_getLast? hl')
        exact ⟨(s, w), ss, hss, by simp [hl'], w1, w2⟩
    have hws : ∀ (ls : List (Str × Str)), (∀ p ∈ ls, ∃ w : Str × Str, ∃ ss, stages rules p.1 = some ss ∧ w.1 = ss.getLast?.getD p.1 ∧ Text w.1 w.2 ∧ Legit db w.2) →
        ∃ ws : List (Str × Str), ws.length = ls.length ∧ ∀ (i : Nat) p, ls[i]? = some p → ∃ w ss, ws[i]? = some w ∧ stages rules p.1 = some ss ∧
          w.1 = ss.getLast?.getD p.1 ∧ Text w.1 w.2 ∧ Legit db w.2 := by
      intro ls
      induction ls with
      | nil => intro _; exact ⟨[], rfl, by simp⟩
      | cons p ls ih =>
        intro h
        obtain ⟨w, ss, a1, a2, a3, a4⟩ := h p List.mem_cons_self
        obtain ⟨ws, b1, b2⟩ := ih (fun q hq => h q (List.mem_cons_of_mem _ hq))
        refine ⟨w :: ws, by simp [b1], ?_⟩
        intro i q hq
        cases i with
        | zero => simp at hq; subst hq; exact ⟨w, ss, rfl, a1, a2, a3, a4⟩
        | succ i => exact b2 i q (by simpa using hq)
    obtain ⟨ws, w1, w2⟩ := hws ls hfinal
    have hwmem : ∀ w ∈ ws, Text w.1 w.2 ∧ Legit db w.2 ∧ ∃ (i : Nat) (p : Str × Str) (ss : List Str), ls[i]? = some p ∧ ws[i]? = some w ∧ stages rules p.1 = some ss ∧
        w.1 = ss.getLast?.getD p.1 := by
      intro w hw
      obtain ⟨i, hi⟩ := List.getElem?_of_mem hw
      have hlt : i < ls.length := by rw [← w1]; exact (List.getElem?_eq_some_iff.1 hi).1
      obtain ⟨w', ss, a1, a2, a3, a4, a5⟩ := w2 i ls[i] (List.getElem?_eq_getElem hlt)
      rw [hi] at a1
      cases a1
      exact ⟨a4, a5, i, _, ss, List.getElem?_eq_getElem hlt, hi, a2, a3⟩
    -- the lines and the stages by index
    have hline : ∀ (i : Nat) p, ls[i]? = some p → ∃ (l : Line) (b : Bxs) (ss : List Str) (bs : List Bxs), j0.lines[i]? = some l ∧ l.text = some b ∧ fromUnicode db p.1 = some b ∧
        stages rules p.1 = some ss ∧ bss[i]? = some bs ∧ ss.map (fromUnicode db) = bs.map some ∧ j.lines[i]? = some { l with text := some (bs.getLast?.getD b) } := by
      intro i p hp
      have hlt : i < ls.length := (List.getElem?_eq_some_iff.1 hp).1
      have hl0 : j0.lines[i]? = some j0.lines[i] := List.getElem?_eq_getElem (by omega)
      have hbs : bss[i]? = some bss[i] := List.getElem?_eq_getElem (by omega)
      obtain ⟨b, e, -, -, e4⟩ := hbx p (List.mem_of_getElem? hp)
      have htx : (j0.lines.map Line.text)[i]? = (ls.map (fun p => fromUnicode db p.1))[i]? := by rw [hb.texts]
      rw [List.getElem?_map, List.getElem?_map, hl0, hp] at htx
      simp only [Option.map_some, Option.some.injEq, e] at htx
      obtain ⟨t, ss, k1, k2, k3⟩ := g2 i _ _ hl0 hbs
      rw [htx] at k1
      cases k1
      rw [e4] at k2
      exact ⟨_, b, ss, _, hl0, htx, e, k2, hbs, k3, g4 i _ _ _ hl0 htx hbs⟩
    have hcolsOf : ∀ s b v, fromUnicode db s = some b → Text s v → b.cols = columns db v := by
      intro s b v h1 h2
      obtain ⟨-, -, -, -, m1, -⟩ := C01_metrics db h2 h1
      exact m1
    obtain ⟨q1, q2, q3⟩ := largest_ge j0.maxline (bss.flatten.map (·.cols))
    rw [← g5] at q1 q2 q3
    have hstage : ∀ p ∈ ls, ∀ ss, stages rules p.1 = some ss → ∀ s ∈ ss, ∀ v, Text s v → columns db v ≤ j.maxline := by
      intro p hp ss hss s hs v hv
      obtain ⟨i, hi⟩ := List.getElem?_of_mem hp
      obtain ⟨l, b, ss', bs, k1, k2, k3, k4, k5, k6, k7⟩ := hline i p hi
      rw [hss] at k4
      cases k4
      have : fromUnicode db s ∈ bs.map some := by rw [← k6]; exact List.mem_map.2 ⟨s, hs, rfl⟩
      obtain ⟨b', hb', e⟩ := List.mem_map.1 this
      rw [← hcolsOf s b' v e.symm hv]
      exact q2 _ (List.mem_map.2 ⟨b', List.mem_flatten.2 ⟨bs, List.mem_of_getElem? k5, hb'⟩, rfl⟩)
    have hold : ∀ p ∈ ls, columns db p.2 ≤ j.maxline := fun p hp => Nat.le_trans (hb.fits p hp) q1
    have hnew : ∀ w ∈ ws, columns db w.2 ≤ j.maxline := by
      intro w hw
      obtain ⟨h1, h2, i, p, ss, h3, h4, h5, h6⟩ := hwmem w hw
      cases hl' : ss.getLast? with
      | none =>
        rw [hl'] at h6
        simp only [Option.getD_none] at h6
        obtain ⟨b, e, e2, -⟩ := hbx p (List.mem_of_getElem? h3)
        rw [← hcolsOf w.1 b w.2 (by rw [h6]; exact e) h1, e2]
        exact hold p (List.mem_of_getElem? h3)
      | some s =>
        rw [hl'] at h6
        simp only [Option.getD_some] at h6
        exact hstage p (List.mem_of_getElem? h3) ss h5 w.1 (by rw [h6]; exact List.mem_of_getLast? hl') w.2 h1
    have htexts : j.lines.map Line.text = ws.map (fun w => fromUnicode db w.1) := by
      apply List.ext_getElem?
      intro i
      rw [List.getElem?_map, List.getElem?_map]
      by_cases hlt : i < ls.length
      · have hp := List.getElem?_eq_getElem hlt
        obtain ⟨l, b, ss, bs, k1, k2, k3, k4, k5, k6, k7⟩ := hline i _ hp
        obtain ⟨w, ss', a1, a2, a3, a4, a5⟩ := w2 i _ hp
        rw [k4] at a2
        cases a2
        rw [k7, a1]
        simp only [Option.map_some, Option.some.injEq]
        rw [a3]
        have hlast : (ss.map (fromUnicode db)).getLast? = (bs.map some).getLast? := by rw [k6]
        rw [List.getLast?_map, List.getLast?_map] at hlast
        cases h1 : ss.getLast? with
        | none =>
          rw [h1] at hlast
          cases h2 : bs.getLast? with
          | none => simp only [Option.getD_none]; exact k3.symm
          | some b' => rw [h2] at hlast; simp at hlast
        | some s =>
          rw [h1] at hlast
          cases h2 : bs.getLast? with
          | none => rw [h2] at hlast; simp at hlast
          | some b' => rw [h2] at hlast; simp only [Option.map_some, Option.some.injEq] at hlast; simp only [Option.getD_some]; exact hlast.symm
      · rw [List.getElem?_eq_none (by omega), List.getElem?_eq_none (by omega)]
        rfl
    have hTw : HasTexts j.lines (ws.map (fun p => (fromUnicode db p.1).getD emptyBxs)) := by
      unfold HasTexts
      rw [htexts, List.map_map]
      apply List.map_congr_left
      intro p hp
      obtain ⟨b, e, -⟩ := legit_bxs (hwmem p hp).1 (hwmem p hp).2.1
      simp [e]
    have hleast : d.indentmode = 't' → LeastIndent db (ws.map Prod.snd) j.indent := by
      intro hm
      rw [if_pos hm] at g7
      obtain ⟨n, hn, hci⟩ := getIndent_eq hTw
      rw [g7] at hn
      cases hn
      have hbw : ∀ w ∈ ws, ∃ b, b ∈ ws.map (fun p => (fromUnicode db p.1).getD emptyBxs) ∧ b.cols = columns db w.2 ∧ b.indent = leadingBlanks db w.2 := by
        intro w hw
        obtain ⟨b, e, e1, e2, -⟩ := legit_bxs (hwmem w hw).1 (hwmem w hw).2.1
        exact ⟨b, List.mem_map.2 ⟨w, hw, by rw [e]; rfl⟩, e1, e2⟩
      have hback : ∀ b ∈ ws.map (fun p => (fromUnicode db p.1).getD emptyBxs), ∃ w ∈ ws, b.cols = columns db w.2 ∧ b.indent = leadingBlanks db w.2 := by
        intro b hb'
        obtain ⟨w, hw, rfl⟩ := List.mem_map.1 hb'
        obtain ⟨b, e, e1, e2, -⟩ := legit_bxs (hwmem w hw).1 (hwmem w hw).2.1
        exact ⟨w, hw, by rw [e]; exact e1, by rw [e]; exact e2⟩
      refine ⟨?_, ?_, ?_⟩
      · intro v hv h0
        obtain ⟨w, hw, rfl⟩ := List.mem_map.1 hv
        obtain ⟨b, hb', e1, e2⟩ := hbw w hw
        have := hci.le b hb' (by omega)
        omega
      · rintro ⟨v, hv, h0⟩
        obtain ⟨w, hw, rfl⟩ := List.mem_map.1 hv
        obtain ⟨b, hb', e1, e2⟩ := hbw w hw
        rcases hci.attained ⟨b, hb', by omega⟩ with h | ⟨b', h1, h2, h3⟩
        · exact .inl h
        · obtain ⟨w', hw', e1', e2'⟩ := hback b' h1
          exact .inr ⟨_, List.mem_map.2 ⟨w', hw', rfl⟩, by omega, by omega⟩
      · intro hz
        apply hci.none
        intro b hb'
        obtain ⟨w, hw, e1, -⟩ := hback b hb'
        rw [e1]
        exact hz _ (List.mem_map.2 ⟨w, hw, rfl⟩)
    refine ⟨j, ws, h1, ⟨w1, ?_, hold, hstage, ?_⟩, ⟨?_, htexts, fun w hw => ⟨(hwmem w hw).1, (hwmem w hw).2.1.1⟩, fun _ w hw => (hwmem w hw).2.1.2, hnew, ?_, ?_, hb.tabstop⟩,
      g6, g3, ?_⟩
    · intro i p hp
      obtain ⟨w, ss, a1, a2, a3, a4, -⟩ := w2 i p hp
      exact ⟨ss, w, a2, a1, a3, a4⟩
    · rcases q3 with h | h
      · obtain ⟨p, hp, e⟩ := hmax
        exact .inl ⟨p, hp, by omega⟩
      · obtain ⟨b, hb', e⟩ := List.mem_map.1 h
        obtain ⟨bs, h3, h4⟩ := List.mem_flatten.1 hb'
        obtain ⟨i, hi⟩ := List.getElem?_of_mem h3
        have hlt : i < ls.length := by have := (List.getElem?_eq_some_iff.1 hi).1; omega
        obtain ⟨l, b0, ss, bs', k1, k2, k3, k4, k5, k6, k7⟩ := hline i _ (List.getElem?_eq_getElem hlt)
        rw [hi] at k5
        cases k5
        have : some b ∈ ss.map (fromUnicode db) := by rw [k6]; exact List.mem_map.2 ⟨b, h4, rfl⟩
        obtain ⟨s, hs, es⟩ := List.mem_map.1 this
        obtain ⟨v, hv, -⟩ := ht _ (List.getElem_mem hlt) s (by rw [stages_attempts k4]; exact hs)
        exact .inr ⟨_, List.getElem_mem hlt, ss, k4, s, hs, v, hv, by rw [← hcolsOf s b v es hv]; exact e⟩
    · intro h0
      apply hb.nonempty
      apply List.eq_nil_of_length_eq_zero
      rw [← w1, h0]
      rfl
    · intro hm
      have hli := hleast hm
      have hpos : ∀ w ∈ ws, 0 < columns db w.2 → j.indent ≤ leadingBlanks db w.2 := fun w hw h0 => hli.le _ (List.mem_map.2 ⟨w, hw, rfl⟩) h0
      refine ⟨?_, hpos⟩
      by_cases hex : ∃ w ∈ ws, 0 < columns db w.2
      · obtain ⟨w, hw, h0⟩ := hex
        have h3 := hpos w hw h0
        obtain ⟨c1, c2⟩ := columns_take db w.2 (leadingBlanks db w.2) (hwmem w hw).2.1.2 (Nat.le_refl _)
        have c3 := columns_take_drop db w.2 (leadingBlanks db w.2)
        have := hnew w hw
        omega
      · have : j.indent = 0 := hli.none (by
          intro v hv
          obtain ⟨w, hw, rfl⟩ := List.mem_map.1 hv
          have : ¬ 0 < columns db w.2 := fun h => hex ⟨w, hw, h⟩
          omega)
        omega
    · intro hk l hl'
      obtain ⟨i, hi⟩ := List.getElem?_of_mem hl'
      have hlt : i < ls.length := by have := (List.getElem?_eq_some_iff.1 hi).1; omega
      obtain ⟨l0, b0, ss, bs', k1, k2, k3, k4, k5, k6, k7⟩ := hline i _ (List.getElem?_eq_getElem hlt)
      rw [hi] at k7
      cases k7
      exact hb.tabs hk l0 (List.mem_of_getElem? k1)
    · by_cases hm : d.indentmode = 't'
      · rw [if_pos hm]; exact hleast hm
      · rw [if_neg hm] at g7 ⊢
        rw [g7]; exact hus

/-- C49, C16: drawing a box with a design that has replacement rules: unless a rule fails, which ends the program, the box is drawn around
the texts that the rules make of the input lines, and it is as wide as the widest text that comes up on the way. -/
theorem C49_drawn (db : CharDb) (hdb : Sane db) (opt : Opt) (hr : opt.r = false) (ht : 1 ≤ opt.tabstop) (d : Design)
    (hd : GoodDesign db d) (rules : List Subst) (junk : Nat) (pieces : List Str) (hp : ∀ s ∈ pieces, Readable db opt.tabstop s) (hne : pieces ≠ [])
    (hrules : ∀ x ∈ pieces, ∀ s, Remainder opt.tabstop x s → TameRules db rules s)
    (fuel : Nat) {r : Res (List (Bxs × Str))} (h : drawOnce db opt d rules junk pieces fuel = some r) :
    (r = .fail 1 ∧ ∃ us ls, ReadAs db opt d pieces us ls ∧ ∃ p ∈ ls, stages rules p.1 = none) ∨
    ∃ out, r = .ok out ∧ RewrittenDrawing db opt d rules fuel pieces out ∧ ∀ p ∈ out, ∃ s v, Text s v ∧ fromUnicode db s = some p.1 := by
  obtain ⟨lines, us, a1, a2, a3, a4, a5, a6⟩ := readLines_text hdb opt hr ht junk pieces hp
  have hread : ∃ i, readAllInput db opt junk pieces = .ok i ∧ i.lines = lines := by
    unfold readAllInput
    rw [a1]
    exact ⟨_, rfl, rfl⟩
  obtain ⟨i, i1, i2⟩ := hread
  have hune : us ≠ [] := by
    intro h0; rw [h0] at a3; exact hne (List.eq_nil_of_length_eq_zero a3.symm)
  obtain ⟨-, hfin⟩ := C47_lines db opt junk pieces i1
  rw [← i2] at a2 a5
  have hilen : i.lines.length = us.length := by simpa using congrArg List.length a2
  have hine : i.lines ≠ [] := by
    intro h0; rw [h0] at hilen
    exact hune (List.eq_nil_of_length_eq_zero hilen.symm)
  obtain ⟨j0, ls, j1, j2, j3, j4, j6, j7, j5⟩ := analyze_block (d' := d) opt hr ht d rfl i us hune a2 a4 a5
  have hj0len : j0.lines.length = ls.length := by simpa using congrArg List.length j2.texts
  have hof : ∀ (k : Nat) p, ls[k]? = some p → ∃ (s : Str) (u : Str × Str) (q z y : Str), pieces[k]? = some s ∧ us[k]? = some u ∧
      s = q ++ z ∧ Text z y ∧ (∀ c ∈ y, db.white c = true) ∧ EndsVisibly db q z ∧ Expand opt.tabstop 0 q u.1 ∧ Text u.1 u.2 ∧ Legit db u.2 ∧
      Unindented db (if d.indentmode = 't' then 0 else j0.indent) u p := by
    intro k p hk
    have hlt : k < pieces.length := by have := (List.getElem?_eq_some_iff.1 hk).1; omega
    have hs := List.getElem?_eq_getElem hlt
    obtain ⟨u, q, z, y, c1, c2, c3, c4, c5, c6⟩ := a6 k _ hs
    obtain ⟨p', e1, e2⟩ := j5 k u c1
    rw [hk] at e1
    cases e1
    have hu := a4 u (List.mem_of_getElem? c1)
    exact ⟨_, u, q, z, y, hs, c1, c2, c3, c4, c5, c6, hu.1, hu.2, e2⟩
  have hlegit : ∀ p ∈ ls, Legit db p.2 := by
    intro p hp'
    obtain ⟨k, hk⟩ := List.getElem?_of_mem hp'
    obtain ⟨s, u, q, z, y, -, -, -, -, -, -, -, -, hu, hun⟩ := hof k p hk
    obtain ⟨m, -, -, e⟩ := unindented_drop hun
    rw [e]
    exact hu.drop m
  have htame : ∀ p ∈ ls, TameRules db rules p.1 := by
    intro p hp'
    obtain ⟨k, hk⟩ := List.getElem?_of_mem hp'
    obtain ⟨s, u, q, z, y, c0, -, c2, -, -, -, c6, -, -, hun⟩ := hof k p hk
    obtain ⟨m, -, hsuf, -⟩ := unindented_drop hun
    exact hrules s (List.mem_of_getElem? c0) p.1 ⟨q, u.1, by rw [c2]; exact List.prefix_append _ _, c6, hsuf⟩
  have hreadas : ReadAs db opt d pieces us ls := by
    refine ⟨a3, by omega, j0.indent, j6, ?_⟩
    intro k s hs
    have hlt : k < ls.length := by have := (List.getElem?_eq_some_iff.1 hs).1; omega
    have hk := List.getElem?_eq_getElem hlt
    obtain ⟨s', u, q, z, y, c0, c1, c2, c3, c4, c5, c6, c7, -, hun⟩ := hof k _ hk
    rw [hs] at c0
    cases c0
    exact ⟨u, _, q, z, y, c1, hk, c2, c3, c4, c5, c6, c7, (j2.good _ (List.getElem_mem hlt)).1, hun⟩
  unfold drawOnce at h
  rw [i1, Res.ok_bind, analyze_then_rules hr d rules i j0 hine j1] at h
  rcases rewritten_block opt d rules j0 ls us j2 hlegit j7 j6 htame with ⟨h1, p, hp', h2⟩ | ⟨j, ws, h1, h2, h3, h4, h5, h6⟩
  · left
    rw [h1] at h
    simp only [Option.some.injEq] at h
    exact ⟨h.symm, us, ls, hreadas, p, hp', h2⟩
  · right
    rw [h1] at h
    have hjne : ¬ j.lines = [] := by
      intro h0
      rw [h0] at h5
      apply j2.nonempty
      exact List.eq_nil_of_length_eq_zero (by simp at h5; omega)
    simp only [if_neg hjne] at h
    unfold handleGenerateBox at h
    rw [Option.map_eq_some_iff] at h
    obtain ⟨q, hq, rfl⟩ := h
    obtain ⟨box, rfl, b1, b2⟩ := C20_room db opt d hd j fuel hq
    have hwlen : j.lines.length = ws.length := by simpa using congrArg List.length h3.texts
    rw [hwlen] at b2
    have h3' : TextBlock db opt (adjustSizeAndPadding opt d j) j ws :=
      ⟨h3.nonempty, h3.texts, h3.good, h3.narrow, h3.fits, by rw [(C21_padding opt d j).2.2.2]; exact h3.indented, h3.tabs, h3.tabstop⟩
    obtain ⟨out, above, below, lp, rp, s, e, c1, c2, c3, c4, c5, c6, c7, c8, c9⟩ :=
      C16_box db hdb opt _ j ws box (C20_adjusted_design db opt d hd j).2 b1 h3' b2
    have hsh := (C21_padding opt d j).2.2.1
    have hbl : ∀ names, BlankSide db (adjustSizeAndPadding opt d j) names ↔ BlankSide db d names := by
      intro names; unfold BlankSide; rw [hsh]
    have hfb : j.finalNewline = true ↔ EndsInBreak pieces := by rw [h4, j4]; exact hfin
    refine ⟨out, c1, ⟨j, us, ls, ws, hreadas, h2, by omega, h6, _, box, above, below, lp, rp, s, e, rfl, hq, c2, c3, c4, c5, ?_, ?_, c8, ?_⟩, ?_⟩
    · simpa only [NumberIf, hbl] using c6
    · simpa only [NumberIf, hbl] using c7
    · intro t ht'
      obtain ⟨row, k, m, r', g1, g2, g3, g4, g5⟩ := c9 t ht'
      refine ⟨row, k, m, r', _, g1, by simpa only [propext (hbl _)] using g2, g3, g4, g5, fun hc => ?_, fun hc => ?_⟩
      · rw [if_pos (hc.imp hfb.2 id)]
      · rw [if_neg (fun hc' => hc'.elim (fun x => hc.1 (hfb.1 x)) (fun x => x hc.2))]
    · intro p hp'
      obtain ⟨t, ht'⟩ := List.getElem?_of_mem hp'
      have hlt := (List.getElem?_eq_some_iff.1 ht').1
      obtain ⟨row, k, m, r', g1, g2, g3, g4, g5⟩ := c9 t hlt
      obtain ⟨v, hv⟩ := row_text hdb h3' b1 (by omega) c5 g1 g2
      obtain ⟨r2, v', k1, k2, k3⟩ := trimmed_rtrim db hv g3
      rw [g4] at k1
      rw [g5] at ht'
      simp only [Option.some.injEq] at k1 ht'
      subst ht' k1
      exact ⟨_, v', k3.1, k2⟩

/-- a rule that replaces every text by the same one -/
example : ∀ x ∈ [lit "ab\n", lit "c"], ∀ s, Remainder 8 x s → TameRules sampleDb [fun _ => some (lit "hello")] s := by
  intro x _ s _ t ht
  simp only [attempts, List.mem_cons, List.not_mem_nil, or_false] at ht
  subst ht
  exact ⟨lit "hello", Text.plain (by decide), by decide, by unfold NarrowBlanks; decide⟩

/-- rules that do not fail for texts that do not begin with an x -/
example : ((drawOnce sampleDb {} (prepareDesign {} sampleDesign) [fun s => if s.head? = some 0x78 then none else some (s ++ lit "!"), fun s => some (lit "<" ++ s)]
    0 [lit "ab c\n", lit "d\n"] 20).map
    (fun (r : Res (List (Bxs × Str))) => do
      let out ← (r : Res (List (Bxs × Str)))
      renderBox true out)) = some (.ok (lit "..-=-=<>=-.\nO| <ab c! )\n|| <d!    (\n||        )\n||        (\n`'########'\n")) := by decide +kernel

/-- C69: Drawing a box with a design from a configuration file that has replacement rules, from the command line to the printed text. -/
theorem C69_rewriting (m : Machine) (hdb : Sane m.db) (c : CommandLine) (fuel : Nat) (hfirst : c.first ≠ some (lit "-?")) {a : Args}
    (hopts : optionLoop c.options createNewOpt = some (a, false)) (hfiles : UsableFiles m.canRead m.canWrite c.files)
    (hlist : .list ∉ c.options) (hq : ∀ s, .query s ∉ c.options) (hrm : .remove ∉ c.options) (hmend : .mend ∉ c.options)
    (hcr : ∀ s, .create s ∉ c.options)
    {file : Bxs} {d : DesignDef} {ds : List DesignDef} {ps : List Bxs} (h : Loaded m a fuel file d ds ps)
    (hesc : ∀ f decls, m.contents f = some decls → WellEscaped decls)
    (hrules : ∀ x ∈ m.input (named c.files 0), ∀ s, Remainder a.opt.tabstop x s → TameRules m.db (d.reprules.map m.substitution) s)
    (hp : ∀ s ∈ m.input (named c.files 0), Readable m.db a.opt.tabstop s) (hne : m.input (named c.files 0) ≠ [])
    {r : Res Outcome} (hrun : wholeProgram m c fuel = some r) :
    (r = .fail 1 ∧ ∃ us ls, ReadAs m.db a.opt (prepareDesign a.opt d.core) (m.input (named c.files 0)) us ls ∧
      ∃ p ∈ ls, stages (d.reprules.map m.substitution) p.1 = none) ∨
    ∃ out text, r = .ok (.output (named c.files 1) text) ∧
      RewrittenDrawing m.db a.opt (prepareDesign a.opt d.core) (d.reprules.map m.substitution) fuel (m.input (named c.files 0)) out ∧
      PrintedText m.db (colours c.options m.terminalColors) out text := by
  obtain ⟨f, before, after, ds', ps', e1, e2, e3, e4⟩ := whole_loaded m c fuel hfirst hopts hfiles hcr h
  obtain ⟨s1, s2, s3, s4, -⟩ := C58_switches c.options a hopts
  have hqn : a.query = none := by
    rcases (C58_words c.options a hopts).2.2.2.2.2 with ⟨x, ⟨pre', post', e, -, hno⟩, arg', q, rfl, hq', e'⟩ | ⟨hn, e⟩
    · exact absurd (by rw [e]; simp) (hq arg')
    · exact e
  have hmn : a.opt.mend = 0 := by rw [s3, if_neg hmend]
  have hrn : a.opt.r = false := by
    cases hb : a.opt.r with
    | false => rfl
    | true => exact absurd (s2.1 hb) (by simp [hrm, hmend])
  have hgood := (C20_adjusted_design m.db a.opt _ (loaded_good m hdb fuel h hesc d List.mem_cons_self) {}).1
  have ht := (C37_range c.options a hopts).1
  rw [e4] at hrun
  have htask : mainTask m { a with infile := named c.files 0, outfile := named c.files 1 } file (d :: ds) ps f fuel =
      match fuel with
      | 0 => none
      | _ + 1 => (drawOnce m.db a.opt (prepareDesign a.opt d.core) (d.reprules.map m.substitution) m.junk (m.input (named c.files 0)) fuel).map
          (fun r => (do let out ← r; renderBox (colours c.options m.terminalColors) out : Res Str)) := by
    unfold mainTask
    simp only [hqn, colour_setting hopts]
    rw [if_neg (fun hl => hlist (s1.1 hl)), if_neg (by simp)]
    cases fuel with
    | zero => rfl
    | succ n =>
      simp only [List.map_cons]
      rw [run_draw _ _ hmn hrn]
      simp only [rulesOf, List.getElem?_cons_zero]
  rw [htask] at hrun
  cases fuel with
  | zero => simp at hrun
  | succ n =>
    cases hd : drawOnce m.db a.opt (prepareDesign a.opt d.core) (d.reprules.map m.substitution) m.junk (m.input (named c.files 0)) (n + 1) with
    | none => simp [hd] at hrun
    | some x =>
      rcases C49_drawn m.db hdb a.opt hrn ht _ hgood _ m.junk _ hp hne hrules _ hd with ⟨rfl, us, ls, g1, g2⟩ | ⟨out, rfl, g1, g2⟩
      · left
        rw [hd] at hrun
        simp only [Option.map_some, Option.some.injEq] at hrun
        have hrun' : some (Res.fail 1) = some r := hrun
        exact ⟨(Option.some.inj hrun').symm, us, ls, g1, g2⟩
      · right
        obtain ⟨text, t1, t2⟩ := printed_rows m.db (colours c.options m.terminalColors) out (fun t p hp => g2 p (List.mem_of_getElem? hp))
        refine ⟨out, text, ?_, g1, t2⟩
        simp only [hd, Option.map_some, Res.ok_bind, t1, Option.some.injEq] at hrun
        exact hrun.symm

end Boxes
