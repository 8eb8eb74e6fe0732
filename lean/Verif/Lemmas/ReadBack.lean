import Verif.Spec.RoundTrip
import Verif.Props.Main
import Verif.Props.Print

/-!
# Lemmas: reading printed lines back
-/
namespace Boxes
open Spec ShapeName
set_option linter.unusedSimpArgs false

theorem expand_plain (ts : Nat) : ∀ (s : Str) (col : Nat), (∀ c ∈ s, c ≠ 0x09) → Expand ts col s s
  | [], _, _ => Expand.nil _
  | c :: s, _, h => Expand.char c (h c (by simp)) (expand_plain ts s _ (fun x hx => h x (by simp [hx])))

/-- a line printed by the program: without tabs, not empty, not ending in a line break, short enough for the buffer -/
structure Rereadable (row : Str) : Prop where
  nonempty : row ≠ []
  noTab : ∀ c ∈ row, c ≠ 0x09
  last : ∀ c, row.getLast? = some c → c ≠ 0x0a ∧ c ≠ 0x0d
  short : row.length < 16370

theorem trim_reread {db : CharDb} {opt : Opt} (hr : opt.r = true) (junk : Nat) {row : Str} (h : Rereadable row) {e : Str}
    (he : e = [] ∨ e = [0x0a] ∨ e = [0x0d, 0x0a]) : trimCarefully db opt junk (row ++ e) = .ok row := by
  have hm := C46_remove_mode db opt junk hr
  rcases List.eq_nil_or_concat row with h0 | ⟨s, c, h0⟩
  · exact absurd h0 h.nonempty
  · rw [List.concat_eq_append] at h0
    subst h0
    have hc := h.last c (by simp)
    rcases he with rfl | rfl | rfl
    · rw [List.append_nil]; exact (hm s).2.2.2.1 c hc.1 hc.2
    · rw [List.append_assoc]; exact (hm s).2.1 c hc.2
    · exact (hm (s ++ [c])).1

theorem readLine_reread {db : CharDb} {opt : Opt} (hr : opt.r = true) (ht : 1 ≤ opt.tabstop) (junk : Nat) {row : Str} (h : Rereadable row)
    {e : Str} (he : e = [] ∨ e = [0x0a] ∨ e = [0x0d, 0x0a]) :
    ∃ l, readLine db opt junk (row ++ e) = .ok l ∧ l.text = fromUnicode db row ∧
      l.tabpos.Pairwise (fun a b => a + tabCols opt.tabstop a ≤ b) := by
  unfold readLine
  rw [trim_reread hr junk h he, Res.ok_bind]
  obtain ⟨e1, e2⟩ := expandTabs_complete (decide (opt.tabexp = 'k')) ht (expand_plain opt.tabstop row 0 h.noTab) h.short
  have hpos : row.length > 0 := List.length_pos_iff.2 h.nonempty
  rw [if_pos hpos]
  simp only
  rw [if_neg (by rw [e1]; omega)]
  exact ⟨_, rfl, by simp only [e1], e2⟩

theorem readLines_reread {db : CharDb} {opt : Opt} (hr : opt.r = true) (ht : 1 ≤ opt.tabstop) (junk : Nat) :
    ∀ (rows : List (Str × Str)), (∀ p ∈ rows, Rereadable p.1 ∧ (p.2 = [] ∨ p.2 = [0x0a] ∨ p.2 = [0x0d, 0x0a])) →
    ∃ lines, readLines db opt junk (rows.map (fun p => p.1 ++ p.2)) = .ok lines ∧ lines.map Line.text = rows.map (fun p => fromUnicode db p.1) ∧
      ∀ l ∈ lines, l.tabpos.Pairwise (fun a b => a + tabCols opt.tabstop a ≤ b)
  | [], _ => ⟨[], rfl, rfl, by simp⟩
  | p :: rows, h => by
    obtain ⟨h1, h2⟩ := h p (by simp)
    obtain ⟨l, a1, a2, a3⟩ := readLine_reread (db := db) hr ht junk h1 h2
    obtain ⟨lines, b1, b2, b3⟩ := readLines_reread (db := db) hr ht junk rows (fun p hp => h p (by simp [hp]))
    refine ⟨l :: lines, ?_, by simp [a2, b2], ?_⟩
    · simp only [List.map_cons, readLines, a1, b1, Res.ok_bind]
    · intro m hm
      rcases List.mem_cons.1 hm with rfl | hm
      · exact a3
      · exact b3 m hm

/-- Printed lines as they are read when a box is to be removed. -/
theorem reread_text {db : CharDb} {opt : Opt} (hr : opt.r = true) (ht : 1 ≤ opt.tabstop) (junk : Nat) (d : Design) (rows : List (Str × Str)) (vis : Str → Str)
    (hne : rows ≠ []) (hrows : ∀ p ∈ rows, Rereadable p.1 ∧ (p.2 = [] ∨ p.2 = [0x0a] ∨ p.2 = [0x0d, 0x0a]))
    (hleg : ∀ p ∈ rows, Text p.1 (vis p.1) ∧ Legit db (vis p.1)) :
    ∃ i j, readAllInput db opt junk (rows.map (fun p => p.1 ++ p.2)) = .ok i ∧ analyzeInput db opt d [] i = .ok j ∧
      j.lines.map Line.text = rows.map (fun p => fromUnicode db p.1) ∧
      (∀ l ∈ j.lines, l.tabpos.Pairwise (fun a b => a + tabCols opt.tabstop a ≤ b)) ∧
      (j.finalNewline = true ↔ ∃ p, rows.getLast? = some p ∧ p.2 ≠ []) ∧
      LeastIndent db (rows.map (fun p => vis p.1)) j.indent := by
  obtain ⟨lines, a1, a2, a3⟩ := readLines_reread (db := db) hr ht junk rows hrows
  have hread : ∃ i, readAllInput db opt junk (rows.map (fun p => p.1 ++ p.2)) = .ok i ∧ i.lines = lines := by
    unfold readAllInput
    rw [a1]
    exact ⟨_, rfl, rfl⟩
  obtain ⟨i, i1, i2⟩ := hread
  obtain ⟨-, hfin⟩ := C47_lines db opt junk _ i1
  have hb : ∀ p ∈ rows, ∃ b, fromUnicode db p.1 = some b ∧ b.cols = columns db (vis p.1) ∧ b.indent = leadingBlanks db (vis p.1) := by
    intro p hp
    obtain ⟨h1, h2, h3⟩ := hleg p hp
    obtain ⟨b, hb⟩ := analysed db h1 h2
    obtain ⟨-, -, -, -, m1, -, m2, -⟩ := C01_metrics db h1 hb
    exact ⟨b, hb, m1, by rw [m2, indent_narrow db _ h3]⟩
  have hT : i.lines.map Line.text = (rows.map (fun p => (fromUnicode db p.1).getD emptyBxs)).map some := by
    rw [i2, a2, List.map_map]
    apply List.map_congr_left
    intro p hp
    obtain ⟨b, e, -⟩ := hb p hp
    simp [e]
  obtain ⟨j, j1, j2, j3, j4, j5, j6, j7, j8, j9⟩ := C09_kept db opt d (.inr hr) i _ hT (by simpa using hne) (by
    intro t ht'
    obtain ⟨p, hp, rfl⟩ := List.mem_map.1 ht'
    obtain ⟨b, e, e1, e2⟩ := hb p hp
    rw [e]; simp only [Option.getD_some]; rw [e1, e2]
    have h3 := (hleg p hp).2.2
    obtain ⟨c1, c2⟩ := columns_take db (vis p.1) (leadingBlanks db (vis p.1)) h3 (Nat.le_refl _)
    have := columns_take_drop db (vis p.1) (leadingBlanks db (vis p.1))
    omega)
  refine ⟨i, j, i1, j1, by rw [j2, i2, a2], by rw [j2, i2]; exact a3, ?_, ⟨?_, ?_, ?_⟩⟩
  · rw [j3, hfin]
    rcases List.eq_nil_or_concat rows with h0 | ⟨a, p, h0⟩
    · exact absurd h0 hne
    · rw [List.concat_eq_append] at h0
      subst h0
      obtain ⟨g1, g2⟩ := hrows p (by simp)
      simp only [List.map_append, List.map_cons, List.map_nil, List.getLast?_append, List.getLast?_singleton, Option.some_or, Option.some.injEq,
        exists_eq_left']
      constructor
      · rintro ⟨x, q, c, hq, hc⟩
        intro h0
        have := List.append_inj_right' hq (by simp)
        simp only [List.cons.injEq, and_true] at this
        rw [h0, List.append_nil] at this
        have hl := g1.last c (by rw [this]; simp)
        rcases hc with hc | hc
        · exact hl.1 hc
        · exact hl.2 hc
      · intro h0
        rcases g2 with g2 | g2 | g2
        · exact absurd g2 h0
        · exact ⟨_, p.1, 0x0a, by rw [g2], .inl rfl⟩
        · exact ⟨a.map (fun p => p.1 ++ p.2), p.1 ++ [0x0d], 0x0a, by rw [g2]; simp [List.append_assoc], .inl rfl⟩
  · intro v hv h0
    obtain ⟨p, hp, rfl⟩ := List.mem_map.1 hv
    obtain ⟨b, e, e1, e2⟩ := hb p hp
    have := j6 b (List.mem_map.2 ⟨p, hp, by rw [e]; rfl⟩) (by omega)
    omega
  · rintro ⟨v, hv, h0⟩
    obtain ⟨p, hp, rfl⟩ := List.mem_map.1 hv
    obtain ⟨b, e, e1, e2⟩ := hb p hp
    rcases j7 ⟨b, List.mem_map.2 ⟨p, hp, by rw [e]; rfl⟩, by omega⟩ with h | ⟨t, ht', hc', hin⟩
    · exact .inl h
    · obtain ⟨q, hq, rfl⟩ := List.mem_map.1 ht'
      obtain ⟨b', e', e1', e2'⟩ := hb q hq
      rw [e'] at hc' hin
      simp only [Option.getD_some] at hc' hin
      exact .inr ⟨vis q.1, List.mem_map.2 ⟨q, hq, rfl⟩, by omega, by omega⟩
  · intro hz
    apply j8
    intro t ht'
    obtain ⟨q, hq, rfl⟩ := List.mem_map.1 ht'
    obtain ⟨b', e', e1', -⟩ := hb q hq
    rw [e']
    simp only [Option.getD_some]
    rw [e1']; exact hz (vis q.1) (List.mem_map.2 ⟨q, hq, rfl⟩)

/-- the same for lines without escape sequences -/
theorem reread {db : CharDb} {opt : Opt} (hr : opt.r = true) (ht : 1 ≤ opt.tabstop) (junk : Nat) (d : Design) (rows : List (Str × Str))
    (hne : rows ≠ []) (hrows : ∀ p ∈ rows, Rereadable p.1 ∧ (p.2 = [] ∨ p.2 = [0x0a] ∨ p.2 = [0x0d, 0x0a]))
    (hleg : ∀ p ∈ rows, (∀ c ∈ p.1, c ≠ 0x1b) ∧ Legit db p.1) :
    ∃ i j, readAllInput db opt junk (rows.map (fun p => p.1 ++ p.2)) = .ok i ∧ analyzeInput db opt d [] i = .ok j ∧
      j.lines.map Line.text = rows.map (fun p => fromUnicode db p.1) ∧
      (∀ l ∈ j.lines, l.tabpos.Pairwise (fun a b => a + tabCols opt.tabstop a ≤ b)) ∧
      (j.finalNewline = true ↔ ∃ p, rows.getLast? = some p ∧ p.2 ≠ []) ∧
      LeastIndent db (rows.map Prod.fst) j.indent :=
  reread_text hr ht junk d rows id hne hrows (fun p hp => ⟨Text.plain (hleg p hp).1, (hleg p hp).2⟩)

end Boxes
