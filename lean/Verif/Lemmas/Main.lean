import Verif.Spec.Main
import Verif.Props.Input
import Verif.Props.Output

/-! # Lemmas: from the input to the text block -/
namespace Boxes
open Spec ShapeName
set_option linter.unusedSimpArgs false

theorem Spec.Expand.split {ts : Nat} : ∀ (s s' : Str) {col : Nat} {t : Str}, Expand ts col (s ++ s') t →
    ∃ t1 t2, t = t1 ++ t2 ∧ Expand ts col s t1 ∧ Expand ts (col + t1.length) s' t2
  | [], s', col, t, h => ⟨[], t, rfl, Expand.nil _, h⟩
  | c :: s, s', col, t, h => by
    cases h with
    | char _ hc h =>
      obtain ⟨t1, t2, rfl, h1, h2⟩ := Spec.Expand.split s s' h
      refine ⟨c :: t1, t2, rfl, Expand.char c hc h1, ?_⟩
      rw [List.length_cons, show col + (t1.length + 1) = col + 1 + t1.length by omega]; exact h2
    | tab n h1 h2 h3 h =>
      obtain ⟨t1, t2, rfl, g1, g2⟩ := Spec.Expand.split s s' h
      refine ⟨List.replicate n 0x20 ++ t1, t2, by simp, Expand.tab n h1 h2 h3 g1, ?_⟩
      rw [List.length_append, List.length_replicate, show col + (n + t1.length) = col + n + t1.length by omega]; exact g2

theorem Spec.Expand.mem {ts : Nat} {col : Nat} {s t : Str} (h : Expand ts col s t) : ∀ c ∈ t, c ∈ s ∨ c = 0x20 := by
  induction h with
  | nil => simp
  | char c hc h ih =>
    intro d hd
    rcases List.mem_cons.1 hd with rfl | hd
    · simp
    · rcases ih d hd with h | h
      · simp [h]
      · exact .inr h
  | tab n h1 h2 h3 h ih =>
    intro d hd
    rcases List.mem_append.1 hd with hd | hd
    · exact .inr (List.mem_replicate.1 hd).2
    · rcases ih d hd with h | h
      · simp [h]
      · exact .inr h

theorem Spec.Expand.no_tab {ts : Nat} {col : Nat} {s t : Str} (h : Expand ts col s t) : (∀ c ∈ s, c ≠ 0x09) → t = s := by
  induction h with
  | nil => simp
  | char c hc h ih => intro hs; rw [ih (fun c hc => hs c (by simp [hc]))]
  | tab n h1 h2 h3 h ih => intro hs; exact absurd rfl (hs _ (by simp))

/-- expanding the tabs of a text gives a text; its visible characters are those of the text and spaces -/
theorem expand_text {ts : Nat} {s v : Str} (hs : Text s v) : ∀ {col : Nat} {t : Str}, Expand ts col s t →
    ∃ w, Text t w ∧ ∀ c ∈ w, c ∈ v ∨ c = 0x20 := by
  induction hs with
  | nil => intro col t h; cases h; exact ⟨[], Text.nil, by simp⟩
  | vis c hc hs ih =>
    intro col t h
    cases h with
    | char _ _ h =>
      obtain ⟨w, h1, h2⟩ := ih h
      refine ⟨c :: w, Text.vis c hc h1, ?_⟩
      intro d hd
      rcases List.mem_cons.1 hd with rfl | hd
      · simp
      · rcases h2 d hd with h | h
        · simp [h]
        · exact .inr h
    | tab n g1 g2 g3 h =>
      obtain ⟨w, h1, h2⟩ := ih h
      refine ⟨List.replicate n 0x20 ++ w, (text_nspaces n).append h1, ?_⟩
      intro d hd
      rcases List.mem_append.1 hd with hd | hd
      · exact .inr (List.mem_replicate.1 hd).2
      · rcases h2 d hd with h | h
        · simp [h]
        · exact .inr h
  | esc e he hs ih =>
    intro col t h
    obtain ⟨t1, t2, rfl, h1, h2⟩ := h.split
    obtain ⟨w, h3, h4⟩ := ih h2
    refine ⟨w, Text.esc t1 ?_ h3, h4⟩
    cases he with
    | two c g1 g2 g3 =>
      have : t1 = [0x1b, c] := h1.no_tab (by intro d hd; simp at hd; rcases hd with rfl | rfl <;> omega)
      subst this
      exact EscSeq.two c g1 g2 g3
    | csi o params f g1 g2 g3 g4 =>
      have e1 : (0x1b :: o :: (params ++ [f]) : Str) = [0x1b, o] ++ (params ++ [f]) := rfl
      rw [e1] at h1
      obtain ⟨a, b, rfl, k1, k2⟩ := h1.split
      have : a = [0x1b, o] := k1.no_tab (by intro d hd; simp at hd; rcases hd with rfl | rfl <;> rcases g1 with rfl | rfl <;> omega)
      subst this
      obtain ⟨q, r, rfl, m1, m2⟩ := k2.split
      have : r = [f] := m2.no_tab (by intro d hd; simp at hd; omega)
      subst this
      refine EscSeq.csi o q f g1 ?_ g3 g4
      intro p hp
      rcases m1.mem p hp with h | h
      · exact g2 p h
      · omega

/-- recorded tabs do not overlap -/
theorem expandLoop_tabs (ts : Nat) : ∀ (s out : Str) (tabs : List Nat),
    tabs.Pairwise (fun a b => a + tabCols ts a ≤ b) → (∀ a ∈ tabs, a + tabCols ts a ≤ out.length) →
    ((expandLoop ts s out tabs).2).Pairwise (fun a b => a + tabCols ts a ≤ b) := by
  intro s
  induction s with
  | nil => intro out tabs h _; simpa [expandLoop] using h
  | cons c s ih =>
    intro out tabs h1 h2
    unfold expandLoop
    split
    · split
      · apply ih
        · rw [List.pairwise_append]
          refine ⟨h1, by simp, ?_⟩
          intro a ha b hb
          simp only [List.mem_singleton] at hb
          subst hb
          exact h2 a ha
        · intro a ha
          rcases List.mem_append.1 ha with ha | ha
          · have := h2 a ha; simp [nspaces]; omega
          · simp only [List.mem_singleton] at ha
            subst ha
            simp [nspaces, tabCols]
      · apply ih _ _ h1
        intro a ha
        have := h2 a ha
        simp; omega
    · exact h1

/-- a line that fits is expanded completely -/
theorem expandTabs_complete (keep : Bool) {ts : Nat} (hts : 1 ≤ ts) {s t : Str} (h : Expand ts 0 s t) (hl : t.length < 16370) :
    (expandTabs keep ts s).1 = t ∧ (expandTabs keep ts s).2.Pairwise (fun a b => a + tabCols ts a ≤ b) := by
  obtain ⟨a, b, t', e1, e2, e3, e4, -, ps, e6, e7, -⟩ := expandLoop_spec ts hts s [] []
  simp only [List.nil_append, List.length_nil] at e2 e3 e4 e6
  subst e1
  obtain ⟨t1, t2, rfl, h1, h2⟩ := h.split
  have : t' = t1 := e2.unique h1
  subst this
  have hb : b = [] := by
    rcases e4 with h | h
    · exact h
    · simp only [List.length_append, lineMaxBytes] at hl h
      omega
  subst hb
  cases h2
  refine ⟨by simpa [expandTabs] using e3, ?_⟩
  have hp := expandLoop_tabs ts (a ++ []) [] [] (by simp) (by simp)
  rw [e6] at hp
  unfold expandTabs
  simp only [e6]
  cases keep with
  | true =>
    simp only [if_true]
    split
    · have hz : List.count chTab (a ++ []) - ps.length = 0 := by rw [List.append_nil, e7]; exact Nat.sub_self _
      rw [hz]
      simpa using hp
    · simp
  | false => simp

theorem Spec.Legit.mono {db : CharDb} (hdb : Sane db) {v w : Str} (h : Legit db v) (hw : ∀ c ∈ w, c ∈ v ∨ c = 0x20) : Legit db w := by
  constructor
  · intro c hc
    rcases hw c hc with h' | rfl
    · exact h.1 c h'
    · exact forbidden_blank hdb (.inl rfl)
  · intro c hc hb
    rcases hw c hc with h' | rfl
    · exact h.2 c h' hb
    · exact width_space db

theorem Spec.Legit.drop {db : CharDb} {v : Str} (h : Legit db v) (n : Nat) : Legit db (v.drop n) :=
  ⟨fun c hc => h.1 c (List.mem_of_mem_drop hc), fun c hc => h.2 c (List.mem_of_mem_drop hc)⟩

theorem readLine_text {db : CharDb} (hdb : Sane db) (opt : Opt) (hr : opt.r = false) (ht : 1 ≤ opt.tabstop) (junk : Nat) {s v t : Str}
    (hs : Text s v) (hv : Legit db v) (he : Expand opt.tabstop 0 s t) (hl : t.length < 16370) :
    ∃ l u w, readLine db opt junk s = .ok l ∧ l.text = fromUnicode db u ∧ Text u w ∧ Legit db w ∧
      l.tabpos.Pairwise (fun a b => a + tabCols opt.tabstop a ≤ b) ∧
      ∃ q z y, s = q ++ z ∧ Text z y ∧ (∀ c ∈ y, db.white c = true) ∧ EndsVisibly db q z ∧ Expand opt.tabstop 0 q u := by
  unfold readLine trimCarefully
  rw [hr]
  simp only [Bool.false_eq_true, if_false, Res.ok_bind]
  have htext : ∃ x, Text (btrim32 db s) x ∧ (∀ c ∈ x, c ∈ v) ∧
      ∃ z y, s = btrim32 db s ++ z ∧ Text z y ∧ (∀ c ∈ y, db.white c = true) ∧ EndsVisibly db (btrim32 db s) z := by
    rcases C46_trim_input db hs with ⟨h0, h⟩ | ⟨p, x, c, e, q, y, h1, h2, h3, h4, h5, h6, h7, h8, h9⟩
    · rw [h]; exact ⟨[], Text.nil, by simp, s, v, rfl, hs, h0, .inl rfl⟩
    · rw [h9]
      refine ⟨x ++ [c], ?_, ?_, q, y, by rw [h1]; simp, h5, h7, .inr ⟨p, x, c, e, rfl, h2, h3, h4, h8⟩⟩
      · rcases h8 with h8 | ⟨rfl, -⟩
        · exact h2.append (Text.vis c h3 (by simpa using Text.esc e h8 Text.nil))
        · exact h2.append (Text.vis c h3 Text.nil)
      · intro d hd
        rw [h6]
        simp only [List.mem_append, List.mem_cons, List.not_mem_nil, or_false] at hd ⊢
        rcases hd with hd | hd
        · exact .inl hd
        · exact .inr (.inl hd)
  obtain ⟨x, hx, hxv, z, y, hz, hzy, hy, hev⟩ := htext
  rw [hz] at he
  obtain ⟨u, u', rfl, g1, -⟩ := he.split
  have hul : u.length < 16370 := by simp only [List.length_append] at hl; omega
  obtain ⟨w, w1, w2⟩ := expand_text hx g1
  have hw : Legit db w := hv.mono hdb (fun c hc => (w2 c hc).imp (hxv c) id)
  by_cases h0 : (btrim32 db s).length > 0
  · rw [if_pos h0]
    obtain ⟨e1, e2⟩ := expandTabs_complete (decide (opt.tabexp = 'k')) ht g1 hul
    have hpos := expandTabs_pos (decide (opt.tabexp = 'k')) ht (List.length_pos_iff.1 h0)
    have hne : ¬ (expandTabs (decide (opt.tabexp = 'k')) opt.tabstop (btrim32 db s)).1.length = 0 := by omega
    simp only [if_neg hne]
    exact ⟨_, u, w, rfl, by rw [← e1], w1, hw, e2, _, z, y, hz, hzy, hy, hev, g1⟩
  · rw [if_neg h0]
    have : btrim32 db s = [] := List.eq_nil_of_length_eq_zero (by omega)
    rw [this] at g1 hx hz
    cases g1
    exact ⟨_, [], [], rfl, rfl, Text.nil, by simp [Legit, NarrowBlanks], by simp, [], z, y, hz, hzy, hy, .inl rfl, Expand.nil _⟩

/-- the lines read -/
theorem readLines_text {db : CharDb} (hdb : Sane db) (opt : Opt) (hr : opt.r = false) (ht : 1 ≤ opt.tabstop) (junk : Nat) :
    ∀ (pieces : List Str), (∀ s ∈ pieces, Readable db opt.tabstop s) →
    ∃ (lines : List Line) (ls : List (Str × Str)), readLines db opt junk pieces = .ok lines ∧ lines.map Line.text = ls.map (fun p => fromUnicode db p.1) ∧
      ls.length = pieces.length ∧ (∀ p ∈ ls, Text p.1 p.2 ∧ Legit db p.2) ∧
      (∀ l ∈ lines, l.tabpos.Pairwise (fun a b => a + tabCols opt.tabstop a ≤ b)) ∧
      ∀ (i : Nat) s, pieces[i]? = some s → ∃ (p : Str × Str) (q z y : Str), ls[i]? = some p ∧ s = q ++ z ∧ Text z y ∧ (∀ c ∈ y, db.white c = true) ∧ EndsVisibly db q z ∧
        Expand opt.tabstop 0 q p.1
  | [], _ => ⟨[], [], rfl, rfl, rfl, by simp, by simp, by simp⟩
  | s :: r, h => by
    obtain ⟨v, t, h1, h2, h3, h4⟩ := h s (by simp)
    obtain ⟨l, u, w, a1, a2, a3, a4, a5, q, z, y, a6⟩ := readLine_text hdb opt hr ht junk h1 h2 h3 h4
    obtain ⟨lines, ls, b1, b2, b3, b4, b5, b6⟩ := readLines_text hdb opt hr ht junk r (fun s hs => h s (by simp [hs]))
    refine ⟨l :: lines, (u, w) :: ls, ?_, ?_, by simp [b3], ?_, ?_, ?_⟩
    · simp only [readLines, a1, b1, Res.ok_bind]
    · simp [a2, b2]
    · intro p hp
      rcases List.mem_cons.1 hp with rfl | hp
      · exact ⟨a3, a4⟩
      · exact b4 p hp
    · intro m hm
      rcases List.mem_cons.1 hm with rfl | hm
      · exact a5
      · exact b5 m hm
    · intro i s' hs'
      cases i with
      | zero =>
        simp only [List.getElem?_cons_zero, Option.some.injEq] at hs'
        subst hs'
        exact ⟨(u, w), q, z, y, rfl, a6⟩
      | succ i =>
        simp only [List.getElem?_cons_succ] at hs' ⊢
        exact b6 i s' hs'

theorem take_leading {db : CharDb} {v : Str} {n : Nat} (h : n ≤ leadingBlanks db v) : ∀ c ∈ v.take n, Blank db c := by
  intro c hc
  have h1 : v.take n <+: v.takeWhile (fun c => decide (Blank db c)) := by
    have : v.take n = (v.takeWhile (fun c => decide (Blank db c))).take n := by
      have h2 := List.takeWhile_prefix (fun c => decide (Blank db c)) (l := v)
      obtain ⟨r, hr⟩ := h2
      conv => lhs; rw [← hr]
      rw [List.take_append_of_le_length h]
    rw [this]; exact List.take_prefix _ _
  have := h1.subset hc
  have h3 := List.all_takeWhile (p := fun c => decide (Blank db c)) (l := v)
  rw [List.all_eq_true] at h3
  simpa using h3 c this

/-- an unindented text -/
theorem unindented_drop {db : CharDb} {n : Nat} {p q : Str × Str} (h : Unindented db n p q) :
    ∃ m, (∀ c ∈ p.2.take m, Blank db c) ∧ q.1 <:+ p.1 ∧ q.2 = p.2.drop m := by
  rcases h with ⟨h1, h2, h3, -⟩ | ⟨-, -, rfl⟩
  · exact ⟨n, take_leading h1, h3, h2⟩
  · exact ⟨0, by simp, List.suffix_refl _, by simp⟩

/-- analysing the input gives a text block -/
theorem analyze_block {db : CharDb} (opt : Opt) (hr : opt.r = false) (ht : 1 ≤ opt.tabstop) (d d' : Design)
    (hd : d'.indentmode = d.indentmode) (i : Input) (ls : List (Str × Str)) (hne : ls ≠ [])
    (hl : i.lines.map Line.text = ls.map (fun p => fromUnicode db p.1)) (hg : ∀ p ∈ ls, Text p.1 p.2 ∧ Legit db p.2)
    (htab : ∀ l ∈ i.lines, l.tabpos.Pairwise (fun a b => a + tabCols opt.tabstop a ≤ b)) :
    ∃ (j : Input) (ls' : List (Str × Str)), analyzeInput db opt d [] i = .ok j ∧ TextBlock db opt d' j ls' ∧ ls'.length = ls.length ∧
      j.finalNewline = i.finalNewline ∧ LeastIndent db (ls.map Prod.snd) j.indent ∧ (∃ p ∈ ls', columns db p.2 = j.maxline) ∧
      ∀ (y : Nat) p, ls[y]? = some p → ∃ q, ls'[y]? = some q ∧
        Unindented db (if d.indentmode = 't' then 0 else j.indent) p q := by
  by_cases hi : d.indentmode = 't'
  · have hb : ∀ p ∈ ls, ∃ b, fromUnicode db p.1 = some b ∧ b.cols = columns db p.2 ∧ b.indent = leadingBlanks db p.2 := by
      intro p hp
      obtain ⟨h1, h2, h3⟩ := hg p hp
      cases hb : fromUnicode db p.1 with
      | some b =>
        obtain ⟨-, -, -, -, m1, -, m2, -⟩ := C01_metrics db h1 hb
        exact ⟨b, rfl, m1, by rw [m2, indent_narrow db _ h3]⟩
      | none => obtain ⟨c, hc, hf⟩ := (C01_rejected_iff db h1).1 hb; exact absurd hf (h2 c hc)
    have hT : i.lines.map Line.text = (ls.map (fun p => (fromUnicode db p.1).getD emptyBxs)).map some := by
      rw [hl, List.map_map]
      apply List.map_congr_left
      intro p hp
      obtain ⟨b, e, -⟩ := hb p hp
      simp [e]
    obtain ⟨j, j1, j2, j3, j4, j5, j6, j7, j8, j9⟩ := C09_kept db opt d (.inl hi) i _ hT (by simpa using hne) (by
      intro t ht'
      obtain ⟨p, hp, rfl⟩ := List.mem_map.1 ht'
      obtain ⟨b, e, e1, e2⟩ := hb p hp
      rw [e]; simp only [Option.getD_some]; rw [e1, e2]
      have h3 := (hg p hp).2.2
      obtain ⟨c1, c2⟩ := columns_take db p.2 (leadingBlanks db p.2) h3 (Nat.le_refl _)
      have := columns_take_drop db p.2 (leadingBlanks db p.2)
      omega)
    refine ⟨j, ls, j1, ⟨hne, by rw [j2]; exact hl, fun p hp => ⟨(hg p hp).1, (hg p hp).2.1⟩, fun _ p hp => (hg p hp).2.2, ?_, ?_, ?_, ht⟩,
      rfl, j3, ⟨?_, ?_, ?_⟩, ?_, ?_⟩
    · intro p hp
      obtain ⟨b, e, e1, -⟩ := hb p hp
      have := j4 b (List.mem_map.2 ⟨p, hp, by rw [e]; rfl⟩)
      omega
    · intro _
      refine ⟨j9, ?_⟩
      intro p hp h0
      obtain ⟨b, e, e1, e2⟩ := hb p hp
      have := j6 b (List.mem_map.2 ⟨p, hp, by rw [e]; rfl⟩) (by omega)
      omega
    · intro _ l hl'; rw [j2] at hl'; exact htab l hl'
    · intro v hv h0
      obtain ⟨p, hp, rfl⟩ := List.mem_map.1 hv
      obtain ⟨b, e, e1, e2⟩ := hb p hp
      have := j6 b (List.mem_map.2 ⟨p, hp, by rw [e]; rfl⟩) (by omega)
      omega
    · rintro ⟨v, hv, h0⟩
      obtain ⟨p, hp, rfl⟩ := List.mem_map.1 hv
      obtain ⟨b, e, e1, e2⟩ := hb p hp
      rcases j7 ⟨b, List.mem_map.2 ⟨p, hp, by rw [e]; rfl⟩, by omega⟩ with h | ⟨t, ht', hc', hin⟩
      · exact .inl h
      · obtain ⟨q, hq, rfl⟩ := List.mem_map.1 ht'
        obtain ⟨b', e', e1', e2'⟩ := hb q hq
        rw [e'] at hc' hin
        simp only [Option.getD_some] at hc' hin
        exact .inr ⟨q.2, List.mem_map.2 ⟨q, hq, rfl⟩, by omega, by omega⟩
    · intro hz
      apply j8
      intro t ht'
      obtain ⟨q, hq, rfl⟩ := List.mem_map.1 ht'
      obtain ⟨b', e', e1', -⟩ := hb q hq
      rw [e']
      simp only [Option.getD_some]
      rw [e1']; exact hz q.2 (List.mem_map.2 ⟨q, hq, rfl⟩)
    · obtain ⟨t, ht', hc⟩ := j5
      obtain ⟨q, hq, rfl⟩ := List.mem_map.1 ht'
      obtain ⟨b', e', e1', -⟩ := hb q hq
      rw [e'] at hc
      simp only [Option.getD_some] at hc
      exact ⟨q, hq, by omega⟩
    · intro y p hp
      rw [if_pos hi]
      exact ⟨p, hp, .inl ⟨Nat.zero_le _, by simp, List.suffix_refl _, fun _ _ => rfl, by omega⟩⟩
  · obtain ⟨j, n, f, j1, j2, j3, j4, j5, j6, j7, j8, j9, j10, j11⟩ := C09_indentation db opt d hi hr i ls hne hl
      (fun p hp => ⟨(hg p hp).1, (hg p hp).2.1, (hg p hp).2.2⟩)
    let g (p : Str × Str) : Str := if f p = p.1 ∧ columns db p.2 = 0 ∧ 0 < n then p.2 else p.2.drop n
    have hgp : ∀ p ∈ ls, Unindented db n p (f p, g p) ∧ Text (f p) (g p) ∧ (∃ m, g p = p.2.drop m) ∧
        columns db (g p) = columns db p.2 - n := by
      intro p hp
      by_cases hc : f p = p.1 ∧ columns db p.2 = 0 ∧ 0 < n
      · have e : g p = p.2 := by show (if _ then _ else _) = _; rw [if_pos hc]
        refine ⟨.inr ⟨hc.2.1, hc.2.2, by rw [e, hc.1]⟩, by rw [e, hc.1]; exact (hg p hp).1, ⟨0, by rw [e]; rfl⟩, ?_⟩
        rw [e, hc.2.1]; omega
      · have e : g p = p.2.drop n := by show (if _ then _ else _) = _; rw [if_neg hc]
        rcases j9 p hp with ⟨h1, h2, h3, h4, h4', h5⟩ | ⟨h1, h2, h3⟩
        · exact ⟨.inl ⟨h1, e, h3, h4, h4'⟩, by rw [e]; exact h2, ⟨n, e⟩, by rw [e]; omega⟩
        · exact absurd ⟨h3, h1, h2⟩ hc
    refine ⟨j, ls.map (fun p => (f p, g p)), j1, ⟨by simpa using hne, by rw [j7, List.map_map]; rfl, ?_, ?_, ?_, ?_, ?_, ht⟩,
      by simp, j3, ⟨?_, ?_, ?_⟩, ?_, ?_⟩
    · intro p hp
      obtain ⟨p', hp', rfl⟩ := List.mem_map.1 hp
      obtain ⟨-, e2, ⟨m, e3⟩, -⟩ := hgp p' hp'
      refine ⟨e2, ?_⟩
      simp only [e3]
      exact ((hg p' hp').2.drop m).1
    · intro _ p hp
      obtain ⟨p', hp', rfl⟩ := List.mem_map.1 hp
      obtain ⟨-, e2, ⟨m, e3⟩, -⟩ := hgp p' hp'
      simp only [e3]
      exact ((hg p' hp').2.drop m).2
    · intro p hp
      obtain ⟨p', hp', rfl⟩ := List.mem_map.1 hp
      obtain ⟨-, -, -, e5⟩ := hgp p' hp'
      have := j10 p' hp'
      simp only
      omega
    · intro h; rw [hd] at h; exact absurd h hi
    · intro _ l hl'
      have : l.tabpos ∈ j.lines.map Line.tabpos := List.mem_map.2 ⟨l, hl', rfl⟩
      rw [j8] at this
      obtain ⟨l', hl'', e⟩ := List.mem_map.1 this
      rw [← e]; exact htab l' hl''
    · intro v hv h0
      obtain ⟨p, hp, rfl⟩ := List.mem_map.1 hv
      rw [j2]; exact j4 p hp h0
    · rintro ⟨v, hv, h0⟩
      obtain ⟨p, hp, rfl⟩ := List.mem_map.1 hv
      rw [j2]
      rcases j5 ⟨p, hp, h0⟩ with h | ⟨q, hq, h1, h2⟩
      · exact .inl h
      · exact .inr ⟨q.2, List.mem_map.2 ⟨q, hq, rfl⟩, h1, h2⟩
    · intro hz
      rw [j2]
      exact j6 (fun p hp => hz p.2 (List.mem_map.2 ⟨p, hp, rfl⟩))
    · obtain ⟨p, hp, e⟩ := j11
      exact ⟨(f p, g p), List.mem_map.2 ⟨p, hp, rfl⟩, by rw [← e]; exact (hgp p hp).2.2.2⟩
    · intro y p hp
      rw [if_neg hi, j2]
      exact ⟨(f p, g p), by rw [List.getElem?_map, hp]; rfl, (hgp p (List.mem_of_getElem? hp)).1⟩

end Boxes
