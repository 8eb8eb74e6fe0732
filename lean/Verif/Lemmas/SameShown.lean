import Verif.Spec.SameShown
import Verif.Props.ColouredPipe

set_option linter.unusedSimpArgs false

namespace Boxes
open Boxes.Spec ShapeName

theorem endsVisibly_text {db : CharDb} {q z : Str} (h : EndsVisibly db q z) : ∃ w, Text q w ∧ (w = [] ∨ ∃ x c, w = x ++ [c] ∧ db.white c = false) := by
  rcases h with rfl | ⟨p, x, c, e, rfl, hp, hc, hw, he⟩
  · exact ⟨[], .nil, .inl rfl⟩
  · refine ⟨x ++ [c], hp.append (.vis c hc ?_), .inr ⟨x, c, rfl, hw⟩⟩
    rcases he with he | ⟨rfl, -⟩
    · have := Text.esc e he Text.nil
      simpa using this
    · exact .nil

theorem white_split {white : Nat → Bool} {a b y z : Str} (h : a ++ y = b ++ z) (hy : ∀ c ∈ y, white c = true) (hz : ∀ c ∈ z, white c = true)
    (ha : a = [] ∨ ∃ x c, a = x ++ [c] ∧ white c = false) (hb : b = [] ∨ ∃ x c, b = x ++ [c] ∧ white c = false) : a = b := by
  rcases List.append_eq_append_iff.1 h with ⟨m, h1, h2⟩ | ⟨m, h1, h2⟩
  · rcases List.eq_nil_or_concat m with h0 | ⟨m', c, h0⟩
    · simp [h1, h0]
    · rw [List.concat_eq_append] at h0
      have hc := hy c (by rw [h2, h0]; simp)
      rcases hb with h3 | ⟨x, d, h3, h4⟩
      · rw [h1, h0] at h3; simp at h3
      · rw [h1, h0, ← List.append_assoc] at h3
        have := List.append_inj_right' h3 (by simp)
        simp only [List.cons.injEq, and_true] at this
        rw [this, h4] at hc; simp at hc
  · rcases List.eq_nil_or_concat m with h0 | ⟨m', c, h0⟩
    · simp [h1, h0]
    · rw [List.concat_eq_append] at h0
      have hc := hz c (by rw [h2, h0]; simp)
      rcases ha with h3 | ⟨x, d, h3, h4⟩
      · rw [h1, h0] at h3; simp at h3
      · rw [h1, h0, ← List.append_assoc] at h3
        have := List.append_inj_right' h3 (by simp)
        simp only [List.cons.injEq, and_true] at this
        rw [this, h4] at hc; simp at hc

/-- expanding tabs in front of which there is no escape sequence expands those of the visible text -/
theorem expand_visible {ts : Nat} : ∀ (s : Str) {v t : Str} {col : Nat}, Text s v → TabsFirst s → Expand ts col s t → ∃ w, Text t w ∧ Expand ts col v w
  | [], v, t, col, hs, _, h => by
    cases h
    obtain rfl := hs.unique .nil
    exact ⟨[], .nil, .nil _⟩
  | c :: s, v, t, col, hs, ht, h => by
    by_cases hc : c = 0x1b
    · have hnt : ∀ d ∈ c :: s, d ≠ 0x09 := by
        intro d hd h9
        subst h9
        obtain ⟨a, b, hab⟩ := List.append_of_mem hd
        cases a with
        | nil => simp only [List.nil_append, List.cons.injEq] at hab; omega
        | cons e a =>
          refine ht _ b hab ?_
          simp only [List.cons_append, List.cons.injEq] at hab
          rw [← hab.1, hc]; simp
      obtain rfl := h.no_tab hnt
      exact ⟨v, hs, expand_plain _ _ _ (fun d hd => hnt d (text_mem hs d hd))⟩
    · obtain ⟨w, rfl, hw⟩ := text_plain_append (p := [c]) (by simpa using hc) (show Text ([c] ++ s) v from hs)
      have ht' : TabsFirst s := by
        intro a b hab hm
        exact ht (c :: a) b (by rw [hab]; rfl) (by simp [hm])
      cases h with
      | char _ hc9 h =>
        obtain ⟨w', h1, h2⟩ := expand_visible s hw ht' h
        exact ⟨c :: w', .vis c hc h1, .char c hc9 h2⟩
      | tab n h1 h2 h3 h =>
        obtain ⟨w', g1, g2⟩ := expand_visible s hw ht' h
        exact ⟨List.replicate n 0x20 ++ w', (Text.plain (by simp)).append g1, .tab n h1 h2 h3 g2⟩

theorem tabsFirst_prefix {q z : Str} (h : TabsFirst (q ++ z)) : TabsFirst q := by
  intro a b hab
  exact h a (b ++ z) (by rw [hab]; simp)

/-- what is read of two lines that show the same shows the same -/
theorem read_same {db : CharDb} {ts : Nat} {s s' : Str} (hs : ShowSame s s') (ht : TabsFirst s) (ht' : TabsFirst s')
    {q z y q' z' y' : Str} {u u' : Str × Str} (h1 : s = q ++ z) (h2 : Text z y) (h3 : ∀ c ∈ y, db.white c = true) (h4 : EndsVisibly db q z)
    (h5 : Expand ts 0 q u.1) (h6 : Text u.1 u.2) (k1 : s' = q' ++ z') (k2 : Text z' y') (k3 : ∀ c ∈ y', db.white c = true) (k4 : EndsVisibly db q' z')
    (k5 : Expand ts 0 q' u'.1) (k6 : Text u'.1 u'.2) : u.2 = u'.2 := by
  obtain ⟨v, hv, hv'⟩ := hs
  subst h1 k1
  obtain ⟨w, a1, a2⟩ := endsVisibly_text h4
  obtain ⟨w', b1, b2⟩ := endsVisibly_text k4
  have e1 : v = w ++ y := hv.unique (a1.append h2)
  have e2 : v = w' ++ y' := hv'.unique (b1.append k2)
  obtain rfl := white_split (e1.symm.trans e2) h3 k3 a2 b2
  obtain ⟨x, c1, c2⟩ := expand_visible q a1 (tabsFirst_prefix ht) h5
  obtain ⟨x', d1, d2⟩ := expand_visible q' b1 (tabsFirst_prefix ht') k5
  rw [h6.unique c1, k6.unique d1]
  exact c2.unique d2

theorem expand_length {ts : Nat} {q z t u : Str} (h : Expand ts 0 (q ++ z) t) (h' : Expand ts 0 q u) : u.length ≤ t.length := by
  obtain ⟨t1, t2, rfl, h1, -⟩ := h.split
  rw [h'.unique h1]; simp

theorem text_length {s v : Str} (h : Text s v) : v.length ≤ s.length := by
  induction h with
  | nil => simp
  | vis c hc h ih => simp; omega
  | esc e he h ih => simp; omega

theorem leadingBlanks_le (db : CharDb) (v : Str) : leadingBlanks db v ≤ v.length := by
  unfold leadingBlanks
  first
  | exact List.length_takeWhile_le _ _
  | exact (List.takeWhile_prefix _).length_le

/-- the common indentation is determined if the lines are shorter than the buffer -/
theorem leastIndent_unique {db : CharDb} {vs : List Str} {n n' : Nat} (h : LeastIndent db vs n) (h' : LeastIndent db vs n')
    (hl : ∀ v ∈ vs, v.length < 16382) : n = n' := by
  by_cases h0 : ∃ v ∈ vs, 0 < columns db v
  · have key : ∀ {a b}, LeastIndent db vs a → LeastIndent db vs b → a ≤ b := by
      intro a b ha hb
      rcases hb.attained h0 with h1 | ⟨v, h1, h2, h3⟩
      · obtain ⟨v, h2, h3⟩ := h0
        have e1 := hb.le v h2 h3
        have e2 := leadingBlanks_le db v
        have e3 := hl v h2
        omega
      · rw [← h3]; exact ha.le v h1 h2
    exact Nat.le_antisymm (key h h') (key h' h)
  · have hz : ∀ v ∈ vs, columns db v = 0 := by
      intro v hv
      exact Classical.byContradiction fun h1 => h0 ⟨v, hv, by omega⟩
    rw [h.none hz, h'.none hz]

theorem unindented_same {db : CharDb} {n : Nat} {p q p' q' : Str × Str} (hn : NarrowBlanks db p.2) (hp : p.2 = p'.2) (h : Unindented db n p q)
    (h' : Unindented db n p' q') : q.2 = q'.2 := by
  have hz : columns db p.2 = 0 → leadingBlanks db p.2 = 0 := by
    intro h0
    have := lead_le db hn
    omega
  rcases h with ⟨h1, h2, -⟩ | ⟨h1, h2, rfl⟩
  · rcases h' with ⟨k1, k2, -⟩ | ⟨k1, k2, rfl⟩
    · rw [h2, k2, hp]
    · rw [← hp] at k1
      have := hz k1
      omega
  · rcases h' with ⟨k1, k2, -⟩ | ⟨k1, k2, rfl⟩
    · rw [← hp] at k1
      have := hz h1
      omega
    · exact hp

theorem shifted_unique {db : CharDb} {opt : Opt} {d : Design} {i i' : Input} (hm : i'.maxline = i.maxline) (hi : i'.indent = i.indent) {v : Str} {skew k k' : Int}
    (h : Shifted db opt d i v skew k) (h' : Shifted db opt d i' v skew k') : k = k' := by
  by_cases hj : opt.justify ∈ ['l', 'c', 'r']
  · by_cases hb : ∀ c ∈ v, Blank db c ∨ c = 0x0d
    · rw [h.blank hb, h'.blank hb]
    · have hs : ∃ c ∈ v, ¬ Blank db c ∧ c ≠ 0x0d := by
        simp only [Classical.not_forall, not_or] at hb
        obtain ⟨c, hc, h1⟩ := hb
        exact ⟨c, hc, h1⟩
      simp only [List.mem_cons, List.not_mem_nil, or_false] at hj
      rcases hj with hj | hj | hj
      · have e1 := h.leftJustified hj hs
        have e2 := h'.leftJustified hj hs
        rw [hi] at e2
        omega
      · obtain ⟨b, l, f, a1, a2, a3, a4⟩ := h.centred hj hs
        obtain ⟨b', l', f', c1, c2, c3, c4⟩ := h'.centred hj hs
        rw [hi, ← a1] at c1
        subst c1
        rw [hm] at c3
        obtain rfl : l = l' := by omega
        obtain rfl : f = f' := by omega
        omega
      · have e1 := h.rightJustified hj hs
        have e2 := h'.rightJustified hj hs
        rw [hm] at e2
        omega
  · rw [h.unjustified hj, h'.unjustified hj]

theorem indentOf_unique {opt : Opt} {d : Design} {i i' : Input} (hk : opt.tabexp ≠ 'k') (ht : 1 ≤ opt.tabstop) (hi : i'.indent = i.indent) {n n' : Nat} {ind ind' : Str}
    (h : IndentOf opt d i n ind) (h' : IndentOf opt d i' n' ind') : ind = ind' := by
  by_cases hb : d.indentmode = 'b'
  · by_cases hu : opt.tabexp = 'u'
    · obtain ⟨e1, a, b, rfl, hb1⟩ := h.unexpanded hb hu
      obtain ⟨e2, a', b', rfl, hb2⟩ := h'.unexpanded hb hu
      rw [hi] at e2
      have key : ∀ {a b : Nat}, Expand opt.tabstop 0 (List.replicate a 0x09 ++ List.replicate b 0x20) (spaces i.indent) → a * opt.tabstop + b = i.indent := by
        intro a b e
        have := (expand_tabs opt.tabstop ht a 0 (Nat.dvd_zero _)).append (expand_spaces opt.tabstop b _)
        have := congrArg List.length (e.unique this)
        simp [spaces] at this
        omega
      have k1 := key e1
      have k2 := key e2
      have m1 : i.indent % opt.tabstop = b := by
        rw [← k1, Nat.mul_comm, Nat.mul_add_mod, Nat.mod_eq_of_lt hb1]
      have m2 : i.indent % opt.tabstop = b' := by
        rw [← k2, Nat.mul_comm, Nat.mul_add_mod, Nat.mod_eq_of_lt hb2]
      have d1 : a = a' := Nat.eq_of_mul_eq_mul_right ht (by omega)
      rw [d1, ← m1, ← m2]
    · rw [h.expanded hb hu hk, h'.expanded hb hu hk, hi]
  · rw [h.off hb, h'.off hb]

/-- what is between the sides in two rows shows the same -/
theorem rowAt_same {db : CharDb} {opt : Opt} {d : Design} {i i' : Input} {ls ls' : List (Str × Str)} {box : Sides Shape} {above below lp rp y n n' : Nat} {m m' : Str}
    (hl : ls.map Prod.snd = ls'.map Prod.snd) (hm : i'.maxline = i.maxline) (hi : i'.indent = i.indent)
    (hsum : box.top.height + above + ls.length + below + box.bottom.height = box.right.height) (hbox : GoodBox db d box)
    (h : RowAt db opt d i ls box above below lp rp y n m) (h' : RowAt db opt d i' ls' box above below lp rp y n' m') : ShowSame m m' := by
  have hlen : ls.length = ls'.length := by simpa using congrArg List.length hl
  have htext : ∀ {s : Shape} {y : Nat}, GoodShape db s → y < s.height → ShowSame (lineText s y) (lineText s y) := by
    intro s y hs hy
    obtain ⟨v, hv, -⟩ := (partOk_line hs hy).1
    exact ⟨v, hv, hv⟩
  have hsp : ∀ n, ShowSame (spaces n) (spaces n) := by
    intro n
    exact ⟨_, .plain (by simp [spaces]), .plain (by simp [spaces])⟩
  have hlt : ∀ {y : Nat} {p : Str × Str}, ls[y]? = some p → y < ls.length := fun h => (List.getElem?_eq_some_iff.1 h).1
  have hlt' : ∀ {y : Nat} {p : Str × Str}, ls'[y]? = some p → y < ls'.length := fun h => (List.getElem?_eq_some_iff.1 h).1
  generalize hy : y = y2 at h'
  cases h with
  | top y h1 =>
    cases h' with
    | top y' h2 => subst hy; exact htext hbox.top h1
    | above y' h2 => omega
    | text y' p k m h2 => omega
    | below y' h2 => omega
    | bottom y' h2 => omega
  | above y h1 =>
    cases h' with
    | top y' h2 => omega
    | above y' h2 => exact hsp _
    | text y' p k m h2 => omega
    | below y' h2 => omega
    | bottom y' h2 => omega
  | text y p k m h1 h3 h4 =>
    have := hlt h1
    cases h' with
    | top y' h2 => omega
    | above y' h2 => omega
    | text y' p' k' m' h2 h5 h6 =>
      obtain rfl : n = n' := by omega
      have hv : p.2 = p'.2 := by
        have := congrArg (fun l => l[n]?) hl
        simpa [h1, h2] using this
      rw [← hv] at h5
      obtain rfl := shifted_unique hm hi h3 h5
      obtain ⟨t, -, -, -, g1, rfl⟩ := h4.row
      obtain ⟨t', -, -, -, g2, rfl⟩ := h6.row
      rw [← hv] at g2 ⊢
      rw [hm]
      have hp : ∀ n, Text (spaces n) (spaces n) := fun n => .plain (by simp [spaces])
      exact ⟨_, ((hp _).append g1).append (hp _), ((hp _).append g2).append (hp _)⟩
    | below y' h2 => omega
    | bottom y' h2 => omega
  | below y h1 =>
    cases h' with
    | top y' h2 => omega
    | above y' h2 => omega
    | text y' p k m h2 => have := hlt' h2; omega
    | below y' h2 => exact hsp _
    | bottom y' h2 => omega
  | bottom y h1 =>
    cases h' with
    | top y' h2 => omega
    | above y' h2 => omega
    | text y' p k m h2 => have := hlt' h2; omega
    | below y' h2 => omega
    | bottom y' h2 =>
      obtain rfl : y = y' := by omega
      exact htext hbox.bottom h1

theorem showSame_append {a a' b b' : Str} (h : ShowSame a a') (h' : ShowSame b b') : ShowSame (a ++ b) (a' ++ b') := by
  obtain ⟨v, h1, h2⟩ := h
  obtain ⟨w, h3, h4⟩ := h'
  exact ⟨v ++ w, h1.append h3, h2.append h4⟩

theorem showSame_line {db : CharDb} {s : Shape} {y : Nat} (hs : GoodShape db s) (hy : y < s.height) : ShowSame (lineText s y) (lineText s y) := by
  obtain ⟨v, hv, -⟩ := (partOk_line hs hy).1
  exact ⟨v, hv, hv⟩

theorem row_same {db : CharDb} {opt : Opt} {d : Design} {i i' : Input} {box : Sides Shape} {P : Prop} {y n n' : Nat} {m m' row row' : Str}
    (hk : opt.tabexp ≠ 'k') (ht : 1 ≤ opt.tabstop) (hi : i'.indent = i.indent) (hbox : GoodBox db d box) (hy : y < box.right.height) (hm : ShowSame m m')
    (h : Row opt d i box P y n m row) (h' : Row opt d i' box P y n' m' row') : ShowSame row row' := by
  obtain ⟨ind, left, a1, a2, a3, rfl⟩ := h.parts
  obtain ⟨ind', left', b1, b2, b3, rfl⟩ := h'.parts
  obtain rfl := indentOf_unique hk ht hi a1 b1
  have hind : ShowSame ind ind := by
    have : ∀ c ∈ ind, c ≠ 0x1b := by
      intro c hc
      rcases a1.chars c hc with h | h <;> omega
    exact ⟨_, .plain this, .plain this⟩
  have hleft : ShowSame left left' := by
    by_cases hP : P
    · rw [a2 hP, b2 hP]; exact ⟨[], .nil, .nil⟩
    · rw [a3 hP, b3 hP]; exact showSame_line hbox.left (by rw [hbox.sameHeight]; exact hy)
  exact showSame_append (showSame_append (showSame_append hind hleft) hm) (showSame_line hbox.right hy)

theorem rtrim_same {db : CharDb} {b b' r r' : Bxs} (h : ShowSame b.memory b'.memory) (hb : fromUnicode db b.memory = some b) (hb' : fromUnicode db b'.memory = some b')
    (hr : b.rtrim db = some r) (hr' : b'.rtrim db = some r') : ShowSame r.memory r'.memory ∧ fromUnicode db r.memory = some r ∧ fromUnicode db r'.memory = some r' := by
  obtain ⟨v, h1, h2⟩ := h
  by_cases hbl : ∀ c ∈ v, Blank db c
  · rw [C04_rtrim_blank db h1 hb hbl] at hr
    rw [C04_rtrim_blank db h2 hb' hbl] at hr'
    obtain rfl := Option.some.inj hr
    obtain rfl := Option.some.inj hr'
    exact ⟨⟨v, h1, h2⟩, hb, hb'⟩
  · simp only [Classical.not_forall] at hbl
    obtain ⟨c, hc, hcb⟩ := hbl
    obtain ⟨x, e1, e2, -, e3⟩ := C04_rtrim db h1 hb ⟨c, hc, hcb⟩
    obtain ⟨x', f1, f2, -, f3⟩ := C04_rtrim db h2 hb' ⟨c, hc, hcb⟩
    rw [hr] at e1; rw [hr'] at f1
    obtain rfl := Option.some.inj e1
    obtain rfl := Option.some.inj f1
    exact ⟨⟨_, e3, f3⟩, e2, f2⟩

/-- the box does not depend on more than the number of lines and their width -/
theorem same_box {db : CharDb} {opt : Opt} {d : Design} {i i' : Input} (hm : i'.maxline = i.maxline) (hl : i'.lines.length = i.lines.length) (fuel : Nat) :
    adjustSizeAndPadding opt d i' = adjustSizeAndPadding opt d i ∧
      generateBox db (adjustSizeAndPadding opt d i) i' fuel = generateBox db (adjustSizeAndPadding opt d i) i fuel := by
  constructor
  · simp only [adjustSizeAndPadding, hm, hl]
  · simp only [generateBox, hm, hl]

/-- drawing, up to the text block -/
theorem draw_input (db : CharDb) (hdb : Sane db) (opt : Opt) (hr : opt.r = false) (ht : 1 ≤ opt.tabstop) (d : Design) (junk : Nat) (pieces : List Str)
    (hp : ∀ s ∈ pieces, Readable db opt.tabstop s) (hne : pieces ≠ []) (fuel : Nat) :
    ∃ (j : Input) (us ls : List (Str × Str)),
      drawOnce db opt d [] junk pieces fuel = handleGenerateBox db opt (adjustSizeAndPadding opt d j) j fuel ∧
      LeastIndent db (us.map Prod.snd) j.indent ∧ (∃ p ∈ ls, columns db p.2 = j.maxline) ∧ us.length = pieces.length ∧
      TextBlock db opt (adjustSizeAndPadding opt d j) j ls ∧ ls.length = pieces.length ∧ j.lines.length = pieces.length ∧ (∀ p ∈ us, Text p.1 p.2 ∧ Legit db p.2) ∧
      (j.finalNewline = true ↔ EndsInBreak pieces) ∧
      ∀ (i : Nat) s, pieces[i]? = some s → ∃ (u p : Str × Str) (q z y : Str), us[i]? = some u ∧ ls[i]? = some p ∧
        Unindented db (if d.indentmode = 't' then 0 else j.indent) u p ∧ s = q ++ z ∧ Text z y ∧ (∀ c ∈ y, db.white c = true) ∧ EndsVisibly db q z ∧ Expand opt.tabstop 0 q u.1 := by
  obtain ⟨lines, ls, a1, a2, a3, a4, a5, a6⟩ := readLines_text hdb opt hr ht junk pieces hp
  have hread : ∃ i, readAllInput db opt junk pieces = .ok i ∧ i.lines = lines := by
    unfold readAllInput
    rw [a1]
    exact ⟨_, rfl, rfl⟩
  obtain ⟨i, i1, i2⟩ := hread
  have hlne : ls ≠ [] := by
    intro h0; rw [h0] at a3; exact hne (List.eq_nil_of_length_eq_zero a3.symm)
  obtain ⟨-, hfin⟩ := C47_lines db opt junk pieces i1
  rw [← i2] at a2 a5
  obtain ⟨j, ls', j1, j2, j3, j4, j6, j7, j5⟩ := analyze_block (d' := d) opt hr ht d rfl i ls hlne a2 a4 a5
  have j2' : TextBlock db opt (adjustSizeAndPadding opt d j) j ls' :=
    ⟨j2.nonempty, j2.texts, j2.good, j2.narrow, j2.fits, by rw [(C21_padding opt d j).2.2.2]; exact j2.indented, j2.tabs, j2.tabstop⟩
  have hlen : j.lines.length = ls'.length := by
    have := congrArg List.length j2.texts
    simpa using this
  have hjne : ¬ j.lines = [] := by
    intro h0; rw [h0] at hlen
    apply j2.nonempty
    exact List.eq_nil_of_length_eq_zero hlen.symm
  refine ⟨j, ls, ls', ?_, j6, j7, a3, j2', by omega, by omega, a4, by rw [j4]; exact hfin, ?_⟩
  · unfold drawOnce
    rw [i1, Res.ok_bind, j1]
    simp only [if_neg hjne]
  · intro y s hs
    obtain ⟨p, q, z, w, c1, c2⟩ := a6 y s hs
    obtain ⟨p', e1, e2⟩ := j5 y p c1
    exact ⟨p, p', q, z, w, c1, e1, e2, c2⟩

/-- what is printed of rows that show the same -/
theorem render_same {db : CharDb} (color : Bool) : ∀ (out out' : List (Bxs × Str)), out'.length = out.length →
    (∀ (t : Nat) p p', out[t]? = some p → out'[t]? = some p' → ShowSame p.1.memory p'.1.memory ∧ p'.2 = p.2 ∧ (∀ c ∈ p.2, c ≠ 0x1b) ∧
      fromUnicode db p.1.memory = some p.1 ∧ fromUnicode db p'.1.memory = some p'.1) →
    ∃ text text', renderBox color out = .ok text ∧ renderBox color out' = .ok text' ∧ ShowSame text text' ∧ (color = false → text' = text) := by
  intro out
  induction out with
  | nil =>
    intro out' hl _
    obtain rfl := List.length_eq_zero_iff.1 (by simpa using hl)
    exact ⟨[], [], rfl, rfl, ⟨[], .nil, .nil⟩, fun _ => rfl⟩
  | cons p more ih =>
    intro out' hl h
    cases out' with
    | nil => simp at hl
    | cons p' more' =>
      obtain ⟨⟨v, h1, h2⟩, h3, h4, h5, h6⟩ := h 0 p p' rfl rfl
      obtain ⟨text, text', e1, e2, e3, e4⟩ := ih more' (by simpa using hl) (fun t q q' hq hq' => h (t + 1) q q' (by simpa using hq) (by simpa using hq'))
      have o := C03_output db h1 h5
      have o' := C03_output db h2 h6
      have hp : ShowSame p.2 p.2 := ⟨_, .plain h4, .plain h4⟩
      obtain ⟨b, e⟩ := p
      obtain ⟨b', e'⟩ := p'
      simp only at h3 h4 h1 h2 hp
      subst h3
      rw [renderBox, renderBox, e1, e2]
      cases color with
      | true =>
        rw [show b.toOutput true = some b.memory from o.1, show b'.toOutput true = some b'.memory from o'.1]
        exact ⟨_, _, rfl, rfl, showSame_append (showSame_append ⟨v, h1, h2⟩ hp) e3, by simp⟩
      | false =>
        rw [show b.toOutput false = some v from o.2, show b'.toOutput false = some v from o'.2]
        have hv : ∀ c ∈ v, c ≠ 0x1b := text_vis_ne h1
        exact ⟨_, _, rfl, rfl, showSame_append (showSame_append ⟨v, .plain hv, .plain hv⟩ hp) e3, fun _ => by rw [e4 rfl]⟩

/-- the program when it draws a box with a design from a configuration file without replacement rules -/
theorem whole_draws (m : Machine) (c : CommandLine) (n : Nat) (hfirst : c.first ≠ some (lit "-?")) {a : Args}
    (hopts : optionLoop c.options createNewOpt = some (a, false)) (hfiles : UsableFiles m.canRead m.canWrite c.files)
    (hlist : .list ∉ c.options) (hq : ∀ s, .query s ∉ c.options) (hrm : .remove ∉ c.options) (hmend : .mend ∉ c.options)
    (hcr : ∀ s, .create s ∉ c.options)
    {file : Bxs} {d : DesignDef} {ds : List DesignDef} {ps : List Bxs} (h : Loaded m a (n + 1) file d ds ps) (hrules : d.reprules = []) :
    a.opt.r = false ∧ wholeProgram m c (n + 1) =
      match (drawOnce m.db a.opt (prepareDesign a.opt d.core) [] m.junk (m.input (named c.files 0)) (n + 1)).map
          (fun r => (do let out ← r; renderBox (colours c.options m.terminalColors) out : Res Str)) with
      | none => none
      | some (.fail _) => some (.fail 1)
      | some .ub => some .ub
      | some (.ok text) => some (.ok (.output (named c.files 1) text)) := by
  obtain ⟨f, before, after, ds', ps', e1, e2, e3, e4⟩ := whole_loaded m c (n + 1) hfirst hopts hfiles hcr h
  obtain ⟨s1, s2, s3, s4, -⟩ := C58_switches c.options a hopts
  have hqn : a.query = none := by
    rcases (C58_words c.options a hopts).2.2.2.2.2 with ⟨x, ⟨pre', post', e, -, hno⟩, arg', q, rfl, hq', e'⟩ | ⟨hn, e⟩
    · exact absurd (by rw [e]; simp) (hq arg')
    · exact e
  have hmn : a.opt.mend = 0 := by rw [s3, if_neg hmend]
  have hrn : a.opt.r = false := by
    cases hb : a.opt.r with
    | false => rfl
    | true => exact absurd (s2.1 hb) (by simp [hrm, hmend])
  refine ⟨hrn, ?_⟩
  rw [e4]
  have htask : mainTask m { a with infile := named c.files 0, outfile := named c.files 1 } file (d :: ds) ps f (n + 1) =
      (drawOnce m.db a.opt (prepareDesign a.opt d.core) [] m.junk (m.input (named c.files 0)) (n + 1)).map
          (fun r => (do let out ← r; renderBox (colours c.options m.terminalColors) out : Res Str)) := by
    unfold mainTask
    simp only [hqn, colour_setting hopts]
    rw [if_neg (fun hl => hlist (s1.1 hl)), if_neg (by simp)]
    simp only [List.map_cons]
    rw [run_draw _ _ hmn hrn]
    simp only [rulesOf, List.getElem?_cons_zero, hrules, List.map_nil]
  rw [htask]
  rfl

end Boxes
