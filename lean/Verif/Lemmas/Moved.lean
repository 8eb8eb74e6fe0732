import Verif.Spec.Moved
import Verif.Props.SameShown
import Verif.Props.Trailing

set_option linter.unusedSimpArgs false

namespace Boxes
open Boxes.Spec ShapeName

theorem expand_later {ts k : Nat} (hk : ts ∣ k) {col : Nat} {s t : Str} (h : Expand ts col s t) : Expand ts (k + col) s t := by
  induction h with
  | nil col => exact .nil _
  | char c hc h ih => exact .char c hc ih
  | tab n h1 h2 h3 h ih => exact .tab n h1 h2 (by rw [Nat.add_assoc]; exact Nat.dvd_add hk h3) (by rw [Nat.add_assoc]; exact ih)

theorem expand_behind {ts k : Nat} {s t : Str} (hk : ts ∣ k ∨ 0x09 ∉ s) (h : Expand ts 0 s t) : Expand ts 0 (spaces k ++ s) (spaces k ++ t) := by
  refine (expand_spaces ts k 0).append ?_
  rw [List.length_replicate]
  rcases hk with hk | hk
  · have := expand_later hk h
    simpa using this
  · have hs : ∀ c ∈ s, c ≠ 0x09 := by intro c hc h0; subst h0; exact hk hc
    rw [h.no_tab hs]
    exact expand_plain ts s _ hs

theorem columns_spaces' (db : CharDb) (n : Nat) : columns db (spaces n) = n := by
  simp [columns, spaces, width_space, List.map_replicate, List.sum_replicate_nat]

theorem columns_cons' (db : CharDb) (c : Nat) (v : Str) : columns db (c :: v) = width db c + columns db v := by
  simp [columns]

theorem expand_columns {db : CharDb} {ts col : Nat} {s t : Str} (h : Expand ts col s t) : 0 < columns db s → 0 < columns db t := by
  induction h with
  | nil => exact id
  | char c hc h ih =>
    rw [columns_cons', columns_cons']
    intro h0
    rcases Nat.eq_zero_or_pos (width db c) with h1 | h1
    · have := ih (by omega); omega
    · omega
  | tab n h1 h2 h3 h ih =>
    intro _
    have := columns_spaces' db n
    rw [columns_append]
    unfold spaces at this
    omega

theorem columns_pos {db : CharDb} {v : Str} {c : Nat} (hc : c ∈ v) (hw : 0 < width db c) : 0 < columns db v := by
  induction v with
  | nil => simp at hc
  | cons d v ih =>
    rw [columns_cons']
    rcases List.mem_cons.1 hc with rfl | h
    · omega
    · have := ih h; omega

theorem expand_nil {ts col : Nat} {t : Str} (h : Expand ts col [] t) : t = [] := by cases h; rfl

theorem leadingBlanks_moved {db : CharDb} (hdb : Sane db) (k : Nat) (v : Str) : leadingBlanks db (spaces k ++ v) = k + leadingBlanks db v := by
  unfold leadingBlanks spaces
  induction k with
  | zero => simp
  | succ k ih =>
    have hb : Blank db 0x20 := .inr hdb.space_blank
    rw [List.replicate_succ, List.cons_append, List.takeWhile_cons_of_pos (by simpa using hb), List.length_cons, ih]
    omega

/-- `k` spaces in front of a text that shows something -/
def moved (k : Nat) (v : Str) : Str := if v = [] then [] else spaces k ++ v

/-- what is read of a line that is moved -/
theorem read_moved {db : CharDb} {ts k : Nat} (hsp : db.white 0x20 = true) {s : Str} (hk : ts ∣ k ∨ 0x09 ∉ s) (ht : TabsFirst s) (hf : Filled db s ∨ AllWhite db s)
    {q z y q' z' y' : Str} {u u' : Str × Str} (h1 : s = q ++ z) (h2 : Text z y) (h3 : ∀ c ∈ y, db.white c = true) (h4 : EndsVisibly db q z)
    (h5 : Expand ts 0 q u.1) (h6 : Text u.1 u.2) (k1 : spaces k ++ s = q' ++ z') (k2 : Text z' y') (k3 : ∀ c ∈ y', db.white c = true) (k4 : EndsVisibly db q' z')
    (k5 : Expand ts 0 q' u'.1) (k6 : Text u'.1 u'.2) : u'.2 = moved k u.2 ∧ (u.2 ≠ [] → 0 < columns db u.2) ∧ (Filled db s → u.2 ≠ []) := by
  have hne : ∀ c ∈ spaces k, c ≠ 0x1b := by simp [spaces]
  have ht' : TabsFirst (q' ++ z') := by
    rw [← k1]
    intro a b hab hm
    rcases List.append_eq_append_iff.1 hab with ⟨w, rfl, e⟩ | ⟨w, e, e'⟩
    · rcases List.mem_append.1 hm with h | h
      · exact hne _ h rfl
      · exact ht w b e h
    · exact hne _ (by rw [e]; simp [hm]) rfl
  have ht0 : TabsFirst (q ++ z) := by rw [← h1]; exact ht
  obtain ⟨w, a1, a2⟩ := endsVisibly_text h4
  obtain ⟨w', b1, b2⟩ := endsVisibly_text k4
  have hv : Text s (w ++ y) := by rw [h1]; exact a1.append h2
  have hv' : Text (spaces k ++ s) (spaces k ++ (w ++ y)) := (Text.plain hne).append hv
  have e2 : spaces k ++ (w ++ y) = w' ++ y' := hv'.unique (by rw [k1]; exact b1.append k2)
  obtain ⟨x, c1, c2⟩ := expand_visible q a1 (tabsFirst_prefix ht0) h5
  obtain ⟨x', d1, d2⟩ := expand_visible q' b1 (tabsFirst_prefix ht') k5
  obtain rfl := h6.unique c1
  obtain rfl := k6.unique d1
  have hws : ∀ c ∈ spaces k, db.white c = true := by
    intro c hc
    obtain rfl : c = 0x20 := List.eq_of_mem_replicate hc
    exact hsp
  have hfill : Filled db s → 0 < columns db u.2 := by
    rintro ⟨v, hv2, c, hc, g1, g2⟩
    obtain rfl := hv2.unique hv
    rcases List.mem_append.1 hc with hc | hc
    · exact expand_columns c2 (columns_pos hc g2)
    · rw [h3 c hc] at g1; simp at g1
  have hfne : Filled db s → u.2 ≠ [] := by
    intro h h0
    have := hfill h
    rw [h0] at this
    simp [columns] at this
  by_cases hw : w = []
  · subst hw
    have hx := expand_nil c2
    have : [] = w' := white_split (a := []) (y := spaces k ++ y) (by simpa using e2) (by
      intro c hc
      rcases List.mem_append.1 hc with hc | hc
      · exact hws c hc
      · exact h3 c hc) k3 (.inl rfl) b2
    subst this
    exact ⟨by rw [expand_nil d2, hx]; rfl, fun h => absurd hx h, hfne⟩
  · obtain ⟨x0, c0, ew, hwc⟩ := a2.resolve_left hw
    have : spaces k ++ w = w' := white_split (y := y) (by simpa using e2) h3 k3 (.inr ⟨spaces k ++ x0, c0, by rw [ew]; simp, hwc⟩) b2
    subst this
    have hF : Filled db s := by
      refine hf.resolve_right ?_
      rintro ⟨v, hv2, hall⟩
      obtain rfl := hv2.unique hv
      have := hall c0 (by rw [ew]; simp)
      rw [hwc] at this; simp at this
    have hk' : ts ∣ k ∨ 0x09 ∉ w := by
      refine hk.imp id fun h9 h0 => h9 ?_
      rw [h1]
      exact List.mem_append.2 (.inl (text_mem a1 _ h0))
    refine ⟨?_, fun _ => hfill hF, hfne⟩
    rw [moved, if_neg (hfne hF)]
    exact d2.unique (expand_behind hk' c2)

/-- the common indentation of the moved lines -/
theorem leastIndent_moved {db : CharDb} (hdb : Sane db) {k n n' : Nat} {vs : List Str} (hpos : ∀ v ∈ vs, v ≠ [] → 0 < columns db v) (hne : ∃ v ∈ vs, v ≠ [])
    (h : LeastIndent db vs n) (h' : LeastIndent db (vs.map (moved k)) n') (hl : ∀ v ∈ vs, (moved k v).length < 16382) : n' = n + k := by
  have hm : ∀ v ∈ vs, v ≠ [] → 0 < columns db (moved k v) ∧ leadingBlanks db (moved k v) = k + leadingBlanks db v := by
    intro v hv h0
    have := hpos v hv h0
    rw [moved, if_neg h0, columns_append, leadingBlanks_moved hdb]
    exact ⟨by omega, rfl⟩
  have hnil : ∀ v, 0 < columns db (moved k v) → v ≠ [] := by
    rintro v h0 rfl
    simp [moved, columns] at h0
  obtain ⟨v0, hv0, hn0⟩ := hne
  have hlen : ∀ v ∈ vs, v ≠ [] → k + leadingBlanks db v < 16382 := by
    intro v hv h0
    have h1 := hl v hv
    have h2 := leadingBlanks_le db v
    rw [moved, if_neg h0] at h1
    simp [spaces] at h1
    omega
  have a0 := h.le v0 hv0 (hpos v0 hv0 hn0)
  have b0 := h'.le (moved k v0) (List.mem_map.2 ⟨v0, hv0, rfl⟩) (hm v0 hv0 hn0).1
  have l0 := hlen v0 hv0 hn0
  have := (hm v0 hv0 hn0).2
  rcases h.attained ⟨v0, hv0, hpos v0 hv0 hn0⟩ with h1 | ⟨v, h1, h2, h3⟩
  · omega
  · rcases h'.attained ⟨moved k v0, List.mem_map.2 ⟨v0, hv0, rfl⟩, (hm v0 hv0 hn0).1⟩ with g1 | ⟨v', g1, g2, g3⟩
    · omega
    · obtain ⟨v2, g4, rfl⟩ := List.mem_map.1 g1
      have hv : v ≠ [] := by rintro rfl; simp [columns] at h2
      have hv2 := hnil v2 g2
      have e1 := h.le v2 g4 (hpos v2 g4 hv2)
      have e2 := h'.le (moved k v) (List.mem_map.2 ⟨v, h1, rfl⟩) (hm v h1 hv).1
      have e3 := (hm v h1 hv).2
      have e4 := (hm v2 g4 hv2).2
      omega

theorem unindented_moved {db : CharDb} {n k : Nat} {u u' p p' : Str × Str} (hu : u'.2 = moved k u.2) (hpos : u.2 ≠ [] → 0 < columns db u.2)
    (h : Unindented db n u p) (h' : Unindented db (n + k) u' p') : p.2 = p'.2 := by
  by_cases h0 : u.2 = []
  · have hu' : u'.2 = [] := by rw [hu, h0]; rfl
    have e1 : p.2 = [] := by
      rcases h with ⟨-, h, -⟩ | ⟨-, -, rfl⟩
      · rw [h, h0]; simp
      · exact h0
    have e2 : p'.2 = [] := by
      rcases h' with ⟨-, h, -⟩ | ⟨-, -, rfl⟩
      · rw [h, hu']; simp
      · exact hu'
    rw [e1, e2]
  · have hp := hpos h0
    rw [moved, if_neg h0] at hu
    have hp' : 0 < columns db u'.2 := by rw [hu, columns_append]; omega
    rcases h with ⟨-, h, -⟩ | ⟨h, -⟩
    · rcases h' with ⟨-, h', -⟩ | ⟨h', -⟩
      · rw [h, h', hu, Nat.add_comm n k, ← List.drop_drop]
        congr 1
        have : (spaces k).length = k := by simp [spaces]
        rw [List.drop_append_of_le_length (by omega), List.drop_eq_nil_of_le (by omega)]
        rfl
      · omega
    · omega

/-- what is between the sides does not depend on the common indentation unless the box is to contain it -/
theorem rowAt_indent {db : CharDb} {opt : Opt} {d : Design} (hd : d.indentmode ≠ 't') {i : Input} {ls : List (Str × Str)} {box : Sides Shape} {above below lp rp y n : Nat} {m : Str} (x : Nat)
    (h : RowAt db opt d i ls box above below lp rp y n m) : RowAt db opt d { i with indent := x } ls box above below lp rp y n m := by
  cases h with
  | top y h => exact .top y h
  | above y h => exact .above y h
  | text y p k m h1 h2 h3 =>
    refine .text _ p k m h1 ⟨h2.left, h2.right, h2.unjustified, h2.blank, ?_, h2.rightJustified, ?_⟩ h3
    · have := h2.leftJustified
      simpa only [if_neg hd] using this
    · have := h2.centred
      simpa only [if_neg hd] using this
  | below y h => exact .below y h
  | bottom y h => exact .bottom y h

theorem movedBy_blank {mode tabexp : Char} {ts k : Nat} : ∀ c ∈ movedBy mode tabexp ts k, c = 0x20 ∨ c = 0x09 := by
  intro c hc
  unfold movedBy at hc
  split at hc
  · simp at hc
  · split at hc
    · exact .inr (List.eq_of_mem_replicate hc)
    · exact .inl (List.eq_of_mem_replicate hc)

theorem indentOf_moved {opt : Opt} {d : Design} {i i' : Input} {n n' k : Nat} {ind ind' : Str} (ht : 1 ≤ opt.tabstop)
    (hk : d.indentmode = 'b' → opt.tabexp ≠ 'k' ∧ (opt.tabexp = 'u' → opt.tabstop ∣ k)) (hi : i'.indent = i.indent + k)
    (h : IndentOf opt d i n ind) (h' : IndentOf opt d i' n' ind') : movedBy d.indentmode opt.tabexp opt.tabstop k ++ ind = ind' := by
  unfold movedBy
  by_cases hb : d.indentmode = 'b'
  · rw [if_neg (by simpa using hb)]
    obtain ⟨h1, h2⟩ := hk hb
    by_cases hu : opt.tabexp = 'u'
    · obtain ⟨q, rfl⟩ := h2 hu
      obtain ⟨e1, a, b, rfl, hb1⟩ := h.unexpanded hb hu
      obtain ⟨e2, a', b', rfl, hb2⟩ := h'.unexpanded hb hu
      have key : ∀ {a b n : Nat}, Expand opt.tabstop 0 (List.replicate a 0x09 ++ List.replicate b 0x20) (spaces n) → a * opt.tabstop + b = n := by
        intro a b n e
        have := (expand_tabs opt.tabstop ht a 0 (Nat.dvd_zero _)).append (expand_spaces opt.tabstop b _)
        have := congrArg List.length (e.unique this)
        simp [spaces] at this
        omega
      have k1 := key e1
      have k2 := key e2
      rw [hi, ← k1] at k2
      have hd : opt.tabstop * q / opt.tabstop = q := Nat.mul_div_cancel_left q ht
      have k3 : a' * opt.tabstop + b' = (q + a) * opt.tabstop + b := by
        rw [Nat.add_mul, Nat.mul_comm q]; omega
      have m1 : (a' * opt.tabstop + b') % opt.tabstop = b' := by rw [Nat.mul_comm, Nat.mul_add_mod, Nat.mod_eq_of_lt hb2]
      have m2 : ((q + a) * opt.tabstop + b) % opt.tabstop = b := by rw [Nat.mul_comm, Nat.mul_add_mod, Nat.mod_eq_of_lt hb1]
      obtain rfl : b' = b := by rw [← m1, k3, m2]
      obtain rfl : a' = q + a := Nat.eq_of_mul_eq_mul_right ht (by omega)
      rw [if_pos hu, hd, ← List.append_assoc, List.replicate_append_replicate]
    · rw [if_neg hu, h.expanded hb hu h1, h'.expanded hb hu h1, hi]
      unfold spaces
      rw [List.replicate_append_replicate, Nat.add_comm]
  · rw [if_pos hb, h.off hb, h'.off hb]
    rfl

theorem row_moved {db : CharDb} {opt : Opt} {d : Design} {i i' : Input} {box : Sides Shape} {P : Prop} {y n n' k : Nat} {m m' row row' : Str} (ht : 1 ≤ opt.tabstop)
    (hk : d.indentmode = 'b' → opt.tabexp ≠ 'k' ∧ (opt.tabexp = 'u' → opt.tabstop ∣ k)) (hi : i'.indent = i.indent + k) (hbox : GoodBox db d box) (hy : y < box.right.height)
    (hm : ShowSame m m') (h : Row opt d i box P y n m row) (h' : Row opt d i' box P y n' m' row') : Moved (movedBy d.indentmode opt.tabexp opt.tabstop k) row row' := by
  obtain ⟨ind, left, a1, a2, a3, rfl⟩ := h.parts
  obtain ⟨ind', left', b1, b2, b3, rfl⟩ := h'.parts
  have hleft : ShowSame left left' := by
    by_cases hP : P
    · rw [a2 hP, b2 hP]; exact ⟨[], .nil, .nil⟩
    · rw [a3 hP, b3 hP]; exact showSame_line hbox.left (by rw [hbox.sameHeight]; exact hy)
  unfold Moved
  have e := indentOf_moved ht hk hi a1 b1
  have hind : ShowSame ind' ind' := by
    have : ∀ c ∈ ind', c ≠ 0x1b := by
      intro c hc
      rcases b1.chars c hc with h | h <;> omega
    exact ⟨_, .plain this, .plain this⟩
  rw [show movedBy d.indentmode opt.tabexp opt.tabstop k ++ (ind ++ left ++ m ++ lineText box.right y) =
    (movedBy d.indentmode opt.tabexp opt.tabstop k ++ ind) ++ left ++ m ++ lineText box.right y by simp, e]
  exact showSame_append (showSame_append (showSame_append hind hleft) hm) (showSame_line hbox.right hy)

theorem all_of_dropWhile {f : Nat → Bool} : ∀ {l : Str}, l.dropWhile f = [] → ∀ c ∈ l, f c = true
  | [], _, c, hc => by simp at hc
  | d :: l, h, c, hc => by
    rw [List.dropWhile_cons] at h
    split at h
    · rename_i hd
      rcases List.mem_cons.1 hc with rfl | hc
      · exact hd
      · exact all_of_dropWhile h c hc
    · simp at h

theorem dropTrailing_moved {db : CharDb} {pre v : Str} (h : ∃ c ∈ v, ¬ Blank db c) : dropTrailing db (pre ++ v) = pre ++ dropTrailing db v := by
  unfold dropTrailing
  rw [List.reverse_append, List.dropWhile_append]
  rw [if_neg]
  · simp
  · obtain ⟨c, hc, hb⟩ := h
    intro h0
    have := all_of_dropWhile (List.isEmpty_iff.1 h0) c (by simpa using hc)
    exact hb (by simpa using this)

theorem rtrim_moved {db : CharDb} (hdb : Sane db) {pre : Str} (hpre : ∀ c ∈ pre, c = 0x20 ∨ c = 0x09) {b b' r r' : Bxs} (h : Moved pre b.memory b'.memory) (hb : fromUnicode db b.memory = some b) (hb' : fromUnicode db b'.memory = some b')
    (hr : b.rtrim db = some r) (hr' : b'.rtrim db = some r') : Moved pre r.memory r'.memory ∧ (∃ v, Text r.memory v) ∧ fromUnicode db r.memory = some r ∧ fromUnicode db r'.memory = some r' := by
  obtain ⟨v', h1, h2⟩ := h
  have hsp : ∀ c ∈ pre, c ≠ 0x1b := by
    intro c hc
    rcases hpre c hc with h | h <;> omega
  obtain ⟨v, rfl, hv⟩ := text_plain_append hsp h1
  have hbl20 : Blank db 0x20 := .inr hdb.space_blank
  by_cases hbl : ∀ c ∈ v, Blank db c
  · have hbl' : ∀ c ∈ pre ++ v, Blank db c := by
      intro c hc
      rcases List.mem_append.1 hc with hc | hc
      · rcases hpre c hc with rfl | rfl
        · exact hbl20
        · exact .inl rfl
      · exact hbl c hc
    rw [C04_rtrim_blank db hv hb hbl] at hr
    rw [C04_rtrim_blank db h2 hb' hbl'] at hr'
    obtain rfl := Option.some.inj hr
    obtain rfl := Option.some.inj hr'
    exact ⟨⟨_, h1, h2⟩, ⟨v, hv⟩, hb, hb'⟩
  · simp only [Classical.not_forall] at hbl
    obtain ⟨c, hc, hcb⟩ := hbl
    obtain ⟨x, e1, e2, -, e3⟩ := C04_rtrim db hv hb ⟨c, hc, hcb⟩
    obtain ⟨x', f1, f2, -, f3⟩ := C04_rtrim db h2 hb' ⟨c, by simp [hc], hcb⟩
    rw [hr] at e1; rw [hr'] at f1
    obtain rfl := Option.some.inj e1
    obtain rfl := Option.some.inj f1
    rw [dropTrailing_moved ⟨c, hc, hcb⟩] at f3
    exact ⟨⟨_, (Text.plain hsp).append e3, f3⟩, ⟨_, e3⟩, e2, f2⟩

theorem break_moved (k : Nat) (pieces : List Str) : EndsInBreak (pieces.map (spaces k ++ ·)) ↔ EndsInBreak pieces := by
  constructor
  · rintro ⟨a, p, c, h, hc⟩
    rcases List.eq_nil_or_concat pieces with rfl | ⟨more, s, rfl⟩
    · simp at h
    · rw [List.concat_eq_append, List.map_append] at *
      have h1 := List.append_inj_right' h (by simp)
      simp only [List.map_cons, List.map_nil, List.cons.injEq, and_true] at h1
      rcases List.eq_nil_or_concat s with rfl | ⟨s', e, rfl⟩
      · exfalso
        have : c ∈ spaces k := by rw [List.append_nil] at h1; rw [h1]; simp
        have := List.eq_of_mem_replicate this
        omega
      · rw [List.concat_eq_append, ← List.append_assoc] at h1
        have := List.append_inj_right' h1 (by simp)
        simp only [List.cons.injEq, and_true] at this
        subst this
        exact ⟨more, s', e, by simp, hc⟩
  · rintro ⟨a, p, c, rfl, hc⟩
    exact ⟨a.map (spaces k ++ ·), spaces k ++ p, c, by simp, hc⟩

/-- what is printed of rows that are moved -/
theorem render_moved {db : CharDb} (color : Bool) (eol last : Str) {pre : Str} (hpre : ∀ c ∈ pre, c = 0x20 ∨ c = 0x09) : ∀ (out out' : List (Bxs × Str)), out'.length = out.length →
    (∀ (t : Nat) p p', out[t]? = some p → out'[t]? = some p' → Moved pre p.1.memory p'.1.memory ∧ p.2 = (if t + 1 = out.length then last else eol) ∧ p'.2 = p.2 ∧
      fromUnicode db p.1.memory = some p.1 ∧ fromUnicode db p'.1.memory = some p'.1) →
    ∃ lines lines', renderBox color out = .ok (printedLines eol last lines) ∧ renderBox color out' = .ok (printedLines eol last lines') ∧ lines.length = out.length ∧
      lines'.length = out.length ∧ ∀ (t : Nat) l l', lines[t]? = some l → lines'[t]? = some l' → Moved pre l l' ∧ (color = false → l' = pre ++ l) := by
  intro out
  induction out with
  | nil =>
    intro out' hl _
    obtain rfl := List.length_eq_zero_iff.1 (by simpa using hl)
    exact ⟨[], [], rfl, rfl, rfl, rfl, by simp⟩
  | cons p more ih =>
    intro out' hl h
    cases out' with
    | nil => simp at hl
    | cons p' more' =>
      have hl' : more'.length = more.length := by simpa using hl
      obtain ⟨⟨v', h1, h2⟩, h3, h4, h5, h6⟩ := h 0 p p' rfl rfl
      have hsp : ∀ c ∈ pre, c ≠ 0x1b := by
        intro c hc
        rcases hpre c hc with h | h <;> omega
      obtain ⟨v, rfl, hv⟩ := text_plain_append hsp h1
      obtain ⟨lines, lines', e1, e2, e3, e4, e5⟩ := ih more' hl' (fun t q q' hq hq' => by
        have := h (t + 1) q q' (by simpa using hq) (by simpa using hq')
        simpa using this)
      have o := C03_output db hv h5
      have o' := C03_output db h2 h6
      obtain ⟨b, e⟩ := p
      obtain ⟨b', e'⟩ := p'
      simp only at h3 h4 h1 h2 hv
      obtain rfl : e' = e := h4
      rw [renderBox, renderBox, e1, e2]
      have hjoin : ∀ (l : Str) (ls : List Str), ls.length = more.length → l ++ e' ++ printedLines eol last ls = printedLines eol last (l :: ls) := by
        intro l ls hls
        cases ls with
        | nil =>
          have h0 : more.length = 0 := by simpa using hls.symm
          rw [if_pos (by simp [h0])] at h3
          simp [printedLines, h3]
        | cons l2 ls =>
          have h0 : more.length ≠ 0 := by rw [← hls]; simp
          rw [if_neg (by simpa using fun h => h0 (by simp [h]))] at h3
          simp [printedLines, h3]
      have hrest : ∀ (l l' : Str), Moved pre l l' → (color = false → l' = pre ++ l) → ∀ (t : Nat) x x', (l :: lines)[t]? = some x → (l' :: lines')[t]? = some x' →
          Moved pre x x' ∧ (color = false → x' = pre ++ x) := by
        intro l l' hm hc t x x' hx hx'
        cases t with
        | zero =>
          obtain rfl : l = x := by simpa using hx
          obtain rfl : l' = x' := by simpa using hx'
          exact ⟨hm, hc⟩
        | succ t => exact e5 t x x' (by simpa using hx) (by simpa using hx')
      cases color with
      | true =>
        rw [show b.toOutput true = some b.memory from o.1, show b'.toOutput true = some b'.memory from o'.1]
        refine ⟨b.memory :: lines, b'.memory :: lines', ?_, ?_, by simp [e3], by simp [e4], hrest _ _ ⟨_, h1, h2⟩ (by simp)⟩
        · rw [← hjoin _ _ e3]; rfl
        · rw [← hjoin _ _ e4]; rfl
      | false =>
        rw [show b.toOutput false = some v from o.2, show b'.toOutput false = some (pre ++ v) from o'.2]
        have hv' : ∀ c ∈ pre ++ v, c ≠ 0x1b := text_vis_ne h2
        refine ⟨v :: lines, (pre ++ v) :: lines', ?_, ?_, by simp [e3], by simp [e4], hrest _ _ ⟨_, .plain hv', .plain hv'⟩ (fun _ => rfl)⟩
        · rw [← hjoin _ _ e3]; rfl
        · rw [← hjoin _ _ e4]; rfl

theorem prepared_mode (opt : Opt) (d : Design) : (prepareDesign opt d).indentmode = if opt.indentmode = '\x00' then d.indentmode else opt.indentmode := by
  have : (applyExpectedSize opt d).indentmode = d.indentmode := by
    unfold applyExpectedSize
    split
    · split <;> rfl
    · split <;> rfl
  unfold prepareDesign
  by_cases h : opt.indentmode = '\x00'
  · simp [h, this]
  · simp [h]

end Boxes
