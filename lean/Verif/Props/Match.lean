import Verif.Lemmas.TextSplit
import Verif.Lemmas.Match
import Verif.Props.Text
import Verif.Props.Detect
import Verif.Spec.Sample

/-!
# C25: how the lines of the top and bottom side of a box are recognised
-/
set_option linter.unusedSimpArgs false
namespace Boxes
open Spec

/-! ## Helpers -/

theorem compShapesHoriz_length (db : CharDb) (d : Design) (c : CompType) (k : Nat) : ∀ (ns : List ShapeName) shapes,
    compShapesHoriz db d c k ns = .ok shapes → shapes.length = ns.length := by
  intro ns
  induction ns with
  | nil => intro shapes h; simp [compShapesHoriz] at h; subst h; rfl
  | cons n r ih =>
    intro shapes h
    rw [compShapesHoriz] at h
    obtain ⟨t, ht, h⟩ := Res.bind_eq_ok.1 h
    obtain ⟨more, hm, h⟩ := Res.bind_eq_ok.1 h
    simp at h; subst h
    simp [ih more hm]

theorem compShapesHoriz_sized (db : CharDb) (d : Design) (c : CompType) (k : Nat) : ∀ (ns : List ShapeName) shapes,
    compShapesHoriz db d c k ns = .ok shapes → Sized shapes := by
  intro ns
  induction ns with
  | nil => intro shapes h; simp [compShapesHoriz] at h; subst h; intro sl hsl; simp at hsl
  | cons n r ih =>
    intro shapes h
    rw [compShapesHoriz] at h
    obtain ⟨t, ht, h⟩ := Res.bind_eq_ok.1 h
    obtain ⟨more, hm, h⟩ := Res.bind_eq_ok.1 h
    simp at h; subst h
    intro sl hsl
    rcases List.mem_cons.1 hsl with rfl | hsl
    · split at ht
      · simp at ht; subst ht; rfl
      · obtain ⟨s, hs, ht⟩ := Res.bind_eq_ok.1 ht
        cases hf : fromUnicode db s with
        | none => simp [hf, Res.get] at ht
        | some b =>
          simp [hf, Res.get] at ht
          subst ht
          simp only
          rw [fromUnicode_memory hf, fromUnicode_numChars hf]
    · exact ih more hm sl hsl

theorem leftCorner_unique {db : CharDb} {input shape : Str} {limit s p s' p' : Nat} (h : LeftCorner db input shape limit s p)
    (h' : LeftCorner db input shape limit s' p') : s = s' ∧ p = p' := by
  have hs : s = s' := by
    rcases Nat.lt_trichotomy s s' with a | a | a
    · have := h'.most s p a h.found; have := h.near; omega
    · exact a
    · have := h.most s' p' a h'.found; have := h'.near; omega
  subst hs
  refine ⟨rfl, ?_⟩
  have a := h.found; have b := h'.found
  rw [← strstr_first] at a b
  rw [a] at b; simpa using b

theorem rightCorner_unique {db : CharDb} {input shape : Str} {limit s p s' p' : Nat} (h : RightCorner db input shape limit s p)
    (h' : RightCorner db input shape limit s' p') : s = s' ∧ p = p' := by
  have hs : s = s' := by
    rcases Nat.lt_trichotomy s s' with a | a | a
    · have := h.most s' p' a h'.inside h'.found; have := h'.near; omega
    · exact a
    · have := h'.most s p a h.inside h.found; have := h.near; omega
  subst hs
  have a := h.found.2 _ h'.found.1; have b := h'.found.2 _ h.found.1
  exact ⟨rfl, by omega⟩

theorem matchLeft_end (db : CharDb) (isOpen : Bool) (b shape : Bxs) (limit : Nat) (hb : b.numChars = b.memory.length)
    (hs : shape.numChars = shape.memory.length) (hL : b.firstChar[b.indent]? = some limit) :
    ∃ mr, (if isOpen then .ok none else matchOuterShape db true b shape) = Res.ok mr ∧
      ∀ cur found, LeftEnd db isOpen b.memory shape limit cur found ↔
        cur = (match mr with | some m => m.pIdx + m.len | none => 0) ∧ found = (mr.elim false (fun m => !m.shiftable)) := by
  have hbn : b.numChars = 0 ↔ b.memory = [] := by rw [hb]; exact List.length_eq_zero_iff
  have hsn : shape.numChars = 0 ↔ shape.memory = [] := by rw [hs]; exact List.length_eq_zero_iff
  have hno : (Searched db isOpen b.memory shape → ∀ s p, ¬ LeftCorner db b.memory shape.memory limit s p) →
      ∀ cur found, LeftEnd db isOpen b.memory shape limit cur found ↔ cur = 0 ∧ found = false := by
    intro hs cur found
    constructor
    · rintro (⟨_, h2, h3⟩ | ⟨h1, h2, _⟩)
      · obtain ⟨s, p, h3, _⟩ := h3
        exact absurd h3 (hs h2 _ _)
      · exact ⟨h2, h1⟩
    · rintro ⟨h1, h2⟩
      exact Or.inr ⟨h2, h1, hs⟩
  cases isOpen with
  | true => exact ⟨none, rfl, hno (by rintro ⟨h, _⟩; simp at h)⟩
  | false =>
    rw [if_neg (by simp)]
    unfold matchOuterShape
    by_cases h0 : b.numChars = 0 ∨ shape.numChars = 0
    · rw [if_pos h0]
      refine ⟨none, rfl, hno ?_⟩
      rintro ⟨_, h1, h2, _⟩
      rcases h0 with h0 | h0
      · exact absurd (hbn.1 h0) h1
      · exact absurd (hsn.1 h0) h2
    · rw [if_neg h0, if_pos rfl]
      by_cases hbl : shape.isBlankStr db = true
      · rw [if_pos hbl]
        refine ⟨_, rfl, hno ?_⟩
        rintro ⟨_, _, _, h⟩
        rw [hbl] at h; simp at h
      · rw [if_neg hbl, hL]
        refine ⟨_, rfl, ?_⟩
        have hse : Searched db false b.memory shape :=
          ⟨rfl, fun h => h0 (Or.inl (hbn.2 h)), fun h => h0 (Or.inr (hsn.2 h)), by simpa using hbl⟩
        cases hm : matchLeftLoop db b.memory shape.memory limit (shape.numChars + 1) 0 with
        | none =>
          apply hno
          intro _ s p hc
          have := (matchLeftLoop_iff db b.memory shape.memory limit
            { pIdx := p, len := shape.memory.length - s, shiftable := false } (shape.numChars + 1) 0 (by omega)
            (by intro j h1 h2; omega) (by intro s' p' h; omega)).2 ⟨s, p, by omega, hc, rfl⟩
          rw [hm] at this; simp at this
        | some r =>
          obtain ⟨s, p, _, hc, rfl⟩ := (matchLeftLoop_iff db b.memory shape.memory limit r (shape.numChars + 1) 0 (by omega)
            (by intro j h1 h2; omega) (by intro s' p' h; omega)).1 hm
          have hlen : s ≤ shape.memory.length := by
            cases s with
            | zero => omega
            | succ s =>
              obtain ⟨c, hc', _⟩ := hc.blank (s + 1) (by omega) (by omega)
              have := (List.getElem?_eq_some_iff.1 hc').1
              omega
          intro cur found
          simp only [Option.elim]
          constructor
          · rintro (⟨h1, _, s', p', h3, h4, h5⟩ | ⟨_, _, h3⟩)
            · obtain ⟨rfl, rfl⟩ := leftCorner_unique hc h3
              exact ⟨by omega, by simpa using h1⟩
            · exact absurd hc (h3 hse s p)
          · rintro ⟨h1, h2⟩
            exact Or.inl ⟨by simpa using h2, hse, s, p, hc, hlen, by omega⟩

theorem matchRight_end (db : CharDb) (isOpen : Bool) (b shape : Bxs) (limit : Nat) (hb : b.numChars = b.memory.length)
    (hs : shape.numChars = shape.memory.length) (htr : b.trailing ≤ b.vis) (hR : b.firstChar[b.vis - b.trailing]? = some limit)
    (he : b.firstChar[b.vis]? = some b.memory.length)
    (hn : shape.memory ≠ [] → shape.isBlankStr db = false → ∃ c ∈ shape.memory, ¬ Blank db c) :
    ∃ mr, (if isOpen then .ok none else matchOuterShape db false b shape) = Res.ok mr ∧
      ∀ stop found, RightEnd db isOpen b.memory shape limit stop found ↔
        stop = (match mr with | some m => m.pIdx | none => b.memory.length) ∧ found = (mr.elim false (fun m => !m.shiftable)) := by
  have hbn : b.numChars = 0 ↔ b.memory = [] := by rw [hb]; exact List.length_eq_zero_iff
  have hsn : shape.numChars = 0 ↔ shape.memory = [] := by rw [hs]; exact List.length_eq_zero_iff
  have hno : (Searched db isOpen b.memory shape → ∀ s p, ¬ RightCorner db b.memory shape.memory limit s p) →
      ∀ stop found, RightEnd db isOpen b.memory shape limit stop found ↔ stop = b.memory.length ∧ found = false := by
    intro hs stop found
    constructor
    · rintro (⟨_, h2, h3⟩ | ⟨h1, h2, _⟩)
      · obtain ⟨k, h3⟩ := h3
        exact absurd h3 (hs h2 _ _)
      · exact ⟨h2, h1⟩
    · rintro ⟨h1, h2⟩
      exact Or.inr ⟨h2, h1, hs⟩
  cases isOpen with
  | true => exact ⟨none, rfl, hno (by rintro ⟨h, _⟩; simp at h)⟩
  | false =>
    rw [if_neg (by simp)]
    unfold matchOuterShape
    by_cases h0 : b.numChars = 0 ∨ shape.numChars = 0
    · rw [if_pos h0]
      refine ⟨none, rfl, hno ?_⟩
      rintro ⟨_, h1, h2, _⟩
      rcases h0 with h0 | h0
      · exact absurd (hbn.1 h0) h1
      · exact absurd (hsn.1 h0) h2
    · rw [if_neg h0, if_neg (by simp)]
      by_cases hbl : shape.isBlankStr db = true
      · rw [if_pos hbl, he]
        refine ⟨_, rfl, hno ?_⟩
        rintro ⟨_, _, _, h⟩
        rw [hbl] at h; simp at h
      · have hsub : Res.sub b.vis b.trailing = .ok (b.vis - b.trailing) := by unfold Res.sub; rw [if_pos htr]
        rw [if_neg hbl, hsub]
        change ∃ mr, (Res.get b.firstChar[b.vis - b.trailing]?).bind _ = _ ∧ _
        rw [hR]
        refine ⟨_, rfl, ?_⟩
        have hse : Searched db false b.memory shape :=
          ⟨rfl, fun h => h0 (Or.inl (hbn.2 h)), fun h => h0 (Or.inr (hsn.2 h)), by simpa using hbl⟩
        have hnb := hn hse.2.2.1 hse.2.2.2
        have key := fun r => matchRightLoop_iff db b.memory shape.memory limit r hnb (shape.numChars + 1) shape.numChars (by omega)
          (by omega) (by intro c hc; rw [hs, List.drop_of_length_le (by omega)] at hc; simp at hc)
          (by intro k' p' h1 h2; omega)
        cases hm : matchRightLoop db b.memory shape.memory limit (shape.numChars + 1) shape.numChars with
        | none =>
          apply hno
          intro _ k p hc
          have := (key { pIdx := p, len := k, shiftable := false }).2 ⟨k, p, by have := hc.inside; omega, hc, rfl⟩
          rw [hm] at this; simp at this
        | some r =>
          obtain ⟨k, p, _, hc, rfl⟩ := (key r).1 hm
          intro stop found
          simp only [Option.elim]
          constructor
          · rintro (⟨h1, _, k', h3⟩ | ⟨_, _, h3⟩)
            · obtain ⟨rfl, rfl⟩ := rightCorner_unique hc h3
              exact ⟨rfl, by simpa using h1⟩
            · exact absurd hc (h3 hse k p)
          · rintro ⟨h1, h2⟩
            subst h1
            exact Or.inl ⟨by simpa using h2, hse, k, hc⟩

theorem columns_leading (db : CharDb) {v : Str} (hn : NarrowBlanks db v) :
    columns db (v.takeWhile (fun c => decide (Blank db c))) = leadingBlanks db v := by
  unfold leadingBlanks
  rw [← isBlank_fun]
  exact columns_takeWhile_narrow db hn

theorem leadingBlanks_lt (db : CharDb) {v : Str} (h : ∃ c ∈ v, ¬ Blank db c) : leadingBlanks db v < v.length := by
  unfold leadingBlanks
  induction v with
  | nil => obtain ⟨c, hc, _⟩ := h; simp at hc
  | cons a v ih =>
    simp only [List.takeWhile_cons]
    by_cases ha : Blank db a
    · simp only [ha, decide_true, if_true, List.length_cons]
      obtain ⟨c, hc, hcb⟩ := h
      rcases List.mem_cons.1 hc with rfl | hc
      · exact absurd ha hcb
      · have := ih ⟨c, hc, hcb⟩; omega
    · simp [ha]

theorem leadingBlanks_all (db : CharDb) {v : Str} (h : ∀ c ∈ v, Blank db c) : leadingBlanks db v = v.length := by
  unfold leadingBlanks
  congr 1
  induction v with
  | nil => rfl
  | cons a v ih =>
    have ha := h a (by simp)
    simp [List.takeWhile_cons, ha, ih (fun c hc => h c (by simp [hc]))]

theorem dropTrailing_split (db : CharDb) {v : Str} (h : ∃ c ∈ v, ¬ Blank db c) :
    ∃ x c y, v = x ++ c :: y ∧ ¬ Blank db c ∧ (∀ d ∈ y, Blank db d) ∧ dropTrailing db v = x ++ [c] := by
  unfold dropTrailing
  generalize hr : v.reverse = r
  have hv : v = r.reverse := by rw [← hr]; simp
  subst hv
  clear hr
  induction r with
  | nil => obtain ⟨c, hc, _⟩ := h; simp at hc
  | cons a r ih =>
    by_cases ha : Blank db a
    · obtain ⟨x, c, y, e1, e2, e3, e4⟩ := ih (by
        obtain ⟨c, hc, hcb⟩ := h
        refine ⟨c, ?_, hcb⟩
        simp at hc ⊢
        rcases hc with hc | rfl
        · exact hc
        · exact absurd ha hcb)
      refine ⟨x, c, y ++ [a], by simp [e1], e2, ?_, by simp [List.dropWhile_cons, ha, e4]⟩
      intro d hd
      rcases List.mem_append.1 hd with hd | hd
      · exact e3 d hd
      · simp at hd; rw [hd]; exact ha
    · exact ⟨r.reverse, a, [], by simp, ha, by simp, by simp [List.dropWhile_cons, ha]⟩

theorem leadingBlanks_append (db : CharDb) (x : Str) (c : Nat) (y : Str) (hc : ¬ Blank db c) :
    leadingBlanks db (x ++ c :: y) = leadingBlanks db (x ++ [c]) ∧ leadingBlanks db (x ++ [c]) ≤ x.length := by
  unfold leadingBlanks
  induction x with
  | nil => simp [List.takeWhile_cons, hc]
  | cons a x ih =>
    by_cases ha : Blank db a
    · simpa [List.takeWhile_cons, ha] using ih
    · simp [List.takeWhile_cons, ha]

theorem text_mem {s v : Str} (h : Text s v) : ∀ c ∈ v, c ∈ s := by
  induction h with
  | nil => simp
  | vis c _ _ ih => intro x hx; rcases List.mem_cons.1 hx with rfl | hx; simp; simp [ih x hx]
  | esc e _ _ ih => intro x hx; simp [ih x hx]

theorem preparedLine (db : CharDb) {s v : Str} {b1 : Bxs} (h : Text s v) (hb : fromUnicode db s = some b1)
    (hn : NarrowBlanks db v) (n : Nat) :
    ∃ b2 left right, b1.rtrim db = some b2 ∧
      (b2.appendSpaces n).numChars = (b2.appendSpaces n).memory.length ∧
      (b2.appendSpaces n).trailing ≤ (b2.appendSpaces n).vis ∧
      (b2.appendSpaces n).firstChar[(b2.appendSpaces n).indent]? = some left ∧
      (b2.appendSpaces n).firstChar[(b2.appendSpaces n).vis - (b2.appendSpaces n).trailing]? = some right ∧
      (b2.appendSpaces n).firstChar[(b2.appendSpaces n).vis]? = some (b2.appendSpaces n).memory.length ∧
      Trimmed db s v n (b2.appendSpaces n).memory left right := by
  -- the facts needed of the trimmed text
  have key : ∀ (b2 : Bxs) (t w : Str) (left : Nat), b2.memory = t → b2.numChars = t.length → b2.vis = w.length → b2.trailing = 0 →
      b2.firstChar.length = w.length + 1 → b2.firstChar[w.length]? = some t.length → b2.indent ≤ w.length →
      b2.firstChar[b2.indent]? = some left →
      (b2.appendSpaces n).numChars = (b2.appendSpaces n).memory.length ∧
      (b2.appendSpaces n).trailing ≤ (b2.appendSpaces n).vis ∧
      (b2.appendSpaces n).firstChar[(b2.appendSpaces n).indent]? = some left ∧
      (b2.appendSpaces n).firstChar[(b2.appendSpaces n).vis - (b2.appendSpaces n).trailing]? = some t.length ∧
      (b2.appendSpaces n).firstChar[(b2.appendSpaces n).vis]? = some (b2.appendSpaces n).memory.length ∧
      (b2.appendSpaces n).memory = t ++ List.replicate n 0x20 := by
    intro b2 t w left a1 a2 a3 a4 a5 a6 a7 a8
    unfold Bxs.appendSpaces
    by_cases h0 : n = 0
    · subst h0
      rw [if_pos rfl]
      refine ⟨by rw [a1, a2], by omega, a8, by rw [a4, a3]; exact a6, by rw [a3, a1]; exact a6, by simp [a1]⟩
    · rw [if_neg h0]
      have hl : (b2.firstChar.take b2.vis).length = b2.vis := by rw [List.length_take]; omega
      have hat : ∀ j, j ≤ n → (b2.firstChar.take b2.vis ++ (List.range (n + 1)).map (b2.numChars + ·))[b2.vis + j]? =
          some (b2.numChars + j) := by
        intro j hj
        rw [List.getElem?_append_right (by omega), hl, List.getElem?_map, List.getElem?_range (by omega)]
        simp
      have hmem : b2.memory.take b2.numChars ++ nspaces n = t ++ List.replicate n 0x20 := by
        rw [a1, a2, List.take_length]; rfl
      refine ⟨?_, ?_, ?_, ?_, ?_, ?_⟩
      · simp only [hmem]; simp [a2]
      · simp only; omega
      · simp only
        by_cases hi : b2.indent = w.length
        · have := hat 0 (by omega)
          simp only [Nat.add_zero, a3] at this
          rw [hi, a3, this, a2]
          rw [hi, a6] at a8; exact a8
        · rw [List.getElem?_append_left (by omega), List.getElem?_take_of_lt (by omega)]; exact a8
      · simp only
        rw [a4]
        have := hat 0 (by omega)
        rw [show b2.vis + n - (0 + n) = b2.vis + 0 by omega, this, a2]; simp
      · simp only [hmem]
        rw [hat n (by omega), a2]; simp
      · exact hmem
  by_cases hnb : ∃ c ∈ v, ¬ Blank db c
  · obtain ⟨r, r1, r2, r3, r4⟩ := C04_rtrim db h hb hnb
    obtain ⟨x, c, y, e1, e2, e3, e4⟩ := dropTrailing_split db hnb
    have hnr : NarrowBlanks db (dropTrailing db v) := by
      intro a ha; apply hn; rw [e4] at ha; rw [e1]; simp at ha ⊢; rcases ha with ha | ha; exact Or.inl ha; exact Or.inr (Or.inl ha)
    obtain ⟨m1, m2, m3, m4, m5, m6, m7, m8, m9⟩ := C01_metrics db r4 r2
    obtain ⟨t1, t2, t3, t4⟩ := C02_terminator db r4 r2
    have hlead : leadingBlanks db (dropTrailing db v) = leadingBlanks db v := by
      rw [e4, e1]; exact (leadingBlanks_append db x c y e2).1.symm
    have hlt : leadingBlanks db (dropTrailing db v) < (dropTrailing db v).length :=
      leadingBlanks_lt db ⟨c, by rw [e4]; simp, e2⟩
    rw [columns_leading db hnr] at m7
    obtain ⟨p, e, q, f1, f2, f3, f4, f5, f6⟩ := C02_position_maps db r4 r2 _ hlt
    have htr : r.trailing = 0 := by
      have := m9 x c [] (by rw [e4]) e2 (by simp)
      simpa using this
    obtain ⟨k1, k2, k3, k4, k5, k6⟩ := key r r.memory (dropTrailing db v) p.length rfl m2 m3 htr t1 t3 (by omega) (by rw [m7]; exact f4)
    refine ⟨r, p.length, r.memory.length, r1, k1, k2, k3, k4, k5, r.memory, k6, rfl, ?_, r3, ?_, ?_⟩
    · rw [f1]; simp
    · intro hall; obtain ⟨a, ha, hb⟩ := hnb; exact absurd (hall a ha) hb
    · intro _
      refine ⟨r4, ?_⟩
      have hp : r.memory.take p.length = p := by rw [f1]; simp
      rw [hp, ← hlead]
      have : (dropTrailing db v).take (leadingBlanks db (dropTrailing db v)) = v.take (leadingBlanks db (dropTrailing db v)) := by
        have : leadingBlanks db (dropTrailing db v) ≤ x.length := by rw [e4]; exact (leadingBlanks_append db x c y e2).2
        rw [e4, e1] at *
        rw [List.take_append_of_le_length this, List.take_append_of_le_length this]
      rw [← this]; exact f2
  · have hall : ∀ c ∈ v, Blank db c := by
      intro c hc
      by_cases hcb : Blank db c
      · exact hcb
      · exact absurd ⟨c, hc, hcb⟩ hnb
    obtain ⟨m1, m2, m3, m4, m5, m6, m7, m8, m9⟩ := C01_metrics db h hb
    obtain ⟨t1, t2, t3, t4⟩ := C02_terminator db h hb
    rw [columns_leading db hn, leadingBlanks_all db hall] at m7
    obtain ⟨k1, k2, k3, k4, k5, k6⟩ := key b1 s v s.length m1 m2 m3 (m8 hall) t1 t3 (by omega) (by rw [m7]; exact t3)
    refine ⟨b1, s.length, s.length, C04_rtrim_blank db h hb hall, k1, k2, k3, k4, k5, s, k6, rfl, by omega, List.prefix_rfl, ?_, ?_⟩
    · intro _; exact ⟨rfl, rfl⟩
    · intro hh; exact absurd hh hnb

theorem compShapesHoriz_text (db : CharDb) (d : Design) (c : CompType) (k : Nat) : ∀ (ns : List ShapeName) shapes,
    compShapesHoriz db d c k ns = .ok shapes → ∀ sl ∈ shapes, sl.text.memory ≠ [] → fromUnicode db sl.text.memory = some sl.text := by
  intro ns
  induction ns with
  | nil => intro shapes h; simp [compShapesHoriz] at h; subst h; intro sl hsl; simp at hsl
  | cons n r ih =>
    intro shapes h
    rw [compShapesHoriz] at h
    obtain ⟨t, ht, h⟩ := Res.bind_eq_ok.1 h
    obtain ⟨more, hm, h⟩ := Res.bind_eq_ok.1 h
    simp at h; subst h
    intro sl hsl
    rcases List.mem_cons.1 hsl with rfl | hsl
    · split at ht
      · simp at ht; subst ht; intro h; exact absurd rfl h
      · obtain ⟨s, hs, ht⟩ := Res.bind_eq_ok.1 ht
        cases hf : fromUnicode db s with
        | none => simp [hf, Res.get] at ht
        | some b =>
          simp [hf, Res.get] at ht
          subst ht
          simp only
          intro _
          rw [fromUnicode_memory hf]; exact hf
    · exact ih more hm sl hsl

theorem leftEnd_le {db : CharDb} {o : Bool} {line : Str} {shape : Bxs} {limit cur : Nat} {f : Bool}
    (h : LeftEnd db o line shape limit cur f) : cur ≤ line.length := by
  rcases h with ⟨_, _, s, p, h, hs, he⟩ | ⟨_, h, _⟩
  · obtain ⟨_, ⟨a, b, e, hp⟩, _⟩ := h.found
    rw [e]; simp; omega
  · omega

theorem rightEnd_le {db : CharDb} {o : Bool} {line : Str} {shape : Bxs} {limit cur : Nat} {f : Bool}
    (h : RightEnd db o line shape limit cur f) : cur ≤ line.length := by
  rcases h with ⟨_, _, k, h⟩ | ⟨_, h, _⟩
  · obtain ⟨⟨a, b, e, hp⟩, _⟩ := h.found
    rw [e]; simp; omega
  · omega

/-- C25: the decision on one line of the input, for one kind of comparison and one line of the shapes. -/
theorem C25_line_partial (db : CharDb) (d : Design) (lines : List Line) (isOpen : Sides Bool) (top : Bool) (i k : Nat) (c : CompType)
    {shapes : List ShapeLine} (hsh : prepareCompShapesHoriz db d top c k = .ok shapes) (hwf : ∀ sl ∈ shapes, ∃ w, Text sl.text.memory w)
    {s v : Str} (hin : prepareCompInput lines i false c = .ok s) (ht : Text s v) (hok : ∀ x ∈ v, ¬ Forbidden db x) (hn : NarrowBlanks db v) :
    ∃ m first last line left right, matchHorizLineWith db d lines isOpen top i k c = .ok m ∧
      shapes[0]? = some first ∧ shapes[4]? = some last ∧
      Trimmed db s v ((d.shape .NW).width + (d.shape .NE).width) line left right ∧
      (m = true ↔ ∃ cur stop lf rf, LeftEnd db isOpen.left line first.text left cur lf ∧ RightEnd db isOpen.right line last.text right stop rf ∧
        Between db shapes line cur 1 stop lf rf) := by
  have h5 : shapes.length = 5 := by
    rw [compShapesHoriz_length _ _ _ _ _ _ hsh]; cases top <;> rfl
  have hsz := compShapesHoriz_sized _ _ _ _ _ _ hsh
  obtain ⟨b1, h1⟩ : ∃ b1, fromUnicode db s = some b1 := by
    cases hf : fromUnicode db s with
    | some b => exact ⟨b, rfl⟩
    | none => obtain ⟨x, hx, hfx⟩ := (C01_rejected_iff db ht).1 hf; exact absurd hfx (hok x hx)
  obtain ⟨b2, left, right, e1, e2, e3, e4, e5, e6, e7⟩ := preparedLine db ht h1 hn ((d.shape .NW).width + (d.shape .NE).width)
  generalize hbdef : b2.appendSpaces ((d.shape .NW).width + (d.shape .NE).width) = b at *
  have h0 : shapes[0]? = some shapes[0] := List.getElem?_eq_getElem (by omega)
  have h4 : shapes[4]? = some shapes[4] := List.getElem?_eq_getElem (by omega)
  have hlast : shapes[4].text.memory ≠ [] → shapes[4].text.isBlankStr db = false → ∃ c ∈ shapes[4].text.memory, ¬ Blank db c := by
    intro h1 h2
    obtain ⟨w, hw⟩ := hwf _ (List.getElem_mem (by omega : 4 < shapes.length))
    have hf := compShapesHoriz_text _ _ _ _ _ _ hsh _ (List.getElem_mem (by omega : 4 < shapes.length)) h1
    have hb := C06_is_blank db hw hf
    rw [h2] at hb
    have hb : ¬ ∀ c ∈ w, Blank db c ∨ c = 0x0d := fun hh => by have := hb.2 hh; simp at this
    simp only [Classical.not_forall] at hb
    obtain ⟨c, hc, hcb⟩ := hb
    exact ⟨c, text_mem hw c hc, fun hh => hcb (Or.inl hh)⟩
  obtain ⟨mrl, l1, l2⟩ := matchLeft_end db isOpen.left b shapes[0].text left e2 (hsz _ (List.getElem_mem _)) e4
  obtain ⟨mrr, r1, r2⟩ := matchRight_end db isOpen.right b shapes[4].text right e2 (hsz _ (List.getElem_mem _)) e3 e5 e6 hlast
  generalize hcur : (match mrl with | some m => m.pIdx + m.len | none => 0) = cur at *
  generalize hstop : (match mrr with | some m => m.pIdx | none => b.memory.length) = stop at *
  generalize hlf : (mrl.elim false (fun m => !m.shiftable)) = lf at *
  generalize hrf : (mrr.elim false (fun m => !m.shiftable)) = rf at *
  have hLE := (l2 cur lf).2 ⟨rfl, rfl⟩
  have hRE := (r2 stop rf).2 ⟨rfl, rfl⟩
  refine ⟨hmm db shapes b.memory cur 1 stop lf rf, shapes[0], shapes[4], b.memory, left, right, ?_, h0, h4, e7, ?_⟩
  · unfold matchHorizLineWith
    simp only [hsh, hin, h1, e1, hbdef, h0, h4, l1, r1, e6, Res.get, bind, Res.bind]
    rw [← hcur, ← hstop, ← hlf, ← hrf]
    cases mrl <;> cases mrr <;> rfl
  · rw [hmm_iff db shapes b.memory cur 1 stop lf rf h5 hsz (rightEnd_le hRE) (leftEnd_le hLE) (by omega)]
    constructor
    · intro hb
      exact ⟨cur, stop, lf, rf, hLE, hRE, hb⟩
    · rintro ⟨cur', stop', lf', rf', a1, a2, a3⟩
      obtain ⟨rfl, rfl⟩ := (l2 _ _).1 a1
      obtain ⟨rfl, rfl⟩ := (r2 _ _).1 a2
      exact a3

theorem filterVisible_text (db : CharDb) {s v : Str} {b : Bxs} (h : Text s v) (hb : fromUnicode db s = some b) :
    b.filterVisible = some v := by
  obtain ⟨ts, h1, h2, h3, -, rfl⟩ := fromUnicode_text_some db h hb
  subst h2 h3
  exact filterVisible_toks db ts h1

/-- the text from the `i`-th visible character on -/
theorem firstChar_split (db : CharDb) {s v : Str} {b : Bxs} (h : Text s v) (hb : fromUnicode db s = some b) (i : Nat) (hi : i ≤ v.length) :
    ∃ p q, s = p ++ q ∧ Text p (v.take i) ∧ Text q (v.drop i) ∧ b.firstChar[i]? = some p.length := by
  rcases Nat.lt_or_eq_of_le hi with hlt | rfl
  · obtain ⟨p, e, q, e1, e2, e3, e4, e5, e6⟩ := C02_position_maps db h hb i hlt
    refine ⟨p, e ++ v[i] :: q, by rw [e1]; simp, e2, ?_, e4⟩
    rw [List.drop_eq_getElem_cons hlt]
    have hv : Text (v[i] :: q) (v[i] :: v.drop (i + 1)) := Text.vis _ (text_vis_ne h _ (List.getElem_mem _)) e3
    rcases e6 with ⟨he, _⟩ | ⟨rfl, _⟩
    · exact Text.esc e he hv
    · exact hv
  · obtain ⟨_, _, t3, _⟩ := C02_terminator db h hb
    exact ⟨s, [], by simp, by simpa using h, by simpa using Text.nil, t3⟩

theorem any_nonblank_iff (db : CharDb) (v : Str) :
    (v.any (fun c => !decide (Blank db c))) = true ↔ ∃ c ∈ v, ¬ Blank db c := by
  simp [List.any_eq_true]

theorem trailing_eq (db : CharDb) {s v : Str} {b : Bxs} (h : Text s v) (hb : fromUnicode db s = some b) :
    b.trailing ≤ v.length ∧ dropTrailing db v = (if v.any (fun c => !decide (Blank db c)) then v.take (v.length - b.trailing) else []) ∧
    (v.any (fun c => !decide (Blank db c)) = false → b.trailing = 0) ∧
    (v.any (fun c => !decide (Blank db c)) = true → leadingBlanks db v + b.trailing < v.length) := by
  obtain ⟨m1, m2, m3, m4, m5, m6, m7, m8, m9⟩ := C01_metrics db h hb
  by_cases hnb : v.any (fun c => !decide (Blank db c)) = true
  · rw [if_pos hnb]
    obtain ⟨x, c, y, e1, e2, e3, e4⟩ := dropTrailing_split db ((any_nonblank_iff db v).1 hnb)
    have ht := m9 x c y e1 e2 e3
    have hlb := leadingBlanks_append db x c y e2
    refine ⟨by rw [ht, e1]; simp; omega, ?_, by rw [hnb]; simp, ?_⟩
    · rw [e4, ht, e1]
      rw [show (x ++ c :: y).length - y.length = (x ++ [c]).length by simp; omega, show x ++ c :: y = (x ++ [c]) ++ y by simp,
        List.take_left']
      rfl
    · intro _
      rw [ht, e1, hlb.1]; simp; omega
  · rw [if_neg hnb]
    have hall : ∀ c ∈ v, Blank db c := by
      intro c hc
      by_cases hcb : Blank db c
      · exact hcb
      · exact absurd ((any_nonblank_iff db v).2 ⟨c, hc, hcb⟩) hnb
    have ht := m8 hall
    refine ⟨by omega, ?_, fun _ => ht, fun hh => absurd hh hnb⟩
    unfold dropTrailing
    rw [List.reverse_eq_nil_iff]
    have : ∀ w : Str, (∀ c ∈ w, Blank db c) → w.dropWhile (fun c => decide (Blank db c)) = [] := by
      intro w hw
      induction w with
      | nil => rfl
      | cons a w ih => simp [List.dropWhile_cons, hw a (by simp), ih (fun c hc => hw c (by simp [hc]))]
    exact this _ (fun c hc => hall c (by simpa using hc))

theorem dropTrailing_app (db : CharDb) (x : Str) (c : Nat) (y : Str) (hc : ¬ Blank db c) (hy : ∀ d ∈ y, Blank db d) :
    dropTrailing db (x ++ c :: y) = x ++ [c] := by
  unfold dropTrailing
  have : ∀ w : Str, (∀ d ∈ w, Blank db d) → (w ++ c :: x.reverse).dropWhile (fun c => decide (Blank db c)) = c :: x.reverse := by
    intro w hw
    induction w with
    | nil => simp [List.dropWhile_cons, hc]
    | cons a w ih => simp [List.dropWhile_cons, hw a (by simp), ih (fun c hc => hw c (by simp [hc]))]
  have h := this y.reverse (fun d hd => hy d (by simpa using hd))
  have e : (x ++ c :: y).reverse = y.reverse ++ c :: x.reverse := by simp
  rw [e, h]; simp

/-- `stripped` by positions -/
theorem stripped_eq (db : CharDb) {s v : Str} {b : Bxs} (h : Text s v) (hb : fromUnicode db s = some b) (l r : Bool) :
    stripped db l r v = (v.take (v.length - (if r then b.trailing else 0))).drop (if l then leadingBlanks db v else 0) := by
  obtain ⟨h1, h2, h3, h4⟩ := trailing_eq db h hb
  unfold stripped
  cases r with
  | false => cases l <;> simp
  | true =>
    by_cases hnb : v.any (fun c => !decide (Blank db c)) = true
    · rw [hnb]
      rw [if_pos hnb] at h2
      simp only [Bool.and_self, if_true]
      cases l with
      | false => simpa using h2
      | true =>
        simp only [if_true]
        rw [← h2]
        obtain ⟨x, c, y, e1, e2, e3, e4⟩ := dropTrailing_split db ((any_nonblank_iff db v).1 hnb)
        have hlb := leadingBlanks_append db x c y e2
        have hle : leadingBlanks db v ≤ x.length := by rw [e1, hlb.1]; exact hlb.2
        rw [e4]
        generalize leadingBlanks db v = k at hle
        rw [e1, List.drop_append_of_le_length hle, List.drop_append_of_le_length hle, dropTrailing_app db _ c y e2 e3]
    · have hnb : v.any (fun c => !decide (Blank db c)) = false := by simpa using hnb
      rw [hnb, h3 hnb]
      cases l <;> simp

/-- C25: the text of a shape line that is compared with the input.  Escape sequences are left out if the kind of comparison says so;
blanks are taken away on the left and on the right as asked for. -/
theorem C25_shape (db : CharDb) (d : Design) (n : ShapeName) (idx : Nat) (c : CompType) (l r : Bool) {s v : Str} {b : Bxs}
    (ht : Text s v) (hb : fromUnicode db s = some b) (hl : (d.shape n).lines[idx]? = some b) (hi : idx < (d.shape n).height)
    (hn : NarrowBlanks db v) (hlr : c.skipsShape = true ∨ s = v ∨ l = false ∨ r = false) :
    ∃ t, prepareCompShape d n idx c l r = .ok t ∧ Text t (stripped db l r v) ∧ (c.skipsShape = true → t = stripped db l r v) ∧
      (c.skipsShape = false → t <:+: s ∧ (l = false → r = false → t = s)) := by
  obtain ⟨m1, m2, m3, m4, m5, m6, m7, m8, m9⟩ := C01_metrics db ht hb
  rw [columns_leading db hn] at m7
  obtain ⟨t1, t2, t3, t4⟩ := trailing_eq db ht hb
  have hLle : leadingBlanks db v ≤ v.length := by unfold leadingBlanks; exact (List.takeWhile_sublist _).length_le
  have hsum : leadingBlanks db v + b.trailing ≤ v.length := by
    by_cases hnb : v.any (fun c => !decide (Blank db c)) = true
    · have := t4 hnb; omega
    · have := t3 (by simpa using hnb); omega
  have hst := stripped_eq db ht hb l r
  have hplain : ∀ w : Str, (∀ x ∈ w, x ∈ v) → Text w w := fun w hw => Spec.Text.plain (fun x hx => text_vis_ne ht x (hw x hx))
  have hstv : ∀ x ∈ stripped db l r v, x ∈ v := by
    intro x hx; rw [hst] at hx; exact List.mem_of_mem_take (List.mem_of_mem_drop hx)
  unfold prepareCompShape
  rw [if_neg (by omega), hl]
  simp only [Res.get, bind, Res.bind]
  by_cases hsk : c.skipsShape = true ∧ b.invis > 0
  · rw [if_pos hsk, filterVisible_text db ht hb]
    refine ⟨stripped db l r v, ?_, hplain _ hstv, fun _ => rfl, by rw [hsk.1]; simp⟩
    simp only [Res.get, Res.bind]
    rw [hst]
    have hsub : Res.sub v.length (if l = true then leadingBlanks db v else 0) = .ok (v.length - if l = true then leadingBlanks db v else 0) := by
      unfold Res.sub; rw [if_pos (by split <;> omega)]
    have hsub2 : Res.sub (v.length - if l = true then leadingBlanks db v else 0) b.trailing =
        .ok (v.length - (if l = true then leadingBlanks db v else 0) - b.trailing) := by
      unfold Res.sub; rw [if_pos (by split <;> omega)]
    rw [m7, m3]
    rw [if_neg (by split <;> omega)]
    by_cases hr : r = true ∧ b.trailing > 0
    · rw [if_pos hr, hsub]
      simp only [Res.bind]
      rw [hsub2]
      simp only [Res.bind]
      unfold cutAt
      rw [if_pos (by rw [List.length_drop]; omega), hr.1, if_pos rfl, List.drop_take]
      congr 2; omega
    · rw [if_neg hr]
      have h0 : (if r = true then b.trailing else 0) = 0 := by
        split
        · rename_i h; have : ¬ b.trailing > 0 := fun hh => hr ⟨h, hh⟩; omega
        · rfl
      rw [h0, Nat.sub_zero, List.take_length]
  · rw [if_neg hsk, m1]
    have hsv : c.skipsShape = true → s = v := by
      intro hs
      by_cases he : s = v
      · exact he
      · exact absurd ⟨hs, (C27_colour db s v b ht hb).2 he⟩ hsk
    have hbase : ∀ t, t <:+: s → Text t (stripped db l r v) → (l = false → r = false → t = s) →
        Text t (stripped db l r v) ∧ (c.skipsShape = true → t = stripped db l r v) ∧
        (c.skipsShape = false → t <:+: s ∧ (l = false → r = false → t = s)) := by
      intro t h1 h2 h3
      refine ⟨h2, ?_, fun _ => ⟨h1, h3⟩⟩
      intro hs
      have : Text t t := hplain t (fun x hx => by rw [← hsv hs]; exact h1.subset hx)
      exact this.unique h2
    have hr0 : ¬ (r = true ∧ b.trailing > 0) → (if r = true then b.trailing else 0) = 0 := by
      intro hr
      split
      · rename_i h; have : ¬ b.trailing > 0 := fun hh => hr ⟨h, hh⟩; omega
      · rfl
    cases l with
    | false =>
      simp only [Bool.false_eq_true, if_false, Res.bind, List.drop_zero, m3] at hst ⊢
      by_cases hr : r = true ∧ b.trailing > 0
      · obtain ⟨p, q, e1, e2, e3, e4⟩ := firstChar_split db ht hb (v.length - b.trailing) (by omega)
        rw [if_pos hr]
        have hs1 : Res.sub v.length 0 = .ok v.length := by unfold Res.sub; rw [if_pos (by omega)]; rfl
        have hs2 : Res.sub v.length b.trailing = .ok (v.length - b.trailing) := by unfold Res.sub; rw [if_pos (by omega)]
        rw [hs1]; simp only [Res.bind]; rw [hs2]; simp only [Res.bind]; rw [e4]; simp only [Res.bind]
        unfold cutAt
        rw [if_pos (by rw [e1]; simp)]
        have hp : s.take p.length = p := by rw [e1]; simp
        rw [hp]
        have := hbase p ⟨[], q, by simp [e1]⟩ (by rw [hst, hr.1, if_pos rfl]; exact e2) (by intro _ h; rw [hr.1] at h; simp at h)
        exact ⟨p, rfl, this.1, this.2.1, fun h => ⟨(this.2.2 h).1, fun _ => (this.2.2 h).2 rfl⟩⟩
      · rw [if_neg hr]
        have := hbase s (List.infix_refl s) (by rw [hst, hr0 hr, Nat.sub_zero, List.take_length]; exact ht) (fun _ _ => rfl)
        exact ⟨s, rfl, this.1, this.2.1, fun h => ⟨(this.2.2 h).1, fun _ => (this.2.2 h).2 rfl⟩⟩
    | true =>
      obtain ⟨p, q, e1, e2, e3, e4⟩ := firstChar_split db ht hb (leadingBlanks db v) hLle
      simp only [if_true, m7, e4, Res.bind, m3] at hst ⊢
      have hd : s.drop p.length = q := by rw [e1]; simp
      rw [hd]
      by_cases hr : r = true ∧ b.trailing > 0
      · have hs : s = v := by
          rcases hlr with h | h | h | h
          · exact hsv h
          · exact h
          · simp at h
          · rw [hr.1] at h; simp at h
        subst hs
        rw [if_pos hr]
        have hs1 : Res.sub s.length (leadingBlanks db s) = .ok (s.length - leadingBlanks db s) := by unfold Res.sub; rw [if_pos (by omega)]
        have hs2 : Res.sub (s.length - leadingBlanks db s) b.trailing = .ok (s.length - leadingBlanks db s - b.trailing) := by
          unfold Res.sub; rw [if_pos (by omega)]
        obtain ⟨p', q', f1, f2, f3, f4⟩ := firstChar_split db ht hb (s.length - leadingBlanks db s - b.trailing) (by omega)
        rw [hs1]; simp only [Res.bind]; rw [hs2]; simp only [Res.bind]; rw [f4]; simp only [Res.bind]
        have hpl : ∀ a w, (∀ x ∈ a, x ∈ s) → Text a w → a = w := by
          intro a w ha hw
          exact (hplain a ha).unique hw
        have hp := hpl p _ (fun x hx => by rw [e1]; simp [hx]) e2
        have hp' := hpl p' _ (fun x hx => by rw [f1]; simp [hx]) f2
        have hq := hpl q _ (fun x hx => by rw [e1]; simp [hx]) e3
        have hlp' : p'.length = s.length - leadingBlanks db s - b.trailing := by
          rw [hp', List.length_take]; omega
        unfold cutAt
        rw [if_pos (by rw [hlp', hq, List.length_drop]; omega), hlp', hq]
        refine ⟨_, rfl, hbase _ ?_ ?_ (by simp)⟩
        · exact ((List.take_prefix _ _).isInfix).trans (List.drop_suffix _ _).isInfix
        · rw [hst, hr.1, if_pos rfl, List.drop_take]
          rw [show s.length - leadingBlanks db s - b.trailing = s.length - b.trailing - leadingBlanks db s by omega]
          exact hplain _ (fun x hx => List.mem_of_mem_drop (List.mem_of_mem_take hx))
      · rw [if_neg hr]
        refine ⟨q, rfl, hbase q ⟨p, [], by simp [e1]⟩ ?_ (by simp)⟩
        rw [hst, hr0 hr, Nat.sub_zero, List.take_length]; exact e3

/-- C25: the text of an input line that is compared with the shapes -/
theorem C25_input (db : CharDb) (lines : List Line) (i : Nat) (c : CompType) (l : Bool) {s v : Str} {b : Bxs} {ln : Line}
    (ht : Text s v) (hb : fromUnicode db s = some b) (hl : lines[i]? = some ln) (hlt : ln.text = some b) (hn : NarrowBlanks db v) :
    ∃ t, prepareCompInput lines i l c = .ok t ∧ Text t (stripped db l false v) ∧ (c.skipsInput = true → t = stripped db l false v) ∧
      (c.skipsInput = false → t <:+ s ∧ (l = false → t = s)) := by
  obtain ⟨m1, m2, m3, m4, m5, m6, m7, m8, m9⟩ := C01_metrics db ht hb
  rw [columns_leading db hn] at m7
  have hLle : leadingBlanks db v ≤ v.length := by unfold leadingBlanks; exact (List.takeWhile_sublist _).length_le
  have hst := stripped_eq db ht hb l false
  simp only [Bool.false_eq_true, if_false, Nat.sub_zero, List.take_length] at hst
  have hil : ¬ i ≥ lines.length := by have := (List.getElem?_eq_some_iff.1 hl).1; omega
  unfold prepareCompInput
  rw [if_neg hil, hl]
  simp only [Res.get, bind, Res.bind, hlt]
  by_cases hs : c.skipsInput = true
  · rw [if_pos hs, filterVisible_text db ht hb]
    simp only [Res.bind, m7]
    rw [if_neg (by split <;> omega), ← hst]
    refine ⟨_, rfl, ?_, fun _ => rfl, by rw [hs]; simp⟩
    exact Spec.Text.plain (fun x hx => text_vis_ne ht x (by rw [hst] at hx; exact List.mem_of_mem_drop hx))
  · rw [if_neg hs]
    cases l with
    | false =>
      rw [if_neg (by simp), m1]
      exact ⟨s, rfl, by rw [hst]; simpa using ht, fun h => absurd h hs, fun _ => ⟨List.suffix_refl s, fun _ => rfl⟩⟩
    | true =>
      obtain ⟨p, q, e1, e2, e3, e4⟩ := firstChar_split db ht hb (leadingBlanks db v) hLle
      rw [if_pos rfl, m7, e4, m1]
      have hd : s.drop p.length = q := by rw [e1]; simp
      simp only [Res.bind, hd]
      exact ⟨q, rfl, by rw [hst]; simpa using e3, fun h => absurd h hs, fun _ => ⟨⟨p, e1.symm⟩, by simp⟩⟩

/-- C25: where the visible characters of an input line begin and end in the text compared -/
theorem C25_margins (db : CharDb) (c : CompType) {s v : Str} {b : Bxs} (ht : Text s v) (hb : fromUnicode db s = some b)
    (hn : NarrowBlanks db v) :
    ∃ x y, compInputMargins b c = .ok (x, y) ∧
      (c.skipsInput = true → x = leadingBlanks db v ∧ y = b.trailing) ∧
      (c.skipsInput = false → x ≤ s.length ∧ y ≤ s.length ∧ Text (s.take x) (v.take (leadingBlanks db v)) ∧
        Text (s.take (s.length - y)) (v.take (v.length - b.trailing)) ∧ Text (s.drop (s.length - y)) (v.drop (v.length - b.trailing))) := by
  obtain ⟨m1, m2, m3, m4, m5, m6, m7, m8, m9⟩ := C01_metrics db ht hb
  rw [columns_leading db hn] at m7
  obtain ⟨t1, _⟩ := trailing_eq db ht hb
  have hLle : leadingBlanks db v ≤ v.length := by unfold leadingBlanks; exact (List.takeWhile_sublist _).length_le
  unfold compInputMargins
  by_cases hs : c.skipsInput = true
  · rw [if_pos hs]
    exact ⟨_, _, rfl, fun _ => ⟨m7, rfl⟩, by rw [hs]; simp⟩
  · rw [if_neg hs]
    obtain ⟨p, q, e1, e2, e3, e4⟩ := firstChar_split db ht hb (leadingBlanks db v) hLle
    obtain ⟨p', q', f1, f2, f3, f4⟩ := firstChar_split db ht hb (v.length - b.trailing) (by omega)
    have hsub : Res.sub b.vis b.trailing = .ok (v.length - b.trailing) := by unfold Res.sub; rw [m3, if_pos t1]
    have hsub2 : Res.sub b.numChars p'.length = .ok (s.length - p'.length) := by
      unfold Res.sub; rw [m2, if_pos (by rw [f1]; simp)]
    simp only [bind, m7, e4, Res.get, Res.bind, hsub, f4, hsub2]
    refine ⟨_, _, rfl, fun h => absurd h hs, fun _ => ⟨by rw [e1]; simp, by omega, ?_, ?_, ?_⟩⟩
    · have : s.take p.length = p := by rw [e1]; simp
      rw [this]; exact e2
    · have : s.take (s.length - (s.length - p'.length)) = p' := by
        rw [f1]; simp
      rw [this]; exact f2
    · have : s.drop (s.length - (s.length - p'.length)) = q' := by
        rw [f1]; simp
      rw [this]; exact f3

theorem compShapesHoriz_get (db : CharDb) (d : Design) (c : CompType) (k : Nat) : ∀ (ns : List ShapeName) shapes,
    compShapesHoriz db d c k ns = .ok shapes → ∀ (j : Nat) n, ns[j]? = some n → ∃ sl, shapes[j]? = some sl ∧
      sl.empty = (d.shape n).isEmpty ∧ sl.elastic = (d.shape n).elastic ∧ ((d.shape n).isEmpty = true → sl.text = emptyBxs) ∧
      ((d.shape n).isEmpty = false → ∃ t, prepareCompShape d n k c false (decide (j + 1 = ns.length)) = .ok t ∧
        fromUnicode db t = some sl.text) := by
  intro ns
  induction ns with
  | nil => intro shapes h j n hj; simp at hj
  | cons n r ih =>
    intro shapes h
    rw [compShapesHoriz] at h
    obtain ⟨t, ht, h⟩ := Res.bind_eq_ok.1 h
    obtain ⟨more, hm, h⟩ := Res.bind_eq_ok.1 h
    simp at h; subst h
    intro j m hj
    cases j with
    | zero =>
      simp at hj; subst hj
      refine ⟨_, rfl, rfl, rfl, ?_, ?_⟩
      · intro he; rw [if_pos he] at ht; simp at ht; exact ht.symm
      · intro he
        rw [if_neg (by simp [he])] at ht
        obtain ⟨s, hs, ht⟩ := Res.bind_eq_ok.1 ht
        refine ⟨s, ?_, ?_⟩
        · rw [← hs]; congr 1; cases r <;> simp
        · cases hf : fromUnicode db s with
          | none => simp [hf, Res.get] at ht
          | some b => simp [hf, Res.get] at ht; rw [ht]
    | succ j =>
      obtain ⟨sl, e1, e2, e3, e4, e5⟩ := ih more hm j m (by simpa using hj)
      refine ⟨sl, by simpa using e1, e2, e3, e4, ?_⟩
      intro he
      obtain ⟨t, ht⟩ := e5 he
      refine ⟨t, ?_, ht.2⟩
      rw [← ht.1]; simp

/-- C25: the five shape lines that a line is compared with, from left to right.  Trailing blanks are dropped on the right. -/
theorem C25_shapes (db : CharDb) (d : Design) (top : Bool) (c : CompType) (k : Nat) (shapes : List ShapeLine)
    (h : prepareCompShapesHoriz db d top c k = .ok shapes) : shapes.length = 5 ∧
    ∀ (j : Nat) n, (if top then [ShapeName.NW, .NNW, .N, .NNE, .NE] else [.SW, .SSW, .S, .SSE, .SE])[j]? = some n →
      ∃ sl, shapes[j]? = some sl ∧
      sl.empty = (d.shape n).isEmpty ∧ sl.elastic = (d.shape n).elastic ∧ ((d.shape n).isEmpty = true → sl.text = emptyBxs) ∧
      ((d.shape n).isEmpty = false → ∃ t, prepareCompShape d n k c false (decide (j = 4)) = .ok t ∧ fromUnicode db t = some sl.text) := by
  constructor
  · rw [compShapesHoriz_length _ _ _ _ _ _ h]; cases top <;> rfl
  · intro j n hj
    have := compShapesHoriz_get db d c k _ shapes h j n (by rw [← hj]; cases top <;> rfl)
    have hl : (if top = true then northSide else southSideRev).length = 5 := by cases top <;> rfl
    rw [hl] at this
    simpa using this

/-- C25: line `i` of the input is recognised by line `j` of the shapes, with one of the kinds of comparison that apply -/
def Recognised (db : CharDb) (d : Design) (lines : List Line) (ctx : RemoveCtx) (top : Bool) (i j : Nat) : Prop :=
  ∃ c, applicable c (!ctx.inputMono) (!ctx.designMono) = true ∧ matchHorizLineWith db d lines ctx.emptySide top i j c = .ok true

theorem matchHorizLoop_iff (db : CharDb) (d : Design) (lines : List Line) (ctx : RemoveCtx) (top : Bool) (i j : Nat) :
    ∀ (cs : List CompType) cur m c', matchHorizLoop db d lines ctx top i j cs cur = .ok (m, c') →
      (m = true ↔ ∃ c ∈ cs, compTypeIsViable c ctx.inputMono ctx.designMono = true ∧
        matchHorizLineWith db d lines ctx.emptySide top i j c = .ok true) := by
  intro cs
  induction cs with
  | nil => intro cur m c' h; simp [matchHorizLoop] at h; simp [h.1.symm]
  | cons c r ih =>
    intro cur m c' h
    rw [matchHorizLoop] at h
    split at h
    · rename_i hv
      rw [ih _ _ _ h]
      constructor
      · rintro ⟨x, hx, h1⟩; exact ⟨x, by simp [hx], h1⟩
      · rintro ⟨x, hx, h1, h2⟩
        rcases List.mem_cons.1 hx with rfl | hx
        · simp [h1] at hv
        · exact ⟨x, hx, h1, h2⟩
    · rename_i hv
      obtain ⟨m', hm', h⟩ := Res.bind_eq_ok.1 h
      split at h
      · rename_i ht
        simp at h
        subst ht
        obtain ⟨rfl, _⟩ := h
        simp only [true_iff]
        exact ⟨c, by simp, by simpa using hv, hm'⟩
      · rename_i ht
        rw [ih _ _ _ h]
        constructor
        · rintro ⟨x, hx, h1⟩; exact ⟨x, by simp [hx], h1⟩
        · rintro ⟨x, hx, h1, h2⟩
          rcases List.mem_cons.1 hx with rfl | hx
          · rw [h2] at hm'; simp at hm'; exact absurd hm'.symm (by simpa using ht)
          · exact ⟨x, hx, h1, h2⟩

theorem mem_compTypes (c : CompType) : c ∈ compTypes := by cases c <;> decide

theorem matchHorizLine_iff (db : CharDb) (d : Design) (lines : List Line) (ctx ctx' : RemoveCtx) (top : Bool) (i j : Nat) (m : Bool)
    (h : matchHorizLine db d lines ctx top i j = .ok (m, ctx')) :
    (m = true ↔ Recognised db d lines ctx top i j) ∧ ctx' = { ctx with compType := ctx'.compType } := by
  unfold matchHorizLine at h
  obtain ⟨q, hq, h⟩ := Res.bind_eq_ok.1 h
  simp at h
  obtain ⟨rfl, rfl⟩ := h
  refine ⟨?_, rfl⟩
  rw [matchHorizLoop_iff db d lines ctx top i j _ _ _ _ hq]
  constructor
  · rintro ⟨c, _, h1, h2⟩; exact ⟨c, by rw [← C27_viable]; simpa using h1, h2⟩
  · rintro ⟨c, h1, h2⟩; exact ⟨c, mem_compTypes c, by rw [C27_viable]; exact h1, h2⟩

theorem recognised_ctx {db : CharDb} {d : Design} {lines : List Line} {ctx ctx' : RemoveCtx} {top : Bool} {i j : Nat}
    (h : ctx' = { ctx with compType := ctx'.compType }) :
    Recognised db d lines ctx' top i j ↔ Recognised db d lines ctx top i j := by
  rw [h]; exact Iff.rfl

theorem matchAnyShapeLine_iff (db : CharDb) (d : Design) (lines : List Line) (top : Bool) (i : Nat) : ∀ (js : List Nat) ctx m ctx',
    matchAnyShapeLine db d lines top i js ctx = .ok (m, ctx') →
    (m = true ↔ ∃ j ∈ js, Recognised db d lines ctx top i j) ∧ ctx' = { ctx with compType := ctx'.compType } := by
  intro js
  induction js with
  | nil => intro ctx m ctx' h; simp [matchAnyShapeLine] at h; simp [h.1.symm, h.2.symm]
  | cons j r ih =>
    intro ctx m ctx' h
    rw [matchAnyShapeLine] at h
    obtain ⟨⟨m1, ctx1⟩, hq, h⟩ := Res.bind_eq_ok.1 h
    obtain ⟨e1, e2⟩ := matchHorizLine_iff _ _ _ _ _ _ _ _ _ hq
    simp only at h
    split at h
    · rename_i hm
      simp at h
      obtain ⟨rfl, rfl⟩ := h
      simp only [true_iff]
      exact ⟨⟨j, by simp, e1.1 hm⟩, e2⟩
    · rename_i hm
      obtain ⟨f1, f2⟩ := ih _ _ _ h
      refine ⟨?_, ?_⟩
      · rw [f1]
        constructor
        · rintro ⟨x, hx, hr⟩; exact ⟨x, by simp [hx], (recognised_ctx e2).1 hr⟩
        · rintro ⟨x, hx, hr⟩
          rcases List.mem_cons.1 hx with rfl | hx
          · exact absurd (e1.2 hr) hm
          · exact ⟨x, hx, (recognised_ctx e2).2 hr⟩
      · rw [f2, e2]

theorem mem_topOrder (h start j : Nat) : j ∈ topOrder h start ↔ j < h := by
  unfold topOrder
  simp only [List.mem_map, List.mem_range]
  constructor
  · rintro ⟨i, hi, rfl⟩; exact Nat.mod_lt _ (by omega)
  · intro hj
    have hs : start % h < h := Nat.mod_lt _ (by omega)
    refine ⟨if start % h ≤ j then j - start % h else j + h - start % h, by split <;> omega, ?_⟩
    rw [Nat.add_mod]
    split
    · rw [Nat.mod_eq_of_lt (by omega : j - start % h < h), show start % h + (j - start % h) = j by omega, Nat.mod_eq_of_lt hj]
    · rw [Nat.mod_eq_of_lt (by omega : j + h - start % h < h), show start % h + (j + h - start % h) = j + h by omega,
        Nat.add_mod_right, Nat.mod_eq_of_lt hj]

theorem mem_bottomOrder (h start j : Nat) : j ∈ bottomOrder h start ↔ j < h := by
  unfold bottomOrder
  simp only [List.mem_map, List.mem_range]
  constructor
  · rintro ⟨i, hi, rfl⟩; exact Nat.mod_lt _ (by omega)
  · intro hj
    have hs : start % h < h := Nat.mod_lt _ (by omega)
    refine ⟨if j ≤ start % h then start % h - j else start % h + h - j, by split <;> omega, ?_⟩
    have hd := Nat.div_add_mod start h
    split
    · rw [show start + h - (start % h - j) = j + h * (start / h + 1) by rw [Nat.mul_add]; omega, Nat.add_mul_mod_self_left, Nat.mod_eq_of_lt hj]
    · rw [show start + h - (start % h + h - j) = j + h * (start / h) by omega, Nat.add_mul_mod_self_left, Nat.mod_eq_of_lt hj]

theorem topLoop_iff (db : CharDb) (d : Design) (lines : List Line) (ctx0 : RemoveCtx) : ∀ n k ctx k' ctx',
    topLoop db d lines n k ctx = .ok (k', ctx') → ctx = { ctx0 with compType := ctx.compType } →
    k ≤ k' ∧ k' ≤ k + n ∧ (∀ i, k ≤ i → i < k' → ctx0.topStart + i < lines.length ∧
      ∃ j, j < (d.shape .NE).height ∧ Recognised db d lines ctx0 true (ctx0.topStart + i) j) ∧
    (k' < k + n → ctx0.topStart + k' < lines.length → ∀ j, j < (d.shape .NE).height →
      ¬ Recognised db d lines ctx0 true (ctx0.topStart + k') j) ∧ ctx' = { ctx0 with compType := ctx'.compType } := by
  intro n
  induction n with
  | zero =>
    intro k ctx k' ctx' h hc
    simp [topLoop] at h
    obtain ⟨rfl, rfl⟩ := h
    exact ⟨by omega, by omega, by intro i; omega, by intro i; omega, hc⟩
  | succ n ih =>
    intro k ctx k' ctx' h hc
    rw [topLoop] at h
    have hts : ctx.topStart = ctx0.topStart := by rw [hc]
    rw [hts] at h
    split at h
    · rename_i hlt
      obtain ⟨⟨m, ctx1⟩, hq, h⟩ := Res.bind_eq_ok.1 h
      obtain ⟨e1, e2⟩ := matchAnyShapeLine_iff _ _ _ _ _ _ _ _ _ hq
      have hc1 : ctx1 = { ctx0 with compType := ctx1.compType } := by rw [e2, hc]
      simp only [mem_topOrder] at e1
      simp only at h
      split at h
      · rename_i hm
        obtain ⟨f1, f2, f3, f4, f5⟩ := ih _ _ _ _ h hc1
        refine ⟨by omega, by omega, ?_, ?_, f5⟩
        · intro i h1 h2
          by_cases hi : i = k
          · subst hi
            obtain ⟨j, hj, hr⟩ := e1.1 hm
            exact ⟨hlt, j, hj, (recognised_ctx hc).1 hr⟩
          · exact f3 i (by omega) h2
        · intro h1; exact f4 (by omega)
      · rename_i hm
        simp at h
        obtain ⟨rfl, rfl⟩ := h
        refine ⟨by omega, by omega, by intro i; omega, ?_, hc1⟩
        intro _ _ j hj hr
        exact hm (e1.2 ⟨j, hj, (recognised_ctx hc).2 hr⟩)
    · rename_i hlt
      simp at h
      obtain ⟨rfl, rfl⟩ := h
      exact ⟨by omega, by omega, by intro i; omega, by intro _ h; exact absurd h hlt, hc⟩

/-- C25: the top part of a box that is removed: all its lines are recognised, and it ends because it is as high as the shapes, because
there are no more lines, or because the next line is not recognised by any line of the shapes. -/
theorem C25_top (db : CharDb) (d : Design) (lines : List Line) (ctx ctx' : RemoveCtx) (k : Nat)
    (h : findTopSide db d lines ctx = .ok (k, ctx')) :
    k ≤ (d.shape .NE).height ∧
    (∀ i, i < k → ctx.topStart + i < lines.length ∧
      ∃ j, j < (d.shape .NE).height ∧ Recognised db d lines ctx true (ctx.topStart + i) j) ∧
    (k = (d.shape .NE).height ∨ lines.length ≤ ctx.topStart + k ∨
      ∀ j, j < (d.shape .NE).height → ¬ Recognised db d lines ctx true (ctx.topStart + k) j) ∧
    ctx' = { ctx with compType := ctx'.compType } := by
  obtain ⟨h1, h2, h3, h4, h5⟩ := topLoop_iff db d lines ctx _ 0 ctx k ctx' h rfl
  refine ⟨by omega, fun i hi => h3 i (by omega) hi, ?_, h5⟩
  by_cases a : k = (d.shape .NE).height
  · exact Or.inl a
  · by_cases b : lines.length ≤ ctx.topStart + k
    · exact Or.inr (Or.inl b)
    · exact Or.inr (Or.inr (h4 (by omega) (by omega)))

theorem bottomLoop_iff (db : CharDb) (d : Design) (lines : List Line) (ctx0 : RemoveCtx) : ∀ n k ctx k' ctx',
    bottomLoop db d lines n k ctx = .ok (k', ctx') → ctx = { ctx0 with compType := ctx.compType } →
    k ≤ k' ∧ k' ≤ k + n ∧ (∀ i, k ≤ i → i < k' → i < ctx0.bottomEnd ∧
      ∃ j, j < (d.shape .SE).height ∧ Recognised db d lines ctx0 false (ctx0.bottomEnd - 1 - i) j) ∧
    (k' < k + n → k' < ctx0.bottomEnd → ∀ j, j < (d.shape .SE).height →
      ¬ Recognised db d lines ctx0 false (ctx0.bottomEnd - 1 - k') j) ∧ ctx' = { ctx0 with compType := ctx'.compType } := by
  intro n
  induction n with
  | zero =>
    intro k ctx k' ctx' h hc
    simp [bottomLoop] at h
    obtain ⟨rfl, rfl⟩ := h
    exact ⟨by omega, by omega, by intro i; omega, by intro i; omega, hc⟩
  | succ n ih =>
    intro k ctx k' ctx' h hc
    rw [bottomLoop] at h
    have hts : ctx.bottomEnd = ctx0.bottomEnd := by rw [hc]
    rw [hts] at h
    split at h
    · rename_i hlt
      obtain ⟨⟨m, ctx1⟩, hq, h⟩ := Res.bind_eq_ok.1 h
      obtain ⟨e1, e2⟩ := matchAnyShapeLine_iff _ _ _ _ _ _ _ _ _ hq
      have hc1 : ctx1 = { ctx0 with compType := ctx1.compType } := by rw [e2, hc]
      simp only [mem_bottomOrder] at e1
      simp only at h
      split at h
      · rename_i hm
        obtain ⟨f1, f2, f3, f4, f5⟩ := ih _ _ _ _ h hc1
        refine ⟨by omega, by omega, ?_, ?_, f5⟩
        · intro i h1 h2
          by_cases hi : i = k
          · subst hi
            obtain ⟨j, hj, hr⟩ := e1.1 hm
            exact ⟨by omega, j, hj, (recognised_ctx hc).1 hr⟩
          · exact f3 i (by omega) h2
        · intro h1; exact f4 (by omega)
      · rename_i hm
        simp at h
        obtain ⟨rfl, rfl⟩ := h
        refine ⟨by omega, by omega, by intro i; omega, ?_, hc1⟩
        intro _ _ j hj hr
        exact hm (e1.2 ⟨j, hj, (recognised_ctx hc).2 hr⟩)
    · rename_i hlt
      simp at h
      obtain ⟨rfl, rfl⟩ := h
      exact ⟨by omega, by omega, by intro i; omega, by intro _ h; exact absurd h (by omega), hc⟩

/-- C25: the bottom part of a box that is removed, counted from the last line upwards. -/
theorem C25_bottom (db : CharDb) (d : Design) (lines : List Line) (ctx ctx' : RemoveCtx) (k : Nat)
    (h : findBottomSide db d lines ctx = .ok (k, ctx')) :
    k ≤ (d.shape .SE).height ∧
    (∀ i, i < k → i < ctx.bottomEnd ∧
      ∃ j, j < (d.shape .SE).height ∧ Recognised db d lines ctx false (ctx.bottomEnd - 1 - i) j) ∧
    (k = (d.shape .SE).height ∨ ctx.bottomEnd ≤ k ∨
      ∀ j, j < (d.shape .SE).height → ¬ Recognised db d lines ctx false (ctx.bottomEnd - 1 - k) j) ∧
    ctx' = { ctx with compType := ctx'.compType } := by
  obtain ⟨h1, h2, h3, h4, h5⟩ := bottomLoop_iff db d lines ctx _ 0 ctx k ctx' h rfl
  refine ⟨by omega, fun i hi => h3 i (by omega) hi, ?_, h5⟩
  by_cases a : k = (d.shape .SE).height
  · exact Or.inl a
  · by_cases b : ctx.bottomEnd ≤ k
    · exact Or.inr (Or.inl b)
    · exact Or.inr (Or.inr (h4 (by omega) (by omega)))

/-! ## Examples -/

/-- a design with a blank at the end of its left corner -/
def cornerDesign : Design :=
  { sampleDesign with
    shape := fun
      | .NW => mkShape .NW ["* "]
      | .N => mkShape .N ["-"] true
      | .NE => mkShape .NE [" +"]
      | n => { emptyShape with name := n } }

private def sides : Sides Bool := ⟨false, false, false, false⟩

/-- the hypotheses of `C25_line_partial` are met by a coloured line and a design in black and white -/
example : (∃ shapes, prepareCompShapesHoriz sampleDb cornerDesign true .ignoreInput 0 = .ok shapes ∧
      ∀ sl ∈ shapes, ∃ w, Text sl.text.memory w) ∧
    (∃ s, prepareCompInput [{ text := fromUnicode sampleDb (0x1b :: lit "[31m" ++ lit "* -- +") }] 0 false .ignoreInput = .ok s ∧
      s = lit "* -- +" ∧ Text s s ∧ (∀ x ∈ s, ¬ Forbidden sampleDb x) ∧ NarrowBlanks sampleDb s) ∧
    matchHorizLineWith sampleDb cornerDesign [{ text := fromUnicode sampleDb (0x1b :: lit "[31m" ++ lit "* -- +") }] sides true 0 0
      .ignoreInput = .ok true := by
  refine ⟨⟨_, rfl, ?_⟩, ⟨_, rfl, rfl, ?_, ?_, ?_⟩, by decide +kernel⟩
  · intro sl hsl
    refine ⟨sl.text.memory, Spec.Text.plain ?_⟩
    revert sl
    decide +kernel
  · exact Spec.Text.plain (by decide +kernel)
  · decide +kernel
  · unfold NarrowBlanks; decide +kernel

/-- a line with something else between the corners is not recognised -/
example : matchHorizLineWith sampleDb cornerDesign [mkLine "* -x- +"] sides true 0 0 .literal = .ok false := by decide +kernel

/-- `C25_shape`: a shape line with blanks at both ends -/
example : (Text (lit " ab ") (lit " ab ") ∧ NarrowBlanks sampleDb (lit " ab ")) ∧
    prepareCompShape { cornerDesign with shape := fun _ => { emptyShape with lines := [fromAscii (lit " ab ")], height := 1, width := 4 } }
      .E 0 .literal true true = .ok (lit "ab") ∧ stripped sampleDb true true (lit " ab ") = lit "ab" := by
  refine ⟨⟨Spec.Text.plain (by decide +kernel), by unfold NarrowBlanks; decide +kernel⟩, by decide +kernel, by decide +kernel⟩

/-- the top part of a box of two lines, of which the first is recognised -/
example : (match findTopSide sampleDb cornerDesign [mkLine "* --- +", mkLine "x"] { emptySide := sides, designMono := true, inputMono := true } with
    | .ok (k, _) => k
    | _ => 7) = 1 := by decide +kernel

/-- C25 as stated does not hold: a line without any corner is recognised as the top of a box, if what is between the corners is there. -/
theorem C25_missing_corners_disagrees :
    matchHorizLineWith sampleDb cornerDesign [mkLine "----"] sides true 0 0 .literal = .ok true := by decide +kernel

/-- C25 as stated does not hold: the left corner `* ` is shortened to its blank, so that a character which is not blank is lost. -/
theorem C25_lost_character_disagrees :
    matchOuterShape sampleDb true ((fromAscii (lit " -- +")).appendSpaces 4) (fromAscii (lit "* ")) =
      .ok (some { pIdx := 0, len := 1, shiftable := false }) ∧
    matchHorizLineWith sampleDb cornerDesign [mkLine " -- +"] sides true 0 0 .literal = .ok true := by
  constructor <;> decide +kernel

end Boxes
