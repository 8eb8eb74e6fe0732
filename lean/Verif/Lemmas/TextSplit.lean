import Verif.Lemmas.TextPos
import Verif.Spec.Text

/-!
Helper lemmas: taking texts with escape sequences apart.
-/
namespace Boxes
open Spec
set_option linter.unusedSimpArgs false

theorem toks_cancel {a b : List Tok} {z : Str} (ha : Oks a) (hb : Oks b) (h : flat a ++ z = flat b) : ∃ c, b = a ++ c ∧ flat c = z := by
  induction a generalizing b with
  | nil => exact ⟨b, rfl, by simpa using h.symm⟩
  | cons t ts ih =>
    cases b with
    | nil =>
      exfalso
      cases t with
      | inl c => simp at h
      | inr e => have := EscSeq.length_pos ha.hd; have h := congrArg List.length h; simp only [flat_esc, List.length_append, flat_nil, List.length_nil] at h; omega
    | cons u us =>
      cases t with
      | inl c =>
        cases u with
        | inl d =>
          simp at h
          obtain ⟨k, k1, k2⟩ := ih ha.tail hb.tail h.2
          exact ⟨k, by rw [h.1, k1]; rfl, k2⟩
        | inr e =>
          exfalso
          obtain ⟨r, hr⟩ := EscSeq.head hb.hd
          subst hr
          simp at h
          exact ha.hd h.1
      | inr e =>
        cases u with
        | inl d =>
          exfalso
          obtain ⟨r, hr⟩ := EscSeq.head ha.hd
          subst hr
          simp at h
          exact hb.hd h.1.symm
        | inr e' =>
          have h1 := advanceNext_esc (e := e) ha.hd (flat ts ++ z)
          have h2 := advanceNext_esc (e := e') hb.hd (flat us)
          simp only [flat_esc, List.append_assoc] at h
          rw [h, h2] at h1
          simp only [Prod.mk.injEq] at h1
          have he : e = e' := List.append_inj_left h h1.2.symm
          subst he
          obtain ⟨k, k1, k2⟩ := ih ha.tail hb.tail h1.1.symm
          exact ⟨k, by rw [k1]; rfl, k2⟩

theorem text_vis_ne {s v : Str} (h : Text s v) : ∀ c ∈ v, c ≠ 0x1b := by
  induction h with
  | nil => simp
  | vis c hc _ ih => intro x hx; rcases List.mem_cons.1 hx with rfl | hx; exact hc; exact ih x hx
  | esc e _ _ ih => exact ih

/-- what follows a text in a text is a text -/
theorem text_cancel {a z u v : Str} (ha : Text a u) (h : Text (a ++ z) v) : ∃ w, v = u ++ w ∧ Text z w := by
  obtain ⟨x, x1, x2, x3⟩ := ha.toks
  obtain ⟨y, y1, y2, y3⟩ := h.toks
  obtain ⟨c, rfl, c2⟩ := toks_cancel x1 y1 (by rw [x2, y2])
  refine ⟨visOf c, by rw [← y3, visOf_append, x3], ?_⟩
  rw [← c2]
  exact text_of_toks (Oks.append_right y1)

/-- a text with a plain beginning -/
theorem text_plain_append {p z u : Str} (hp : ∀ c ∈ p, c ≠ 0x1b) (h : Text (p ++ z) u) : ∃ w, u = p ++ w ∧ Text z w :=
  text_cancel (Spec.Text.plain hp) h

/-- nothing follows the last visible character -/
theorem text_end {a b z u : Str} {c : Nat} (ha : Text a u) (hc : c ≠ 0x1b) (h : a ++ [c] = b ++ z) (hb : Text b (u ++ [c])) : z = [] := by
  obtain ⟨x, x1, x2, x3⟩ := ha.toks
  obtain ⟨y, y1, y2, y3⟩ := hb.toks
  have hx : Oks (x ++ [.inl c]) := by
    intro t ht
    rcases List.mem_append.1 ht with ht | ht
    · exact x1 t ht
    · simp at ht; subst ht; exact hc
  have hfl : flat (x ++ [.inl c]) = a ++ [c] := by rw [flat_append, x2]; simp
  obtain ⟨k, k1, k2⟩ := toks_cancel y1 hx (z := z) (by rw [hfl, y2, h])
  have hv := congrArg visOf k1
  rw [visOf_append, visOf_append, x3, y3] at hv
  have hk : visOf k = [] := by
    have : u ++ [c] = (u ++ [c]) ++ visOf k := by simpa using hv
    have := congrArg List.length this
    simp only [List.length_append] at this
    exact List.eq_nil_of_length_eq_zero (by omega)
  rcases List.eq_nil_or_concat k with hk0 | ⟨k', t, rfl⟩
  · rw [← k2, hk0]; rfl
  · exfalso
    rw [List.concat_eq_append, ← List.append_assoc] at k1
    rw [List.concat_eq_append] at hk
    have ht := (List.append_inj_right' k1 rfl)
    simp at ht
    subst ht
    rw [visOf_append] at hk
    simp at hk

/-- the beginning of a text with a plain beginning -/
theorem take_plain_text {p z u : Str} {x : Nat} (hp : ∀ c ∈ p, c ≠ 0x1b) (h : Text ((p ++ z).take x) u)
    (hu : u.length < p.length) : x = u.length := by
  by_cases hxp : x ≤ p.length
  · rw [List.take_append_of_le_length hxp] at h
    have := (Spec.Text.plain (fun c hc => hp c (List.mem_of_mem_take hc)) : Text (p.take x) (p.take x)).unique h
    rw [← this, List.length_take]; omega
  · rw [List.take_append, List.take_of_length_le (by omega)] at h
    obtain ⟨w, hw, -⟩ := text_plain_append hp h
    rw [hw, List.length_append] at hu; omega

/-- a text with a plain end -/
theorem text_append_plain {a p u : Str} (hp : ∀ c ∈ p, c ≠ 0x1b) (h : Text (a ++ p) u) (ha : ∃ v, Text a v) : ∃ v, Text a v ∧ u = v ++ p := by
  obtain ⟨v, hv⟩ := ha
  obtain ⟨w, h1, h2⟩ := text_cancel hv h
  exact ⟨v, hv, by rw [h1, (Spec.Text.plain hp).unique h2]⟩

theorem Spec.ResetSeq.esc {e : Str} (h : ResetSeq e) : EscSeq e := by
  obtain ⟨o, params, f, h1, h2, h3, h4⟩ := h
  refine EscSeq.csi o params f h1 ?_ h3 h4
  intro p hp
  simp only [List.mem_cons, List.not_mem_nil, or_false] at h2
  rcases h2 with rfl | rfl | rfl | rfl | rfl | rfl | rfl <;> simp at hp <;> omega

/-- the last escape sequence is determined by the text -/
theorem esc_cancel {a a' e e' u : Str} (ha : Text a u) (ha' : Text a' u) (he : EscSeq e) (he' : EscSeq e') (h : a ++ e = a' ++ e') : a = a' ∧ e = e' := by
  obtain ⟨x, x1, x2, x3⟩ := ha.toks
  obtain ⟨y, y1, y2, y3⟩ := ha'.toks
  have ok : ∀ {x : List Tok} {e : Str}, Oks x → EscSeq e → Oks (x ++ [.inr e]) := by
    intro x e hx he t ht
    rcases List.mem_append.1 ht with ht | ht
    · exact hx t ht
    · simp at ht; subst ht; exact he
  have := toks_unique (ok x1 he) (ok y1 he') (by rw [flat_append, flat_append, x2, y2]; simpa using h)
  obtain ⟨h1, h2⟩ := List.append_inj' this rfl
  simp at h2
  exact ⟨by rw [← x2, ← y2, h1], h2⟩

/-- the place of a visible character is determined by its number -/
theorem vis_cancel {a a' q q' u u' : Str} {c c' : Nat} (ha : Text a u) (ha' : Text a' u') (hc : c ≠ 0x1b) (hc' : c' ≠ 0x1b) (hu : u.length = u'.length)
    (h : a ++ c :: q = a' ++ c' :: q') : a = a' := by
  have key : ∀ {a a' q q' u u' : Str} {c : Nat}, Text a u → Text a' u' → c ≠ 0x1b → u.length = u'.length → ∀ z, a' = a ++ z → c :: q = z ++ q' → z = [] := by
    intro a a' q q' u u' c ha ha' hc hu z h1 h2
    rw [h1] at ha'
    obtain ⟨w, hw, hz⟩ := text_cancel ha ha'
    have hw0 : w = [] := by
      have := congrArg List.length hw
      rw [List.length_append] at this
      exact List.eq_nil_of_length_eq_zero (by omega)
    subst hw0
    cases z with
    | nil => rfl
    | cons x z =>
      simp at h2
      obtain ⟨rfl, -⟩ := h2
      obtain ⟨w, hw, -⟩ := text_plain_append (p := [c]) (z := z) (by simpa using hc) hz
      simp at hw
  rcases List.append_eq_append_iff.1 h with ⟨z, h1, h2⟩ | ⟨z, h1, h2⟩
  · have := key ha ha' hc hu z h1 h2
    rw [h1, this, List.append_nil]
  · have := key ha' ha hc' hu.symm z h1 h2
    rw [h1, this, List.append_nil]

theorem esc_ne_nil {e : Str} (h : EscSeq e) : e ≠ [] := by
  intro h0
  have := EscSeq.length_pos h
  rw [h0] at this; simp at this

/-- the part of a text that begins with a visible character is determined by its number -/
theorem from_unique {n : Nat} {s v p p' : Str} (hs : Text s v) (h : From n s v p) (h' : From n s v p') : p = p' := by
  have hne := text_vis_ne hs
  rcases h with ⟨h1, h2⟩ | ⟨a, e, c, q, h1, h2, h3, h4, h5, h6⟩
  · rcases h' with ⟨-, h2'⟩ | ⟨a', e', c', q', -, -, h3', -⟩
    · rw [h2, h2']
    · have := (List.getElem?_eq_some_iff.1 h3').1; omega
  · rcases h' with ⟨h1', -⟩ | ⟨a', e', c', q', h1', h2', h3', h4', h5', h6'⟩
    · have := (List.getElem?_eq_some_iff.1 h3).1; omega
    · have hc := hne c (List.mem_of_getElem? h3)
      have hc' := hne c' (List.mem_of_getElem? h3')
      have hte : ∀ {a e u : Str}, Text a u → (EscSeq e ∨ e = []) → Text (a ++ e) u := by
        intro a e u ha he
        rcases he with he | rfl
        · have := ha.append (Text.esc e he Text.nil)
          simpa using this
        · simpa using ha
      have t1 : Text (a ++ e) (v.take n) := hte h4 (h6.imp And.left And.left)
      have t2 : Text (a' ++ e') (v.take n) := hte h4' (h6'.imp And.left And.left)
      have heq : (a ++ e) ++ c :: q = (a' ++ e') ++ c' :: q' := by
        rw [List.append_assoc, ← h2, ← h1, List.append_assoc, ← h2', ← h1']
      have := vis_cancel t1 t2 hc hc' rfl heq
      have haa : a = a' := by
        rcases h6 with ⟨g1, g2⟩ | ⟨g1, g2⟩ <;> rcases h6' with ⟨g1', g2'⟩ | ⟨g1', g2'⟩
        · exact (esc_cancel h4 h4' g1 g1' this).1
        · exact absurd (g2' a e (by rw [this, g1', List.append_nil]) h4 g1) g2
        · exact absurd (g2 a' e' (by rw [← this, g1, List.append_nil]) h4' g1') g2'
        · rw [g1, g1'] at this; simpa using this
      rw [h1, haa] at h1'
      exact List.append_cancel_left h1'

/-- where a text can be cut without losing anything -/
theorem from_at {a p u v : Str} (ha : Text a u) (hp : Text p v) (hb : BackKept a) (hf : FrontKept p) : From u.length (a ++ p) (u ++ v) p := by
  rcases hf with rfl | ⟨e, c, r, rfl, hc, he⟩
  · left
    have : v = [] := (Text.nil.unique hp).symm
    simp [this]
  · right
    have hv : ∃ v', v = c :: v' ∧ Text r v' := by
      have h1 : Text (e ++ c :: r) v := hp
      have h2 : ∃ w, v = w ∧ Text (c :: r) w := by
        rcases he with rfl | ⟨he, -⟩
        · exact ⟨v, rfl, h1⟩
        · obtain ⟨w, hw, h3⟩ := text_cancel (by simpa using Text.esc e he Text.nil : Text e []) h1
          exact ⟨w, by simpa using hw, h3⟩
      obtain ⟨w, rfl, h3⟩ := h2
      obtain ⟨v', hv', h4⟩ := text_plain_append (p := [c]) (z := r) (by simpa using hc) h3
      exact ⟨v', hv', h4⟩
    obtain ⟨v', rfl, hr⟩ := hv
    refine ⟨a, e, c, r, rfl, rfl, by simp, by simpa using ha, by simpa using hr, ?_⟩
    rcases he with rfl | he
    · right
      refine ⟨rfl, ?_⟩
      intro a' e' h1 h2 h3
      rw [List.take_append_of_le_length (Nat.le_refl _), List.take_length] at h2
      exact hb a' u e' h1 h2 h3
    · exact .inl he

theorem backKept_plain {s : Str} (h : ∀ c ∈ s, c ≠ 0x1b) : BackKept s := by
  intro a u e h1 _ h2
  obtain ⟨r, rfl⟩ := EscSeq.head h2
  exact absurd rfl (h 0x1b (by rw [h1]; simp))

theorem backKept_prefix {p s : Str} (hp : ∀ c ∈ p, c ≠ 0x1b) (h : BackKept s) : BackKept (p ++ s) := by
  intro a u e h1 h2 h3
  rcases List.append_eq_append_iff.1 h1 with ⟨z, e1, e2⟩ | ⟨z, e1, e2⟩
  · rw [e1] at h2
    obtain ⟨w, -, h4⟩ := text_plain_append hp h2
    exact h z w e e2 h4 h3
  · cases z with
    | nil => exact h [] [] e (by simpa using e2.symm) Text.nil h3
    | cons x z =>
      obtain ⟨r, rfl⟩ := EscSeq.head h3
      simp at e2
      exact absurd e2.1.symm (hp x (by rw [e1]; simp))

theorem backKept_vis {p u : Str} {c : Nat} (hp : Text p u) (hc : c ≠ 0x1b) : BackKept (p ++ [c]) := by
  intro a w e h1 h2 h3
  have h4 : Text (a ++ e) w := by simpa using h2.append (Text.esc e h3 Text.nil)
  have h5 : Text (p ++ [c]) (u ++ [c]) := hp.append (Text.vis c hc Text.nil)
  rw [h1] at h5
  have := h4.unique h5
  subst this
  exact absurd (text_end hp hc h1 h2) (esc_ne_nil h3)

theorem backKept_reset {p u e : Str} (hp : Text p u) (he : ResetSeq e) : BackKept (p ++ e) := by
  intro a w e' h1 h2 h3
  have h4 : Text (a ++ e') w := by simpa using h2.append (Text.esc e' h3 Text.nil)
  have h5 : Text (p ++ e) u := by simpa using hp.append (Text.esc e he.esc Text.nil)
  rw [h1] at h5
  have := h4.unique h5
  subst this
  rw [← (esc_cancel hp h2 he.esc h3 h1).2]
  exact he

theorem frontKept_plain {s : Str} (h : ∀ c ∈ s, c ≠ 0x1b) : FrontKept s := by
  cases s with
  | nil => exact .inl rfl
  | cons c r => exact .inr ⟨[], c, r, rfl, h c (by simp), .inl rfl⟩

theorem frontKept_prefix {p s : Str} (hp : ∀ c ∈ p, c ≠ 0x1b) (h0 : p ≠ []) : FrontKept (p ++ s) := by
  cases p with
  | nil => exact absurd rfl h0
  | cons c r => exact .inr ⟨[], c, r ++ s, rfl, hp c (by simp), .inl rfl⟩

theorem frontKept_append {s z : Str} (h : FrontKept s) (hz : FrontKept z) : FrontKept (s ++ z) := by
  rcases h with rfl | ⟨e, c, r, rfl, h1, h2⟩
  · exact hz
  · exact .inr ⟨e, c, r ++ z, by simp, h1, h2⟩

end Boxes
