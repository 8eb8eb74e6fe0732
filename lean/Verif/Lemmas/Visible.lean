import Verif.Props.Coloured

/-!
# What is left of the rows of a box when the escape sequences are not printed
-/
namespace Boxes
open Spec ShapeName
set_option linter.unusedSimpArgs false

theorem body_visible {db : CharDb} {d : Design} (hd : Restorable db d) {ind lp k : Nat} {q : Str × Str} (hq : Piece db q) {row : Str}
    (h : BodyRow db d ind (spaces lp ++ q.1 ++ spaces k) row) : ∃ v, Text row v ∧ BodyRow db d ind (spaces lp ++ q.2 ++ spaces k) v := by
  have hrec := hd.recognisable
  obtain ⟨n, hn, n', hn', hp, hp', b, hb, b', hb', rfl⟩ := h
  have hnb := seen_nonblank (hrec.east n' hn' hp' b' hb')
  have hbc := cleanChar_shape hd n hp b hb
  have hbc' := cleanChar_shape hd n' hp' b' hb'
  refine ⟨_, ?_, n, hn, n', hn', hp, hp', b, hb, b', hb', rfl⟩
  rw [dropTrailing_row db _ _ hnb, dropTrailing_row db _ _ hnb]
  exact (((Text.plain (spaces_ne _)).append (Text.plain (fun c hc => (hbc c hc).1))).append
      (((Text.plain (spaces_ne _)).append hq.text).append (Text.plain (spaces_ne _)))).append
        (Text.plain (fun c hc => (hbc' c (dropTrailing_mem hc)).1))

theorem piece_visible {db : CharDb} {q : Str × Str} (h : Piece db q) : Piece db (q.2, q.2) := by
  have hne := text_vis_ne h.text
  exact ⟨Text.plain hne, fun c hc => h.chars c (text_mem h.text c hc), h.blanks, frontKept_plain hne, backKept_plain hne, id⟩

theorem coloured_visible {db : CharDb} {t v : Str} (h : ColouredLine db t v) : ColouredLine db v v := by
  have hne := text_vis_ne h.text
  refine ⟨Text.plain hne, fun c hc => h.chars c (text_mem h.text c hc), h.blanks, ?_, ?_, ?_, Nat.lt_of_le_of_lt (text_length_le h.text) h.short⟩
  · rcases h.begins with h1 | ⟨k, e, c, r, h1, hc, hb, he⟩
    · have := h.text
      rw [h1] at this
      exact .inl (text_nil_inv this)
    · right
      obtain ⟨w, hw, hw2⟩ := text_plain_append (spaces_ne k) (h1 ▸ h.text)
      have : Text (c :: r) w := by
        rcases he with rfl | ⟨he, -⟩
        · exact hw2
        · obtain ⟨u, h3, h4⟩ := text_cancel (by simpa using Text.esc e he Text.nil : Text e []) hw2
          rw [h3]; exact h4
      obtain ⟨w', hw', -⟩ := text_plain_append (p := [c]) (z := r) (by simpa using hc) this
      exact ⟨k, [], c, w', by rw [hw, hw']; rfl, hc, hb, .inl rfl⟩
  · rcases h.ends with h1 | ⟨p, x, c, e, h1, hp, hc, hw, he⟩
    · have := h.text
      rw [h1] at this
      exact .inl (text_nil_inv this)
    · right
      have hst : Text e [] := by
        rcases he with rfl | he
        · exact Text.nil
        · simpa using Text.esc e he.esc Text.nil
      have hv : v = x ++ [c] := h.text.unique (by rw [h1]; exact hp.append (Text.vis c hc hst))
      exact ⟨x, x, c, [], hv, Text.plain (text_vis_ne hp), hc, hw, .inl rfl⟩
  · rcases h.shows with h1 | h1
    · have := h.text
      rw [h1] at this
      exact .inl (text_nil_inv this)
    · exact .inr h1

/-- The rows without their escape sequences: a box around the texts without theirs. -/
theorem drawnTexts_visible {db : CharDb} (hdb : Sane db) {d : Design} (hd : Restorable db d) {ind lp w : Nat} {qs : List (Str × Str)} {out : List (Bxs × Str)}
    (hrows : DrawnTexts db d ind lp w qs out) (hqs : ∀ q ∈ qs, Piece db q) :
    ∃ out', DrawnTexts db d ind lp w (qs.map (fun q => (q.2, q.2))) out' ∧ out'.length = out.length ∧
      ∀ (x : Nat) p, out[x]? = some p → ∃ p', out'[x]? = some p' ∧ Text p.1.memory p'.1.memory ∧ p'.2 = p.2 := by
  have hpr := drawnTexts_rows hdb hd hrows hqs
  obtain ⟨vis, hvis⟩ : ∃ vis : Str → Str, ∀ p ∈ out, PrintedRow db ind p.1.memory (vis p.1.memory) := by
    classical
    refine ⟨fun s => if h : ∃ v, PrintedRow db ind s v then h.choose else [], fun p hp => ?_⟩
    simp only [dif_pos (hpr p hp)]
    exact (hpr p hp).choose_spec
  obtain ⟨F, hF⟩ : ∃ F : Str → Bxs, ∀ p ∈ out, fromUnicode db (vis p.1.memory) = some (F (vis p.1.memory)) := by
    refine ⟨fun s => (fromUnicode db s).getD emptyBxs, fun p hp => ?_⟩
    cases hf : fromUnicode db (vis p.1.memory) with
    | none => exact absurd hf (fromUnicode_allowed db (hvis p hp).legit.1)
    | some b => simp only [hf, Option.getD_some]
  have hmem : ∀ p ∈ out, (F (vis p.1.memory)).memory = vis p.1.memory := fun p hp => fromUnicode_memory (hF p hp)
  have hget : ∀ (x : Nat) p', (out.map (fun p => (F (vis p.1.memory), p.2)))[x]? = some p' →
      ∃ p, out[x]? = some p ∧ p' = (F (vis p.1.memory), p.2) := by
    intro x p' h
    rw [List.getElem?_map] at h
    cases hp : out[x]? with
    | none => rw [hp] at h; simp at h
    | some p => rw [hp] at h; exact ⟨p, rfl, (Option.some.inj h).symm⟩
  refine ⟨out.map (fun p => (F (vis p.1.memory), p.2)), ⟨?_, ?_, ?_, ?_, ?_⟩, by simp, ?_⟩
  · simp [hrows.count]
  · intro p' hp'
    obtain ⟨p, hp, rfl⟩ := List.mem_map.1 hp'
    simp only
    rw [hmem p hp]; exact hF p hp
  · intro y p' hy hp'
    obtain ⟨p, hp, rfl⟩ := hget y p' hp'
    have he := hrows.top y p hy hp
    have hm := List.mem_of_getElem? hp
    simp only
    rw [hmem p hm, (hvis p hm).text.unique (printedRow_edge hdb hd (top := true) hy he).text]
    exact he
  · intro k p' q' hq' hp'
    rw [List.getElem?_map] at hq'
    obtain ⟨p, hp, rfl⟩ := hget _ p' hp'
    cases hq : qs[k]? with
    | none => rw [hq] at hq'; simp at hq'
    | some q =>
      rw [hq] at hq'
      obtain rfl := Option.some.inj hq'
      obtain ⟨v, h1, h2⟩ := body_visible hd (hqs q (List.mem_of_getElem? hq)) (hrows.body k p q hq hp)
      have hm := List.mem_of_getElem? hp
      simp only
      rw [hmem p hm, (hvis p hm).text.unique h1]
      exact h2
  · intro y p' hy hp'
    rw [List.length_map] at hp'
    obtain ⟨p, hp, rfl⟩ := hget _ p' hp'
    have he := hrows.bottom y p hy hp
    have hm := List.mem_of_getElem? hp
    simp only
    rw [hmem p hm, (hvis p hm).text.unique (printedRow_edge hdb hd (top := false) hy he).text]
    exact he
  · intro x p hp
    have hm := List.mem_of_getElem? hp
    refine ⟨(F (vis p.1.memory), p.2), by rw [List.getElem?_map, hp]; rfl, ?_, rfl⟩
    simp only
    rw [hmem p hm]; exact (hvis p hm).text

theorem rowsOf_visible {db : CharDb} (hdb : Sane db) {opt : Opt} {d : Design} (hd : Restorable db d) {lines : List (Str × Str)} {vis : Str → Str}
    (hl : ∀ p ∈ lines, ColouredLine db p.1 (vis p.1) ∧ LineEnd p.2) {n above below w : Nat} {out : List (Bxs × Str)}
    (h : RowsOf db opt d lines vis n above below w out) :
    ∃ out', RowsOf db opt d (lines.map (fun p => (vis p.1, p.2))) id n above below w out' ∧ out'.length = out.length ∧
      ∀ (x : Nat) p, out[x]? = some p → ∃ p', out'[x]? = some p' ∧ Text p.1.memory p'.1.memory ∧ p'.2 = p.2 := by
  obtain ⟨out', h1, h2, h3⟩ := drawnTexts_visible hdb hd h.rows h.pieces
  have hpairs : ∀ m, innerPairs above below m ((lines.map (fun p => (vis p.1, p.2))).map (fun p => (p.1, id p.1))) =
      (innerPairs above below m (lines.map (fun p => (p.1, vis p.1)))).map (fun q => (q.2, q.2)) := by
    intro m; simp [innerPairs, Function.comp_def]
  have hl' : ∀ p ∈ lines.map (fun p => (vis p.1, p.2)), ColouredLine db p.1 (id p.1) ∧ LineEnd p.2 := by
    intro p' hp'
    obtain ⟨p, hp, rfl⟩ := List.mem_map.1 hp'
    exact ⟨coloured_visible (hl p hp).1, (hl p hp).2⟩
  have hbreak : EndsInBreak ((lines.map (fun p => (vis p.1, p.2))).map (fun p => p.1 ++ p.2)) ↔ EndsInBreak (lines.map (fun p => p.1 ++ p.2)) := by
    rw [coloured_endsInBreak hl', coloured_endsInBreak hl]
    constructor
    · rintro ⟨p', e1, e2⟩
      rw [List.getLast?_map] at e1
      cases hp : lines.getLast? with
      | none => rw [hp] at e1; simp at e1
      | some p =>
        rw [hp] at e1
        obtain rfl := Option.some.inj e1
        exact ⟨p, rfl, e2⟩
    · rintro ⟨p, e1, e2⟩
      exact ⟨(vis p.1, p.2), by rw [List.getLast?_map, e1]; rfl, e2⟩
  refine ⟨out', ⟨?_, h.room, by rw [hpairs]; exact h1, ?_, ?_⟩, h2, h3⟩
  · have : (lines.map (fun p => (vis p.1, p.2))).map (fun p => id p.1) = lines.map (fun p => vis p.1) := by simp [Function.comp_def]
    rw [this]; exact h.least
  · rw [hpairs]
    intro q' hq'
    obtain ⟨q, hq, rfl⟩ := List.mem_map.1 hq'
    exact piece_visible (h.pieces q hq)
  · intro x p' hp'
    have hlt : x < out.length := by rw [← h2]; exact (List.getElem?_eq_some_iff.1 hp').1
    obtain ⟨p'', e1, -, e3⟩ := h3 x _ (List.getElem?_eq_getElem hlt)
    rw [hp'] at e1
    obtain rfl := Option.some.inj e1
    rw [hbreak, h2, e3]
    exact h.ends x _ (List.getElem?_eq_getElem hlt)

end Boxes
