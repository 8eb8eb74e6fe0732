import Verif.Props.Assemble
import Verif.Props.Tools
import Verif.Props.Input
import Verif.Spec.Box

/-!
# Lemmas about `output_box`
-/
namespace Boxes
open Spec ShapeName
set_option linter.unusedSimpArgs false

theorem narrow_lead (db : CharDb) {v : Str} (h : NarrowBlanks db v) :
    columns db (v.takeWhile (fun c => decide (Blank db c))) = leadingBlanks db v := by
  have := columns_takeWhile_narrow db h
  rw [isBlank_fun] at this
  exact this

theorem columns_take_drop (db : CharDb) (v : Str) (n : Nat) : columns db v = columns db (v.take n) + columns db (v.drop n) := by
  rw [← columns_append, List.take_append_drop]

theorem narrow_take (db : CharDb) : ∀ (v : Str) (n : Nat), NarrowBlanks db v → n ≤ leadingBlanks db v →
    columns db (v.take n) = n ∧ ∀ c ∈ v.take n, Blank db c
  | [], n, _, h => by
    simp [leadingBlanks] at h
    subst h
    simp [columns]
  | c :: v, n, hb, h => by
    cases n with
    | zero => simp [columns]
    | succ n =>
      unfold leadingBlanks at h
      rw [List.takeWhile_cons] at h
      by_cases hc : Blank db c
      · simp only [hc, decide_true, if_true, List.length_cons] at h
        obtain ⟨h1, h2⟩ := narrow_take db v n (fun c hc => hb c (by simp [hc])) (by unfold leadingBlanks; omega)
        rw [List.take_succ_cons]
        refine ⟨?_, ?_⟩
        · have := hb c (by simp) hc
          simp only [columns, List.map_cons, List.sum_cons] at h1 ⊢
          omega
        · intro x hx
          rcases List.mem_cons.1 hx with rfl | hx
          · exact hc
          · exact h2 x hx
      · simp [hc] at h

theorem lead_le (db : CharDb) {v : Str} (h : NarrowBlanks db v) : leadingBlanks db v ≤ columns db v := by
  have h1 := (narrow_take db v (leadingBlanks db v) h (Nat.le_refl _)).1
  have h2 := columns_take_drop db v (leadingBlanks db v)
  omega

/-! ## blank sides -/

theorem text_unique {db : CharDb} {b : Bxs} {v w : Str} (h : GoodLine db b v) (h' : Text b.memory w) : w = v := by
  obtain ⟨b', hb, -, -⟩ := analyse h.text h.allowed
  have h1 := (C03_output db h.text hb).2
  have h2 := (C03_output db h' hb).2
  rw [h1] at h2
  exact (Option.some.inj h2).symm

theorem spn_full {s : Str} : spnSpTab s = s.length ↔ ∀ c ∈ s, isSpTab c = true := by
  unfold spnSpTab
  constructor
  · intro h
    have hp : s.takeWhile isSpTab = s :=
      (List.takeWhile_prefix isSpTab).eq_of_length h
    intro c hc
    rw [← hp] at hc
    exact List.all_eq_true.1 (List.all_takeWhile (l := s) (p := isSpTab)) c hc
  · intro h
    have : s.takeWhile isSpTab = s := by
      induction s with
      | nil => rfl
      | cons c s ih => rw [List.takeWhile_cons, if_pos (h c (by simp)), ih (fun c hc => h c (by simp [hc]))]
    rw [this]

theorem ascii_blank {db : CharDb} (hdb : Sane db) (v : Str) :
    (∀ x ∈ asciiForm db v, isSpTab x = true) ↔ ∀ c ∈ v, Blank db c ∨ Spec.width db c = 0 := by
  unfold asciiForm
  simp only [List.mem_flatMap]
  constructor
  · intro h c hc
    by_cases hp : 0x20 ≤ c ∧ c < 0x7f
    · have := h c ⟨c, hc, by rw [if_pos hp]; simp⟩
      by_cases h20 : c = 0x20
      · subst h20; exact .inl (.inr hdb.space_blank)
      · simp [isSpTab, chSpace, chTab] at this
        omega
    · by_cases hw : Spec.width db c = 0
      · exact .inr hw
      · left
        apply Classical.byContradiction
        intro hb
        have := h 0x78 ⟨c, hc, by rw [if_neg hp, if_neg hb]; simp [hw]⟩
        exact absurd this (by decide)
  · rintro h x ⟨c, hc, hx⟩
    by_cases hp : 0x20 ≤ c ∧ c < 0x7f
    · rw [if_pos hp] at hx
      simp at hx
      subst hx
      rcases h x hc with hb | hw
      · rcases hb with hb | hb
        · omega
        · by_cases h20 : x = 0x20
          · subst h20; decide
          · rw [hdb.ascii_not_blank x (by omega) hp.2] at hb; exact absurd hb (by decide)
      · unfold Spec.width at hw
        rw [if_pos (.inl hp)] at hw
        omega
    · rw [if_neg hp] at hx
      rcases h c hc with hb | hw
      · rw [if_pos hb] at hx
        rw [List.mem_replicate] at hx
        rw [hx.2]; decide
      · rw [hw] at hx; simp at hx

theorem isDeepEmpty_iff {db : CharDb} (hdb : Sane db) {s : Shape} (hg : Present s → GoodShape db s) :
    s.isDeepEmpty = true ↔ BlankShape db s := by
  unfold Shape.isDeepEmpty BlankShape
  by_cases hp : Present s
  · have he : s.isEmpty = false := (present_iff s).2 hp
    have hgs := hg hp
    rw [he]
    simp only [Bool.false_eq_true, if_false, List.all_eq_true, beq_iff_eq, hp, true_implies]
    rw [List.take_of_length_le (by rw [hgs.height]; exact Nat.le_refl _)]
    constructor
    · intro h b hb w hw
      obtain ⟨⟨v, hv⟩, hc⟩ := hgs.lines b hb
      rw [text_unique hv hw]
      have h1 := h b hb
      rw [← hc, hv.cols, ← asciiForm_length, ← hv.ascii, spn_full, hv.ascii] at h1
      exact (ascii_blank hdb v).1 h1
    · intro h b hb
      obtain ⟨⟨v, hv⟩, hc⟩ := hgs.lines b hb
      rw [← hc, hv.cols, ← asciiForm_length, ← hv.ascii, spn_full, hv.ascii]
      exact (ascii_blank hdb v).2 (h b hb v hv.text)
  · have he : s.isEmpty = true := by
      cases h : s.isEmpty with
      | true => rfl
      | false => exact absurd ((present_iff s).1 h) hp
    simp [he, hp]

theorem emptySide_iff {db : CharDb} (hdb : Sane db) {d : Design} (hg : ∀ n, Present (d.shape n) → GoodShape db (d.shape n))
    (side : List ShapeName) : emptySide d.shape side = true ↔ BlankSide db d side := by
  unfold emptySide BlankSide
  rw [List.all_eq_true]
  constructor
  · intro h n hn; exact (isDeepEmpty_iff hdb (hg n)).1 (h n hn)
  · intro h n hn; exact (isDeepEmpty_iff hdb (hg n)).2 (h n hn)

/-! ## indentation -/

theorem tabbifyLoop_total (ts L : Nat) (hts : 1 ≤ ts) : ∀ (tabpos : List Nat) (buf : Str) (len c : Nat),
    tabpos.Pairwise (fun a b => a + tabCols ts a ≤ b) → (∀ a ∈ tabpos, c ≤ a) → L ≤ len + c → len ≤ L → buf.length = L + 1 →
    (∀ x ∈ buf, x = 0 ∨ x = 0x20 ∨ x = 0x09) →
    ∃ r, tabbifyLoop ts L L tabpos buf len = some r ∧ ∀ x ∈ r, x = 0 ∨ x = 0x20 ∨ x = 0x09
  | [], buf, _, _, _, _, _, _, _, hx => ⟨buf, rfl, hx⟩
  | t :: more, buf, len, c, hp, hc, h1, h2, hb, hx => by
    unfold tabbifyLoop
    have hct := hc t (by simp)
    have hmod := Nat.mod_lt t hts
    simp only
    by_cases ht : t < L
    · rw [if_pos ht]
      by_cases hf : t + (ts - t % ts) > L
      · rw [if_pos hf]; exact ⟨buf, rfl, hx⟩
      · rw [if_neg hf, if_neg (by omega), if_pos (by omega)]
        apply tabbifyLoop_total ts L hts more _ _ (t + tabCols ts t) (List.pairwise_cons.1 hp).2 (List.pairwise_cons.1 hp).1
        · unfold tabCols; omega
        · omega
        · simpa using hb
        · intro x hxm
          rcases List.mem_or_eq_of_mem_set hxm with hxm | rfl
          · rcases List.mem_or_eq_of_mem_set hxm with hxm | rfl
            · exact hx x hxm
            · simp [chTab]
          · simp
    · rw [if_neg ht]; exact ⟨buf, rfl, hx⟩

theorem tabbifyIndent_total (ts L : Nat) (hts : 1 ≤ ts) (tabpos : List Nat)
    (hp : tabpos.Pairwise (fun a b => a + tabCols ts a ≤ b)) :
    ∃ r, tabbifyIndent ts L tabpos L = some r ∧ ∀ x ∈ r, x = 0x20 ∨ x = 0x09 := by
  unfold tabbifyIndent
  split
  · exact ⟨[], rfl, by simp⟩
  · obtain ⟨r, h1, h2⟩ := tabbifyLoop_total ts L hts tabpos (nspaces L ++ [0]) L 0 hp (by simp) (by omega) (Nat.le_refl _)
      (by simp [nspaces]) (by
        intro x hx
        simp only [nspaces, List.mem_append, List.mem_replicate, List.mem_cons, List.not_mem_nil, or_false] at hx
        rcases hx with ⟨-, rfl⟩ | rfl
        · simp [chSpace]
        · simp)
    refine ⟨cstr r, by rw [h1]; rfl, ?_⟩
    intro x hx
    unfold cstr at hx
    have hne := List.all_eq_true.1 (List.all_takeWhile (l := r) (p := (· != 0))) x hx
    rcases h2 x ((List.takeWhile_prefix _).mem hx) with h | h
    · subst h; exact absurd hne (by decide)
    · exact h

theorem pairwise_lt_of_tabs {ts : Nat} (hts : 1 ≤ ts) {tabpos : List Nat}
    (hp : tabpos.Pairwise (fun a b => a + tabCols ts a ≤ b)) : tabpos.Pairwise (· < ·) := by
  refine hp.imp ?_
  intro a b h
  have := Nat.mod_lt a hts
  unfold tabCols at h
  omega

theorem restoreIndent_ok {db : CharDb} {opt : Opt} {d : Design} {input : Input} {ls : List (Str × Str)}
    (h : TextBlock db opt d input ls) (i : Nat) (hi : i < ls.length) :
    ∃ ind, restoreIndent opt input i (indentSpc opt d input.indent) = .ok (some ind) ∧ IndentOf opt d input i ind := by
  have hlen : input.lines.length = ls.length := by
    have := congrArg List.length h.texts
    simpa using this
  unfold restoreIndent
  by_cases hk : opt.tabexp ≠ 'k'
  · rw [if_pos hk]
    refine ⟨_, rfl, ?_, ?_, ?_, ?_, ?_⟩
    · intro c hc
      unfold indentSpc at hc
      split at hc
      · split at hc
        · simp only [unexpandIndent, List.mem_append, List.mem_replicate] at hc
          rcases hc with ⟨-, rfl⟩ | ⟨-, rfl⟩ <;> simp [chTab, chSpace]
        · simp only [nspaces, List.mem_replicate] at hc
          rw [hc.2]; simp [chSpace]
      · simp at hc
    · intro hb; unfold indentSpc; rw [if_neg hb]
    · intro hb hu _; unfold indentSpc; rw [if_pos hb, if_neg hu]; rfl
    · intro hb hu
      unfold indentSpc
      rw [if_pos hb, if_pos hu]
      exact C08_unexpand opt.tabstop h.tabstop input.indent
    · intro _ hk'; exact absurd hk' hk
  · have hk' : opt.tabexp = 'k' := Classical.not_not.1 hk
    rw [if_neg hk, if_neg (by omega)]
    have hil : i < input.lines.length := by omega
    have htab := h.tabs hk' input.lines[i] (List.getElem_mem hil)
    rw [List.getElem?_eq_getElem hil, Res.get_some, Res.ok_bind]
    have hu : ¬ opt.tabexp = 'u' := by rw [hk']; decide
    by_cases hb : d.indentmode = 'b'
    · have hsp : indentSpc opt d input.indent = nspaces input.indent := by
        unfold indentSpc
        rw [if_pos hb, if_neg hu]
      have hl : (indentSpc opt d input.indent).length = input.indent := by rw [hsp]; simp [nspaces]
      rw [hl]
      obtain ⟨r, h1, h2⟩ := tabbifyIndent_total opt.tabstop input.indent h.tabstop _ htab
      rw [h1, Res.get_some, Res.ok_bind]
      refine ⟨r, rfl, h2, fun hh => absurd hb hh, fun _ _ hh => absurd hk' hh, fun _ hh => absurd hh hu, ?_⟩
      intro _ _ l hl' hone
      rw [List.getElem?_eq_getElem hil] at hl'
      injection hl' with hl'
      subst hl'
      obtain ⟨r', e1, e2, e3⟩ := C08_keep_partial opt.tabstop h.tabstop input.indent _ (pairwise_lt_of_tabs h.tabstop htab) hone
      rw [h1] at e1
      injection e1 with e1
      subst e1
      exact ⟨e2, e3⟩
    · have hl : (indentSpc opt d input.indent) = [] := by unfold indentSpc; rw [if_neg hb]
      rw [hl]
      refine ⟨[], ?_, by simp, fun _ => rfl, fun hh => absurd hh hb, fun hh => absurd hh hb, fun hh => absurd hh hb⟩
      simp [tabbifyIndent]

/-! ## rows -/

theorem forbidden_blank {db : CharDb} (hdb : Sane db) {c : Nat} (h : c = 0x20 ∨ c = 0x09) : ¬ Forbidden db c := by
  rintro ⟨h1, h2, -⟩
  rcases h with rfl | rfl
  · rw [hdb.space_ok] at h1; exact absurd h1 (by decide)
  · exact h2 rfl

/-- a part of a row: its visible text, which has no forbidden characters and the given width -/
def PartOk (db : CharDb) (s : Str) (w : Nat) : Prop := ∃ v, Text s v ∧ (∀ c ∈ v, ¬ Forbidden db c) ∧ columns db v = w

theorem PartOk.append {db : CharDb} {s t : Str} {w u : Nat} (h : PartOk db s w) (h' : PartOk db t u) :
    PartOk db (s ++ t) (w + u) := by
  obtain ⟨v, h1, h2, h3⟩ := h
  obtain ⟨v', h1', h2', h3'⟩ := h'
  refine ⟨v ++ v', h1.append h1', ?_, by rw [columns_append, h3, h3']⟩
  intro c hc
  rcases List.mem_append.1 hc with hc | hc
  · exact h2 c hc
  · exact h2' c hc

theorem partOk_spaces {db : CharDb} (hdb : Sane db) (n : Nat) : PartOk db (spaces n) n :=
  ⟨spaces n, text_nspaces n, fun c hc => by
    rw [spaces, List.mem_replicate] at hc; exact forbidden_blank hdb (.inl hc.2), columns_nspaces db n⟩

theorem partOk_nil (db : CharDb) : PartOk db [] 0 := ⟨[], Text.nil, by simp, rfl⟩

theorem partOk_blanks {db : CharDb} (hdb : Sane db) {s : Str} (h : ∀ c ∈ s, c = 0x20 ∨ c = 0x09) : PartOk db s s.length := by
  refine ⟨s, Spec.Text.plain (fun c hc => by rcases h c hc with rfl | rfl <;> decide), fun c hc => forbidden_blank hdb (h c hc), ?_⟩
  induction s with
  | nil => rfl
  | cons c s ih =>
    have h1 := ih (fun c hc => h c (by simp [hc]))
    simp only [columns, List.map_cons, List.sum_cons, List.length_cons] at h1 ⊢
    rw [h1]
    rcases h c (by simp) with rfl | rfl
    · rw [width_space]; omega
    · simp [Spec.width]; omega

theorem partOk_line {db : CharDb} {s : Shape} (h : GoodShape db s) {y : Nat} (hy : y < s.height) :
    PartOk db (lineText s y) s.width ∧ sideMem s y = .ok (lineText s y) := by
  have hlt : y < s.lines.length := by rw [h.height]; exact hy
  obtain ⟨⟨v, hv⟩, hc⟩ := h.lines s.lines[y] (List.getElem_mem hlt)
  unfold lineText sideMem
  rw [List.getElem?_eq_getElem hlt]
  exact ⟨⟨v, hv.text, hv.allowed, by rw [← hc, hv.cols]⟩, rfl⟩

theorem concat_ok {db : CharDb} {ss : List Str} {w : Nat} (hne : ss ≠ []) (h : PartOk db ss.flatten w) :
    ∃ b, bxsConcat db (ss.map some) = some b ∧ fromUnicode db b.memory = some b ∧ b.memory = ss.flatten := by
  obtain ⟨v, h1, h2, -⟩ := h
  obtain ⟨b, e1, -, e3⟩ := analyse h1 h2
  refine ⟨b, ?_, by rw [e3]; exact e1, e3⟩
  unfold bxsConcat
  rw [if_neg]
  · have : (ss.map some).flatMap (fun p => p.getD [0x28, 0x4e, 0x55, 0x4c, 0x4c, 0x29]) = ss.flatten := by
      rw [List.flatMap_map]
      simp [List.flatMap_def]
    rw [this]; exact e1
  · cases ss with
    | nil => exact absurd rfl hne
    | cons _ _ => simp

theorem plainRow_ok {db : CharDb} (hdb : Sane db) {opt : Opt} {d : Design} {input : Input} {ls : List (Str × Str)}
    (hin : TextBlock db opt d input ls) {box : Sides Shape} (hbox : GoodBox db d box) (lay : Layout)
    (hlay : lay.indentspc = indentSpc opt d input.indent) (j i : Nat) (hj : j < box.right.height) (hi : i < ls.length)
    (mid : Str) (hmid : PartOk db mid box.top.width) :
    ∃ row, plainRow db opt input box lay j i mid = .ok row ∧ fromUnicode db row.memory = some row ∧
      Row opt d input box (lay.skipLeft = true) j i mid row.memory := by
  obtain ⟨ind, hr, hio⟩ := restoreIndent_ok hin i hi
  have hind := partOk_blanks hdb hio.chars
  obtain ⟨hright, er⟩ := partOk_line hbox.right hj
  obtain ⟨hleft, el⟩ := partOk_line hbox.left (y := j) (by rw [hbox.sameHeight]; exact hj)
  unfold plainRow leftMem
  rw [hlay, hr, Res.ok_bind, er]
  cases hs : lay.skipLeft with
  | true =>
    simp only [if_true, Res.ok_bind]
    obtain ⟨b, e1, e2, e3⟩ := concat_ok (ss := [ind, [], mid, lineText box.right j]) (by simp)
      (by simpa using (hind.append (hmid.append hright)))
    refine ⟨b, ?_, e2, ⟨ind, [], hio, fun _ => rfl, fun h => by simp at h, by rw [e3]; simp⟩⟩
    simp only [List.map_cons, List.map_nil] at e1
    rw [e1]; rfl
  | false =>
    simp only [Bool.false_eq_true, if_false, Res.ok_bind, el]
    obtain ⟨b, e1, e2, e3⟩ := concat_ok (ss := [ind, lineText box.left j, mid, lineText box.right j]) (by simp)
      (by simpa using (hind.append (hleft.append (hmid.append hright))))
    refine ⟨b, ?_, e2, ⟨ind, _, hio, fun h => by simp at h, fun _ => rfl, by rw [e3]; simp⟩⟩
    simp only [List.map_cons, List.map_nil] at e1
    rw [e1]; rfl

/-- the part of a text row between the sides has the inner width -/
theorem placed_ok {db : CharDb} (hdb : Sane db) {maxline lp rp : Nat} {s v : Str} {k : Int} {m : Str}
    (ha : ∀ c ∈ v, ¬ Forbidden db c) (hk : (columns db v : Int) + k ≤ maxline) (h : Placed db maxline lp rp s v k m) :
    PartOk db m (lp + maxline + rp) := by
  obtain ⟨t, -, -, -, h2, h3⟩ := h.row
  have hp : PartOk db t (columns db (v.drop (-k).toNat)) :=
    ⟨_, h2, fun c hc => ha c (List.mem_of_mem_drop hc), rfl⟩
  have hsum := ((partOk_spaces hdb (lp + k.toNat)).append hp).append
    (partOk_spaces hdb (rp + ((maxline : Int) - columns db v - k).toNat))
  rw [← h3] at hsum
  have hcut := h.cut
  have hsplit := columns_take_drop db v (-k).toNat
  have he : lp + k.toNat + columns db (v.drop (-k).toNat) + (rp + ((maxline : Int) - columns db v - k).toNat) =
      lp + maxline + rp := by omega
  rw [he] at hsum
  exact hsum

end Boxes
