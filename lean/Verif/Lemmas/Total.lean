import Verif.Spec.Ready
import Verif.Props.Side
import Verif.Props.Hits
import Verif.Props.Print

/-!
# Helper lemmas: the search for a box comes to an end without leaving its data
-/
namespace Boxes
open Spec ShapeName
set_option linter.unusedSimpArgs false

theorem isEmpty_iff (s : Shape) : s.isEmpty = false ↔ Present s := by
  unfold Shape.isEmpty Present
  cases s.lines <;> simp <;> omega

/-- a shape line that can be compared, in every way of comparison -/
theorem compShape_ready {db : CharDb} (hdb : Sane db) {d : Design} {n : ShapeName} {idx : Nat} (c : CompType) (r : Bool) {b : Bxs}
    (hl : (d.shape n).lines[idx]? = some b) (hi : idx < (d.shape n).height) (hb : ReadyLine db b) :
    ∃ t b', prepareCompShape d n idx c false r = .ok t ∧ fromUnicode db t = some b' ∧ ∃ w, Text t w := by
  rcases hb with ⟨w, rfl⟩ | ⟨v, h1, h2, h3⟩
  · have hsp : ∀ k, ∃ b', fromUnicode db (List.replicate k 0x20) = some b' ∧ ∃ w, Text (List.replicate k 0x20) w := by
      intro k
      have ht : Text (List.replicate k 0x20) (List.replicate k 0x20) := Spec.Text.plain (by
        intro c hc; rw [List.mem_replicate] at hc; rw [hc.2]; decide)
      obtain ⟨b', hb'⟩ := analysed db ht (by
        intro c hc hf; rw [List.mem_replicate] at hc; rw [hc.2] at hf; exact absurd hf.1 (by rw [hdb.space_ok]; simp))
      exact ⟨b', hb', _, ht⟩
    unfold prepareCompShape
    rw [if_neg (by omega), hl]
    have h0 : (fromAscii (List.replicate w 0x20)).invis = 0 := rfl
    have htr : (fromAscii (List.replicate w 0x20)).trailing = w := by
      simp [fromAscii, strrspnSpace, chSpace]
    have hvis : (fromAscii (List.replicate w 0x20)).vis = w := by simp [fromAscii]
    have hfc : (fromAscii (List.replicate w 0x20)).firstChar[0]? = some 0 := by
      simp [fromAscii, List.getElem?_range]
    simp only [Res.get_some, Res.ok_bind, h0, Nat.lt_irrefl, and_false, if_false, Bool.false_eq_true, htr, hvis]
    have hm : (fromAscii (List.replicate w 0x20)).memory = List.replicate w 0x20 := rfl
    split
    · simp only [Res.sub_ok (Nat.zero_le w), Nat.sub_zero, Res.ok_bind, Res.sub_ok (Nat.le_refl w), Nat.sub_self, hfc, Res.get_some, cutAt,
        Nat.zero_le, if_true, List.take_zero]
      obtain ⟨b', g1, g2⟩ := hsp 0
      exact ⟨[], b', rfl, g1, g2⟩
    · obtain ⟨b', g1, g2⟩ := hsp w
      exact ⟨_, b', rfl, by simpa [hm] using g1, by simpa [hm] using g2⟩
  · obtain ⟨t, g1, g2, -⟩ := C25_shape db d n idx c false r h1 h2 hl hi h3 (.inr (.inr (.inl rfl)))
    obtain ⟨b', hb'⟩ := analysed db g2 (by
      intro x hx hf
      have hxv : x ∈ v := by
        unfold stripped at hx
        simp only [Bool.false_eq_true, if_false] at hx
        split at hx
        · unfold dropTrailing at hx
          rw [List.mem_reverse] at hx
          exact List.mem_reverse.1 ((List.dropWhile_sublist _).subset hx)
        · exact hx
      have := (C01_rejected_iff db h1).2 ⟨x, hxv, hf⟩
      rw [h2] at this; simp at this)
    exact ⟨t, b', g1, hb', _, g2⟩

theorem readyLine_at {db : CharDb} {d : Design} (hd : ReadyDesign db d) {n : ShapeName} (hp : Present (d.shape n)) {k : Nat}
    (hk : k < (d.shape n).height) : ∃ b, (d.shape n).lines[k]? = some b ∧ ReadyLine db b := by
  have hg := hd.good.shapes n hp
  have : k < (d.shape n).lines.length := by rw [hg.height]; exact hk
  exact ⟨_, List.getElem?_eq_getElem this, hd.lines n hp _ (List.getElem_mem this)⟩

theorem compShapesHoriz_total {db : CharDb} (hdb : Sane db) {d : Design} (hd : ReadyDesign db d) (c : CompType) (k : Nat) :
    ∀ ns : List ShapeName, (∀ n ∈ ns, Present (d.shape n) → k < (d.shape n).height) →
    ∃ shapes, compShapesHoriz db d c k ns = .ok shapes ∧ ∀ sl ∈ shapes, ∃ w, Text sl.text.memory w := by
  intro ns
  induction ns with
  | nil => intro _; exact ⟨[], rfl, by simp⟩
  | cons n r ih =>
    intro h
    obtain ⟨more, e1, e2⟩ := ih (fun m hm => h m (by simp [hm]))
    unfold compShapesHoriz
    cases he : (d.shape n).isEmpty with
    | true =>
      simp only [if_true, Res.ok_bind, e1]
      refine ⟨_, rfl, ?_⟩
      intro sl hsl
      rcases List.mem_cons.1 hsl with rfl | hsl
      · exact ⟨[], Text.nil⟩
      · exact e2 sl hsl
    | false =>
      have hp := (isEmpty_iff _).1 he
      have hk := h n (by simp) hp
      obtain ⟨b, hb, hr⟩ := readyLine_at hd hp hk
      obtain ⟨t, b', g1, g2, w, g3⟩ := compShape_ready hdb c (r.length == 0) hb hk hr
      simp only [Bool.false_eq_true, if_false, g1, Res.ok_bind, g2, Res.get_some, e1]
      refine ⟨_, rfl, ?_⟩
      intro sl hsl
      rcases List.mem_cons.1 hsl with rfl | hsl
      · exact ⟨w, by rw [fromUnicode_memory g2]; exact g3⟩
      · exact e2 sl hsl

/-- all shapes of the top (bottom) side are as high as its right corner -/
theorem side_heights {db : CharDb} {d : Design} (hd : GoodDesign db d) (top : Bool) :
    ∀ n ∈ (if top then northSide else southSideRev), Present (d.shape n) →
      (d.shape n).height = (d.shape (if top then .NE else .SE)).height := by
  intro n hn hp
  cases top with
  | true =>
    have h1 := hd.north NE (by simp) (hd.corner NE (by simp))
    simp only [if_true, northSide, List.mem_cons, List.not_mem_nil, or_false] at hn ⊢
    rcases hn with rfl | hn
    · exact h1.symm
    · rw [h1]; exact hd.north n (by simp; exact hn) hp
  | false =>
    have h1 := hd.south SE (by simp) (hd.corner SE (by simp))
    simp only [Bool.false_eq_true, if_false, southSideRev, List.mem_cons, List.not_mem_nil, or_false] at hn ⊢
    rcases hn with rfl | hn
    · exact h1.symm
    · rw [h1]
      refine hd.south n ?_ hp
      simp only [List.mem_cons, List.not_mem_nil, or_false]
      rcases hn with h | h | h | h <;> simp [h]

/-- one comparison of an input line with the shapes of a horizontal side -/
theorem matchHorizLineWith_total {db : CharDb} (hdb : Sane db) {d : Design} (hd : ReadyDesign db d) {lines : List Line}
    (hin : ReadyInput db lines) (o : Sides Bool) (top : Bool) (c : CompType) {i k : Nat} (hi : i < lines.length)
    (hk : k < (d.shape (if top then .NE else .SE)).height) : ∃ m, matchHorizLineWith db d lines o top i k c = .ok m := by
  obtain ⟨shapes, e1, e2⟩ := compShapesHoriz_total hdb hd c k (if top then northSide else southSideRev) (by
    intro n hn hp; rw [side_heights hd.good top n hn hp]; exact hk)
  obtain ⟨b, v, h1, h2, h3, h4⟩ := hin _ (List.getElem_mem hi)
  obtain ⟨t, g1, g2, -⟩ := C25_input db lines i c false h3 h2 (List.getElem?_eq_getElem hi) h1 h4
  have hst : stripped db false false v = v := by simp [stripped]
  rw [hst] at g2
  obtain ⟨m, _, _, _, _, _, f1, -⟩ := C25_line_partial db d lines o top i k c e1 e2 g1 g2 (by
    intro x hx hf
    have := (C01_rejected_iff db h3).2 ⟨x, hx, hf⟩
    rw [h2] at this; simp at this) h4
  exact ⟨m, f1⟩

theorem matchHorizLine_total {db : CharDb} (hdb : Sane db) {d : Design} (hd : ReadyDesign db d) {lines : List Line}
    (hin : ReadyInput db lines) (ctx : RemoveCtx) (top : Bool) {i k : Nat} (hi : i < lines.length)
    (hk : k < (d.shape (if top then .NE else .SE)).height) : ∃ q, matchHorizLine db d lines ctx top i k = .ok q := by
  have : ∀ cs cur, ∃ q, matchHorizLoop db d lines ctx top i k cs cur = .ok q := by
    intro cs
    induction cs with
    | nil => intro cur; exact ⟨_, rfl⟩
    | cons c r ih =>
      intro cur
      unfold matchHorizLoop
      split
      · exact ih _
      · obtain ⟨m, hm⟩ := matchHorizLineWith_total hdb hd hin ctx.emptySide top c hi hk
        simp only [hm, Res.ok_bind]
        split
        · exact ⟨_, rfl⟩
        · exact ih _
  obtain ⟨q, hq⟩ := this compTypes ctx.compType
  unfold matchHorizLine
  exact ⟨_, by simp only [hq, Res.ok_bind]; rfl⟩

theorem matchAnyShapeLine_total {db : CharDb} (hdb : Sane db) {d : Design} (hd : ReadyDesign db d) {lines : List Line}
    (hin : ReadyInput db lines) (top : Bool) {i : Nat} (hi : i < lines.length) :
    ∀ (js : List Nat) (ctx : RemoveCtx), (∀ j ∈ js, j < (d.shape (if top then .NE else .SE)).height) →
      ∃ q, matchAnyShapeLine db d lines top i js ctx = .ok q := by
  intro js
  induction js with
  | nil => intro ctx _; exact ⟨_, rfl⟩
  | cons j r ih =>
    intro ctx h
    obtain ⟨q, hq⟩ := matchHorizLine_total hdb hd hin ctx top hi (h j (by simp))
    unfold matchAnyShapeLine
    simp only [hq, Res.ok_bind]
    split
    · exact ⟨_, rfl⟩
    · exact ih _ (fun x hx => h x (by simp [hx]))

theorem topLoop_total {db : CharDb} (hdb : Sane db) {d : Design} (hd : ReadyDesign db d) {lines : List Line} (hin : ReadyInput db lines) :
    ∀ n k ctx, ∃ q, topLoop db d lines n k ctx = .ok q := by
  intro n
  induction n with
  | zero => intro k ctx; exact ⟨_, rfl⟩
  | succ n ih =>
    intro k ctx
    unfold topLoop
    split
    · rename_i hlt
      obtain ⟨q, hq⟩ := matchAnyShapeLine_total hdb hd hin true hlt (topOrder (d.shape NE).height (k % (d.shape NE).height)) ctx
        (fun j hj => (mem_topOrder _ _ _).1 hj)
      simp only [hq, Res.ok_bind]
      split
      · exact ih _ _
      · exact ⟨_, rfl⟩
    · exact ⟨_, rfl⟩

theorem bottomLoop_total {db : CharDb} (hdb : Sane db) {d : Design} (hd : ReadyDesign db d) {lines : List Line} (hin : ReadyInput db lines) :
    ∀ n k (ctx : RemoveCtx), ctx.bottomEnd ≤ lines.length → ∃ q, bottomLoop db d lines n k ctx = .ok q := by
  intro n
  induction n with
  | zero => intro k ctx _; exact ⟨_, rfl⟩
  | succ n ih =>
    intro k ctx hb
    unfold bottomLoop
    split
    · rename_i hlt
      obtain ⟨⟨m, ctx'⟩, hq⟩ := matchAnyShapeLine_total hdb hd hin false (i := ctx.bottomEnd - 1 - k) (by omega)
        (bottomOrder (d.shape SE).height ((d.shape SE).height - (k + 1))) ctx
        (fun j hj => (mem_bottomOrder _ _ _).1 hj)
      have hs := (matchAnyShapeLine_iff _ _ _ _ _ _ _ _ _ hq).2
      simp only [hq, Res.ok_bind]
      split
      · exact ih _ _ (by rw [hs]; exact hb)
      · exact ⟨_, rfl⟩
    · exact ⟨_, rfl⟩

theorem compShapeLines_total {db : CharDb} (hdb : Sane db) {d : Design} (hd : ReadyDesign db d) (c : CompType) {n : ShapeName}
    (hp : Present (d.shape n)) : ∀ m i, i + m ≤ (d.shape n).height → ∃ sls, compShapeLines db d c n m i = .ok sls := by
  intro m
  induction m with
  | zero => intro i _; exact ⟨_, rfl⟩
  | succ m ih =>
    intro i hi
    obtain ⟨b, hb, hr⟩ := readyLine_at hd hp (k := i) (by omega)
    obtain ⟨t, b', g1, g2, -⟩ := compShape_ready hdb c false hb (by omega) hr
    obtain ⟨more, hm⟩ := ih (i + 1) (by omega)
    unfold compShapeLines
    exact ⟨_, by simp only [g1, g2, hm, Res.ok_bind, Res.get_some]; rfl⟩

theorem compShapesVert_total {db : CharDb} (hdb : Sane db) {d : Design} (hd : ReadyDesign db d) (c : CompType) :
    ∀ ns, ∃ sls, compShapesVert db d c ns = .ok sls := by
  intro ns
  induction ns with
  | nil => exact ⟨_, rfl⟩
  | cons n r ih =>
    obtain ⟨more, hm⟩ := ih
    unfold compShapesVert
    split
    · exact ⟨_, hm⟩
    · rename_i he
      obtain ⟨ls, hl⟩ := compShapeLines_total hdb hd c ((isEmpty_iff _).1 (by simpa using he)) (d.shape n).height 0 (by omega)
      exact ⟨_, by simp only [hl, hm, Res.ok_bind]; rfl⟩

theorem vertLines_total {db : CharDb} {lines : List Line} (hin : ReadyInput db lines) (ctx : RemoveCtx) (c : CompType)
    (west east : List ShapeLine) : ∀ n i, i + n ≤ lines.length → ∃ body, vertLines db lines ctx c west east n i = .ok body := by
  intro n
  induction n with
  | zero => intro i _; exact ⟨_, rfl⟩
  | succ n ih =>
    intro i hi
    have hlt : i < lines.length := by omega
    obtain ⟨b, v, h1, h2, h3, h4⟩ := hin _ (List.getElem_mem hlt)
    obtain ⟨t, g1, -⟩ := C25_input db lines i c false h3 h2 (List.getElem?_eq_getElem hlt) h1 h4
    obtain ⟨x, y, m1, -⟩ := C25_margins db c h3 h2 h4
    obtain ⟨more, hm⟩ := ih (i + 1) (by omega)
    unfold vertLines
    exact ⟨_, by simp only [g1, List.getElem?_eq_getElem hlt, h1, m1, hm, Res.ok_bind, Res.get_some]; rfl⟩

theorem vertRounds_total {db : CharDb} (hdb : Sane db) {d : Design} (hd : ReadyDesign db d) {lines : List Line} (hin : ReadyInput db lines)
    (ctx : RemoveCtx) (hb : ctx.bottomStart ≤ lines.length) :
    ∀ cs cur body, ctx.topEnd ≤ ctx.bottomStart → ∃ q, vertRounds db d lines ctx cs cur body = .ok q := by
  intro cs
  induction cs with
  | nil => intro cur body _; exact ⟨_, rfl⟩
  | cons c r ih =>
    intro cur body ht
    unfold vertRounds
    split
    · exact ih _ _ ht
    · have hw : ∃ west, (if ctx.emptySide.left = true then (.ok [] : Res (List ShapeLine)) else prepareCompShapesVert db d true c) = .ok west := by
        split
        · exact ⟨_, rfl⟩
        · exact compShapesVert_total hdb hd c _
      have he : ∃ east, (if ctx.emptySide.right = true then (.ok [] : Res (List ShapeLine)) else prepareCompShapesVert db d false c) = .ok east := by
        split
        · exact ⟨_, rfl⟩
        · exact compShapesVert_total hdb hd c _
      obtain ⟨west, hw⟩ := hw
      obtain ⟨east, he⟩ := he
      obtain ⟨body', hbd⟩ := vertLines_total hin ctx c west east (ctx.bottomStart - ctx.topEnd) ctx.topEnd (by omega)
      simp only [hw, he, hbd, Res.ok_bind]
      split
      · exact ⟨_, rfl⟩
      · exact ih _ _ ht

theorem designIsMono_total {db : CharDb} {d : Design} (hd : ReadyDesign db d) : ∃ m, designIsMono d = .ok m := by
  have hsh : ∀ n, Present (d.shape n) → ∀ m i, i + m ≤ (d.shape n).height → ∃ x, shapeIsMono (d.shape n).lines m i = .ok x := by
    intro n hp m
    induction m with
    | zero => intro i _; exact ⟨_, rfl⟩
    | succ m ih =>
      intro i hi
      obtain ⟨b, hb, -⟩ := readyLine_at hd hp (k := i) (by omega)
      unfold shapeIsMono
      simp only [hb, Res.get_some, Res.ok_bind]
      split
      · exact ⟨_, rfl⟩
      · exact ih _ (by omega)
  unfold designIsMono
  generalize allShapes = ns
  induction ns with
  | nil => exact ⟨_, rfl⟩
  | cons n r ih =>
    unfold shapesAreMono
    split
    · exact ih
    · rename_i he
      obtain ⟨x, hx⟩ := hsh n ((isEmpty_iff _).1 (by simpa using he)) (d.shape n).height 0 (by omega)
      simp only [hx, Res.ok_bind]
      split
      · exact ih
      · exact ⟨_, rfl⟩

theorem inputIsMono_total {db : CharDb} : ∀ {lines : List Line}, ReadyInput db lines → ∃ m, inputIsMono lines = .ok m := by
  intro lines
  induction lines with
  | nil => intro _; exact ⟨_, rfl⟩
  | cons l r ih =>
    intro h
    obtain ⟨b, v, h1, -⟩ := h l (by simp)
    obtain ⟨m, hm⟩ := ih (fun x hx => h x (by simp [hx]))
    unfold inputIsMono
    simp only [h1, Res.get_some, Res.ok_bind]
    split
    · exact ⟨_, rfl⟩
    · exact ⟨_, hm⟩

end Boxes
