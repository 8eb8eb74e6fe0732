import Verif.Lemmas.Assemble
import Verif.Props.Text
import Verif.Props.Precalc

/-!
# Lemmas about `generate_box`
-/
namespace Boxes
open Spec ShapeName
set_option linter.unusedSimpArgs false

/-! ## analysed lines -/

theorem goodLine_of {db : CharDb} {s v : Str} {b : Bxs} (h : Text s v) (hb : fromUnicode db s = some b) :
    GoodLine db b v ∧ b.memory = s := by
  obtain ⟨m1, m2, -, -, m5, -, -⟩ := C01_metrics db h hb
  refine ⟨⟨m1 ▸ h, ?_, by rw [m2, m1], m5, C01_ascii db h hb⟩, m1⟩
  intro c hc hf
  rw [(C01_rejected_iff db h).2 ⟨c, hc, hf⟩] at hb
  simp at hb

theorem analyse {db : CharDb} {s v : Str} (h : Text s v) (ha : ∀ c ∈ v, ¬ Forbidden db c) :
    ∃ b, fromUnicode db s = some b ∧ GoodLine db b v ∧ b.memory = s := by
  cases hb : fromUnicode db s with
  | none =>
    obtain ⟨c, hc, hf⟩ := (C01_rejected_iff db h).1 hb
    exact absurd hf (ha c hc)
  | some b => exact ⟨b, rfl, goodLine_of h hb⟩

/-! ## counts -/

theorem fills_counts {size : Shape → Nat} {x y z : Shape} {f : List Nat}
    (h : Fills [slotOf size x, slotOf size y, slotOf size z] f) :
    ∃ i j k, f = [i * size x, j * size y, k * size z] ∧ (¬ Present x → i = 0) ∧ (¬ Present y → j = 0) ∧ (¬ Present z → k = 0) := by
  have key : ∀ (s : Shape) n, Occurs (slotOf size s) n → n * (slotOf size s).size = n * size s ∧ (¬ Present s → n = 0) := by
    intro s n hn
    unfold slotOf at hn ⊢
    split
    · rename_i hp; exact ⟨rfl, fun h => absurd hp h⟩
    · rename_i hp
      rw [if_neg hp] at hn
      simp [Occurs] at hn
      subst hn
      simp
  have pres : ∀ (s : Shape) m e, slotOf size s = some (m, e) → Present s ∧ size s = m := by
    intro s m e hs
    unfold slotOf at hs
    split at hs
    · simp at hs; rename_i hp; exact ⟨hp, hs.1⟩
    · simp at hs
  generalize e1 : slotOf size x = a at h
  generalize e2 : slotOf size y = b at h
  generalize e3 : slotOf size z = c at h
  cases h with
  | one _ _ _ i j k _ o1 o2 o3 =>
    subst e1 e2 e3
    obtain ⟨a1, a2⟩ := key x i o1
    obtain ⟨b1, b2⟩ := key y j o2
    obtain ⟨c1, c2⟩ := key z k o3
    exact ⟨i, j, k, by rw [a1, b1, c1], a2, b2, c2⟩
  | two l m n i k _ _ =>
    obtain ⟨p1, p2⟩ := pres x _ _ e1
    obtain ⟨q1, q2⟩ := pres y _ _ e2
    obtain ⟨r1, r2⟩ := pres z _ _ e3
    exact ⟨i, 1, k, by simp [p2, q2, r2], fun h => absurd p1 h, fun h => absurd q1 h, fun h => absurd r1 h⟩

/-! ## extents of the sides -/

private theorem foldl_max (f : ShapeName → Nat) (e : ShapeName → Bool) (h : Nat) :
    ∀ (l : List ShapeName) (m : Nat), m ≤ h → (∀ n ∈ l, e n = false → f n = h) → (m = h ∨ ∃ n ∈ l, e n = false) →
    l.foldl (fun m r => if e r then m else if f r > m then f r else m) m = h
  | [], m, _, _, h3 => by rcases h3 with h3 | ⟨n, hn, _⟩ <;> simp_all
  | n :: l, m, h1, h2, h3 => by
    rw [List.foldl_cons]
    cases he : e n with
    | true =>
      simp only [if_true]
      refine foldl_max f e h l m h1 (fun n hn => h2 n (by simp [hn])) ?_
      rcases h3 with h3 | ⟨k, hk, hke⟩
      · exact .inl h3
      · rcases List.mem_cons.1 hk with rfl | hk
        · rw [he] at hke; simp at hke
        · exact .inr ⟨k, hk, hke⟩
    | false =>
      have hf := h2 n (by simp) he
      simp only [Bool.false_eq_true, if_false]
      refine foldl_max f e h l _ (by split <;> omega) (fun n hn => h2 n (by simp [hn])) (.inl ?_)
      split <;> omega

theorem highest_eq {sarr : ShapeName → Shape} {l : List ShapeName} {h : Nat}
    (h1 : ∀ n ∈ l, Present (sarr n) → (sarr n).height = h) (h2 : ∃ n ∈ l, Present (sarr n)) : highest sarr l = h := by
  obtain ⟨n, hn, hp⟩ := h2
  refine foldl_max (fun n => (sarr n).height) (fun n => (sarr n).isEmpty) h l 0 (by omega) ?_
    (.inr ⟨n, hn, (present_iff _).2 hp⟩)
  intro k hk he
  exact h1 k hk ((present_iff _).1 he)

theorem widest_eq {sarr : ShapeName → Shape} {l : List ShapeName} {h : Nat}
    (h1 : ∀ n ∈ l, Present (sarr n) → (sarr n).width = h) (h2 : ∃ n ∈ l, Present (sarr n)) : widest sarr l = h := by
  obtain ⟨n, hn, hp⟩ := h2
  refine foldl_max (fun n => (sarr n).width) (fun n => (sarr n).isEmpty) h l 0 (by omega) ?_
    (.inr ⟨n, hn, (present_iff _).2 hp⟩)
  intro k hk he
  exact h1 k hk ((present_iff _).1 he)

/-! ## a horizontal side -/

theorem texts_times {db : CharDb} {s v : Str} (h : Text s v) (ha : ∀ c ∈ v, ¬ Forbidden db c) :
    ∀ n, Text (times n s) (times n v) ∧ (∀ c ∈ times n v, ¬ Forbidden db c) ∧ columns db (times n v) = n * columns db v
  | 0 => by simp [times, columns]; exact Text.nil
  | n + 1 => by
    obtain ⟨h1, h2, h3⟩ := texts_times h ha n
    have e : ∀ l : Str, times (n + 1) l = l ++ times n l := fun l => by simp [times, List.replicate_succ]
    rw [e, e, columns_append, h3, Nat.add_mul]
    refine ⟨h.append h1, ?_, by omega⟩
    intro c hc
    rcases List.mem_append.1 hc with hc | hc
    · exact ha c hc
    · exact h2 c hc

/-- `vert_assemble` for three shapes with their counts, from west to east -/
theorem vertAssemble_eq (db : CharDb) (w h : Nat) (x y z : Shape) (i j k : Nat)
    (hx : i = 0 ∨ Present x) (hy : j = 0 ∨ Present y) (hz : k = 0 ∨ Present z)
    (gx : Present x → GoodShape db x ∧ x.height = h) (gy : Present y → GoodShape db y ∧ y.height = h)
    (gz : Present z → GoodShape db z ∧ z.height = h)
    (hw : i * x.width + j * y.width + k * z.width = w) :
    ∃ ls, vertAssemble db w h [(x, i * x.width), (y, j * y.width), (z, k * z.width)] = .ok ls ∧ ls.length = h ∧
      ∀ r, r < h → ∃ b v, ls[r]? = some b ∧ fromUnicode db b.memory = some b ∧ GoodLine db b v ∧ b.cols = w ∧
        b.memory = times i (lineText x r) ++ times j (lineText y r) ++ times k (lineText z r) := by
  have hseq : shapeSeq w w 0 [(x, i * x.width), (y, j * y.width), (z, k * z.width)] =
      .ok (List.replicate i x ++ (List.replicate j y ++ List.replicate k z)) := by
    have := shapeSeq_eq w [(x, i), (y, j), (z, k)] w 0 (by
      intro p hp
      simp only [List.mem_cons, List.not_mem_nil, or_false] at hp
      rcases hp with rfl | rfl | rfl
      · exact hx.imp id (fun h => h.2.1)
      · exact hy.imp id (fun h => h.2.1)
      · exact hz.imp id (fun h => h.2.1)) (by simp; omega) (by omega)
    simpa using this
  have hmem : ∀ s ∈ List.replicate i x ++ (List.replicate j y ++ List.replicate k z), GoodShape db s ∧ s.height = h := by
    intro s hs
    simp only [List.mem_append, List.mem_replicate] at hs
    rcases hs with ⟨h0, rfl⟩ | ⟨h0, rfl⟩ | ⟨h0, rfl⟩
    · exact gx (hx.resolve_left h0)
    · exact gy (hy.resolve_left h0)
    · exact gz (hz.resolve_left h0)
  have hlen : ∀ r ∈ List.range h, ∀ s ∈ List.replicate i x ++ (List.replicate j y ++ List.replicate k z),
      r < s.lines.length := by
    intro r hr s hs
    obtain ⟨g1, g2⟩ := hmem s hs
    rw [g1.height, g2]; simpa using hr
  -- what the lines look like
  have hflat : ∀ (r : Nat) (f : Bxs → Str), f emptyBxs = [] →
      ((List.replicate i x ++ (List.replicate j y ++ List.replicate k z)).map (fun s => f (lineAt r s))).flatten =
      times i (f (lineAt r x)) ++ times j (f (lineAt r y)) ++ times k (f (lineAt r z)) := by
    intro r f _
    simp [times, List.map_replicate]
  have one : ∀ (s : Shape) (n : Nat), (n = 0 ∨ Present s) → (Present s → GoodShape db s ∧ s.height = h) → ∀ r, r < h →
      ∃ v, Text (times n (lineAt r s).memory) v ∧ (∀ c ∈ v, ¬ Forbidden db c) ∧ columns db v = n * s.width ∧
        (times n (lineAt r s).ascii).length = n * s.width := by
    intro s n hn hg r hr
    rcases hn with rfl | hp
    · exact ⟨[], by simp [times]; exact Text.nil, by simp, by simp [columns], by simp [times]⟩
    · obtain ⟨g1, g2⟩ := hg hp
      have hlt : r < s.lines.length := by rw [g1.height, g2]; exact hr
      have hla : lineAt r s = s.lines[r] := by simp [lineAt, List.getElem?_eq_getElem hlt]
      obtain ⟨⟨v, hv⟩, hc⟩ := g1.lines s.lines[r] (List.getElem_mem hlt)
      rw [hla]
      obtain ⟨t1, t2, t3⟩ := texts_times hv.text hv.allowed n
      refine ⟨times n v, t1, t2, by rw [t3, ← hv.cols, hc], ?_⟩
      simp [times, hv.ascii, asciiForm_length, ← hv.cols, hc]
  have line : ∀ r, r < h → ∃ b v, fromUnicode db
      ((List.replicate i x ++ (List.replicate j y ++ List.replicate k z)).map (fun s => (lineAt r s).memory)).flatten = some b ∧
      fromUnicode db b.memory = some b ∧ GoodLine db b v ∧ b.cols = w ∧
      b.memory = times i (lineAt r x).memory ++ times j (lineAt r y).memory ++ times k (lineAt r z).memory ∧
      ((List.replicate i x ++ (List.replicate j y ++ List.replicate k z)).map (fun s => (lineAt r s).ascii)).flatten.length = w := by
    intro r hr
    rw [hflat r (·.memory) rfl, hflat r (·.ascii) rfl]
    obtain ⟨v1, a1, a2, a3, a4⟩ := one x i hx gx r hr
    obtain ⟨v2, b1, b2, b3, b4⟩ := one y j hy gy r hr
    obtain ⟨v3, c1, c2, c3, c4⟩ := one z k hz gz r hr
    have hall : ∀ c ∈ v1 ++ v2 ++ v3, ¬ Forbidden db c := by
      intro c hc
      simp only [List.mem_append] at hc
      rcases hc with (hc | hc) | hc
      · exact a2 c hc
      · exact b2 c hc
      · exact c2 c hc
    obtain ⟨b, hb, hg, hm⟩ := analyse ((a1.append b1).append c1) hall
    refine ⟨b, _, hb, hm ▸ hb, hg, ?_, hm, ?_⟩
    · rw [hg.cols, columns_append, columns_append, a3, b3, c3, hw]
    · rw [List.length_append, List.length_append, a4, b4, c4, hw]
  obtain ⟨mc, hmc, hmc2⟩ := charsRequired_le (List.replicate i x ++ (List.replicate j y ++ List.replicate k z)) (List.range h) hlen
  have hmem2 : ∀ r ∈ List.range h, ((List.replicate i x ++ (List.replicate j y ++ List.replicate k z)).map
      (fun s => (lineAt r s).memory)).flatten.length ≤ mc := by
    intro r hr
    refine Nat.le_trans (Nat.le_of_eq ?_) (hmc2 r hr)
    rw [List.length_flatten, List.map_map]
    congr 1
    apply List.map_congr_left
    intro s hs
    obtain ⟨g1, g2⟩ := hmem s hs
    have hlt := hlen r hr s hs
    have hla : lineAt r s = s.lines[r] := by simp [lineAt, List.getElem?_eq_getElem hlt]
    obtain ⟨⟨v, hv⟩, hc⟩ := g1.lines s.lines[r] (List.getElem_mem hlt)
    simp only [Function.comp_apply, hla, hv.chars]
  obtain ⟨ls, l1, l2, l3⟩ := assembleLines_eq db _ mc w (List.range h) hlen hmem2
    (fun r hr => by obtain ⟨_, _, _, _, _, _, _, hl⟩ := line r (by simpa using hr); omega)
    (fun r hr => by obtain ⟨b, _, hl, _⟩ := line r (by simpa using hr); exact ⟨b, hl⟩)
  refine ⟨ls, ?_, by simpa using l2, ?_⟩
  · unfold vertAssemble
    rw [hseq]
    simp only [Res.ok_bind]
    rw [hmc]
    simp only [Res.ok_bind]
    exact l1
  · intro r hr
    obtain ⟨b, hb1, hb2⟩ := l3 r r (by simp [List.getElem?_range, hr])
    obtain ⟨b', v, p1, p2, p3, p4, p5, -⟩ := line r hr
    rw [p1] at hb2
    injection hb2 with hb2
    subst hb2
    have hlt : ∀ s : Shape, lineText s r = (lineAt r s).memory := by
      intro s; unfold lineText lineAt; cases s.lines[r]? <;> rfl
    refine ⟨b', v, hb1, p2, p3, p4, ?_⟩
    rw [p5, hlt, hlt, hlt]

/-- `horiz_assemble` for a corner, three shapes with their counts from top to bottom, and a corner -/
theorem horizAssemble_eq (c1 c2 x y z : Shape) (i j k h : Nat)
    (hx : i = 0 ∨ Present x) (hy : j = 0 ∨ Present y) (hz : k = 0 ∨ Present z)
    (gx : Present x → x.lines.length = x.height) (gy : Present y → y.lines.length = y.height)
    (gz : Present z → z.lines.length = z.height) (g1 : c1.lines.length = c1.height) (g2 : c2.lines.length = c2.height)
    (hh : i * x.height + j * y.height + k * z.height = h) :
    horizAssemble (h + c1.height + c2.height) c1 c2 [(x, i * x.height), (y, j * y.height), (z, k * z.height)] =
      .ok (c1.lines ++ (times i x.lines ++ times j y.lines ++ times k z.lines) ++ c2.lines) := by
  have hmid := sideLines_eq [(x, i), (y, j), (z, k)] (by
    intro p hp
    simp only [List.mem_cons, List.not_mem_nil, or_false] at hp
    rcases hp with rfl | rfl | rfl
    · exact hx.imp id (fun h => ⟨h.2.2, gx h⟩)
    · exact hy.imp id (fun h => ⟨h.2.2, gy h⟩)
    · exact hz.imp id (fun h => ⟨h.2.2, gz h⟩))
  simp only [List.map_cons, List.map_nil, List.sum_cons, List.sum_nil, List.flatMap_cons, List.flatMap_nil] at hmid
  rw [show i * x.height + (j * y.height + (k * z.height + 0)) = h by omega] at hmid
  unfold horizAssemble firstLines
  rw [if_pos (by omega), if_pos (by omega)]
  simp only [Res.ok_bind]
  rw [Res.sub_ok (by omega)]
  simp only [Res.ok_bind]
  rw [Res.sub_ok (by omega)]
  simp only [Res.ok_bind]
  rw [show h + c1.height + c2.height - c2.height - c1.height = h by omega, hmid]
  simp [times, List.take_of_length_le, g1, g2]

/-! ## The sample design -/

theorem goodLine_ascii {db : CharDb} {s : Str} (h : ∀ c ∈ s, 0x20 ≤ c ∧ c < 0x7f) (hc : ∀ c ∈ s, db.cntrl c = false) :
    GoodLine db (fromAscii s) s where
  text := Spec.Text.plain (fun c hc => by have := h c hc; omega)
  allowed := fun c hcs hf => by have := hf.1; rw [hc c hcs] at this; exact absurd this (by decide)
  chars := rfl
  cols := by
    show s.length = _
    clear hc
    induction s with
    | nil => rfl
    | cons c s ih =>
      have h1 := h c (by simp)
      have h2 := ih (fun c hc => h c (by simp [hc]))
      simp only [columns, List.map_cons, List.sum_cons, List.length_cons] at h2 ⊢
      rw [← h2]
      simp only [Spec.width]
      rw [if_pos (by omega)]
      omega
  ascii := by
    show s = _
    clear hc
    induction s with
    | nil => rfl
    | cons c s ih =>
      have h2 := ih (fun c hc => h c (by simp [hc]))
      simp only [asciiForm, List.flatMap_cons] at h2 ⊢
      rw [← h2, if_pos (h c (by simp))]
      rfl

/-- shapes written in ASCII, all lines of the same length -/
theorem goodShape_mk {db : CharDb} (name : ShapeName) (lines : List String) (e : Bool) 
    (h : ∀ l ∈ lines, ∀ c ∈ lit l, 0x20 ≤ c ∧ c < 0x7f ∧ db.cntrl c = false)
    (hw : ∀ l ∈ lines, (lit l).length = (mkShape name lines e).width) : GoodShape db (mkShape name lines e) where
  height := rfl
  lines := by
    intro b hb
    simp only [mkShape, List.mem_map] at hb
    obtain ⟨l, hl, rfl⟩ := hb
    exact ⟨⟨_, goodLine_ascii (fun c hc => ⟨(h l hl c hc).1, (h l hl c hc).2.1⟩) (fun c hc => (h l hl c hc).2.2)⟩, hw l hl⟩

theorem sampleDesign_good : GoodDesign sampleDb sampleDesign where
  shapes := by
    intro n hn
    have hp : ∀ c, 0x20 ≤ c → c < 0x7f → sampleDb.cntrl c = false := by
      intro c h1 h2
      simp [sampleDb]; omega
    cases n
    all_goals first
      | exact absurd hn (by decide)
      | exact goodShape_mk _ _ _ (by decide) (by decide)
  corner := by decide
  north := by decide
  south := by decide
  west := by decide
  east := by decide
  top := .outer 2 2 2 (by decide) (by decide) (by decide)
  bottom := .mid none 1 none (by decide) (by decide) (by decide) (by decide)
  left := .mid none 1 (some (1, false)) (by decide) (by decide) (by decide) (by decide)
  right := .mid none 2 none (by decide) (by decide) (by decide) (by decide)
  minwidth := by decide
  minheight := by decide

end Boxes
