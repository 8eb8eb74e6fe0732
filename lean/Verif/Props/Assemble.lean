import Verif.Lemmas.Box

/-!
# Properties C13, C14: the assembled sides

`GoodDesign`: what the parser guarantees (Verif/Spec/Layout.lean).  `Fills` (C10, C12) says how often the shapes occur.
-/
namespace Boxes
open Spec ShapeName
set_option linter.unusedSimpArgs false

private theorem slots3 (size : Shape → Nat) (d : Design) (a b c : ShapeName) :
    slots size d [a, b, c] = [slotOf size (d.shape a), slotOf size (d.shape b), slotOf size (d.shape c)] := rfl

private theorem or_present {s : Shape} {i : Nat} (h : ¬ Present s → i = 0) : i = 0 ∨ Present s := by
  by_cases hp : Present s
  · exact .inr hp
  · exact .inl (h hp)

/-- C13: the top and the bottom side.  `i1 i2 i3` copies of NNW, N, NNE give the top side from left to right, `k1 k2 k3` copies
of SSW, S, SSE the bottom side from left to right; these counts are those of C10.  All lines of all copies are used, each line is
exactly as wide as the computed width, and nothing is written outside the buffers (the outcome is never `ub`). -/
theorem C13_top_bottom (db : CharDb) (d : Design) (hd : GoodDesign db d) (maxline fuel : Nat) {r : Res (Shape × Shape)}
    (hr : horizGenerate db d maxline fuel = some r) :
    ∃ (top bottom : Shape) (w i1 i2 i3 k1 k2 k3 : Nat), r = .ok (top, bottom) ∧
      (∀ p ∈ [(NNW, i1), (N, i2), (NNE, i3), (SSW, k1), (S, k2), (SSE, k3)], ¬ Present (d.shape p.1) → p.2 = 0) ∧
      Fills (slots (·.width) d [NNW, N, NNE]) [i1 * (d.shape NNW).width, i2 * (d.shape N).width, i3 * (d.shape NNE).width] ∧
      i1 * (d.shape NNW).width + i2 * (d.shape N).width + i3 * (d.shape NNE).width = w ∧
      Fills (slots (·.width) d [SSE, S, SSW]) [k3 * (d.shape SSE).width, k2 * (d.shape S).width, k1 * (d.shape SSW).width] ∧
      k1 * (d.shape SSW).width + k2 * (d.shape S).width + k3 * (d.shape SSE).width = w ∧
      maxline ≤ w ∧ d.minwidth ≤ w + ((d.shape NW).width + (d.shape NE).width) ∧
      (∀ n, Common (slots (·.width) d [NNW, N, NNE]) (slots (·.width) d [SSE, S, SSW])
        (max maxline (d.minwidth - ((d.shape NW).width + (d.shape NE).width))) n → w ≤ n) ∧
      top.width = w ∧ bottom.width = w ∧
      top.height = (d.shape NW).height ∧ top.lines.length = top.height ∧
      bottom.height = (d.shape SW).height ∧ bottom.lines.length = bottom.height ∧
      (∀ y, y < top.height → ∃ b v, top.lines[y]? = some b ∧ fromUnicode db b.memory = some b ∧ GoodLine db b v ∧ b.cols = w ∧
        b.memory = times i1 (lineText (d.shape NNW) y) ++ times i2 (lineText (d.shape N) y) ++
          times i3 (lineText (d.shape NNE) y)) ∧
      (∀ y, y < bottom.height → ∃ b v, bottom.lines[y]? = some b ∧ fromUnicode db b.memory = some b ∧ GoodLine db b v ∧
        b.cols = w ∧
        b.memory = times k1 (lineText (d.shape SSW) y) ++ times k2 (lineText (d.shape S) y) ++
          times k3 (lineText (d.shape SSE) y)) := by
  unfold horizGenerate at hr
  simp only [Option.map_eq_some_iff] at hr
  obtain ⟨q, hq, rfl⟩ := hr
  obtain ⟨top, bot, w, rfl, f1, s1, f2, s2, hm1, hm2, hmin⟩ := C10_widths d maxline fuel hd.top hd.bottom hd.minwidth hq
  rw [slots3] at f1 f2
  obtain ⟨i1, i2, i3, rfl, p1, p2, p3⟩ := fills_counts f1
  obtain ⟨k3, k2, k1, rfl, q3, q2, q1⟩ := fills_counts f2
  have hth : highest d.shape [NW, NNW, N, NNE, NE] = (d.shape NW).height := by
    apply highest_eq
    · intro n hn hp
      rcases List.mem_cons.1 hn with rfl | hn
      · rfl
      · exact hd.north n hn hp
    · exact ⟨NW, by simp, hd.corner NW (by simp)⟩
  have hbh : highest d.shape [SW, SSW, S, SSE, SE] = (d.shape SW).height := by
    apply highest_eq
    · intro n hn hp
      simp only [List.mem_cons, List.not_mem_nil, or_false] at hn
      rcases hn with rfl | rfl | rfl | rfl | rfl
      · rfl
      all_goals exact hd.south _ (by simp) hp
    · exact ⟨SW, by simp, hd.corner SW (by simp)⟩
  simp only [List.sum_cons, List.sum_nil] at s1 s2
  have gN : ∀ n ∈ [NNW, N, NNE, NE], Present (d.shape n) → GoodShape db (d.shape n) ∧ (d.shape n).height = (d.shape NW).height :=
    fun n hn hp => ⟨hd.shapes n hp, hd.north n hn hp⟩
  have gS : ∀ n ∈ [SSE, S, SSW, SE], Present (d.shape n) → GoodShape db (d.shape n) ∧ (d.shape n).height = (d.shape SW).height :=
    fun n hn hp => ⟨hd.shapes n hp, hd.south n hn hp⟩
  obtain ⟨tl, t1, t2, t3⟩ := vertAssemble_eq db w (d.shape NW).height (d.shape NNW) (d.shape N) (d.shape NNE) i1 i2 i3
    (or_present p1) (or_present p2) (or_present p3) (gN NNW (by simp)) (gN N (by simp)) (gN NNE (by simp)) (by omega)
  obtain ⟨bl, b1, b2, b3⟩ := vertAssemble_eq db w (d.shape SW).height (d.shape SSW) (d.shape S) (d.shape SSE) k1 k2 k3
    (or_present q1) (or_present q2) (or_present q3) (gS SSW (by simp)) (gS S (by simp)) (gS SSE (by simp)) (by omega)
  have z1 : (middle d northSide).zip [i1 * (d.shape NNW).width, i2 * (d.shape N).width, i3 * (d.shape NNE).width] =
    [(d.shape NNW, i1 * (d.shape NNW).width), (d.shape N, i2 * (d.shape N).width), (d.shape NNE, i3 * (d.shape NNE).width)] := rfl
  have z2 : ((middle d southSide).zip [k3 * (d.shape SSE).width, k2 * (d.shape S).width, k1 * (d.shape SSW).width]).reverse =
    [(d.shape SSW, k1 * (d.shape SSW).width), (d.shape S, k2 * (d.shape S).width), (d.shape SSE, k3 * (d.shape SSE).width)] := rfl
  refine ⟨{ lines := tl, width := w, height := (d.shape NW).height }, { lines := bl, width := w, height := (d.shape SW).height },
    w, i1, i2, i3, k1, k2, k3, ?_, by simpa using ⟨p1, p2, p3, q1, q2, q3⟩, by rw [slots3]; exact f1, by omega, by rw [slots3]; exact f2, by omega, hm1, hm2, hmin, rfl, rfl, rfl, t2, rfl,
    b2, t3, b3⟩
  simp only [Res.ok_bind, hth, hbh]
  rw [z1, t1, z2, b1]
  rfl

/-- C14: the left and the right side, with their corners.  From top to bottom, the left side consists of all lines of NW,
`i1 i2 i3` full copies of WNW, W, WSW, and all lines of SW; the right side of NE, `k1 k2 k3` copies of ENE, E, ESE, and SE.  The
counts are those of C12. -/
theorem C14_left_right (db : CharDb) (d : Design) (hd : GoodDesign db d) (numLines fuel : Nat) {r : Res (Shape × Shape)}
    (hr : vertGenerate d numLines fuel = some r) :
    ∃ (left right : Shape) (h i1 i2 i3 k1 k2 k3 : Nat), r = .ok (left, right) ∧
      (∀ p ∈ [(WNW, i1), (W, i2), (WSW, i3), (ENE, k1), (E, k2), (ESE, k3)], ¬ Present (d.shape p.1) → p.2 = 0) ∧
      Fills (slots (·.height) d [WSW, W, WNW]) [i3 * (d.shape WSW).height, i2 * (d.shape W).height, i1 * (d.shape WNW).height] ∧
      i1 * (d.shape WNW).height + i2 * (d.shape W).height + i3 * (d.shape WSW).height = h ∧
      Fills (slots (·.height) d [ENE, E, ESE]) [k1 * (d.shape ENE).height, k2 * (d.shape E).height, k3 * (d.shape ESE).height] ∧
      k1 * (d.shape ENE).height + k2 * (d.shape E).height + k3 * (d.shape ESE).height = h ∧
      numLines ≤ h ∧ d.minheight ≤ h + ((d.shape NW).height + (d.shape SW).height) ∧
      (∀ n, Common (slots (·.height) d [WSW, W, WNW]) (slots (·.height) d [ENE, E, ESE])
        (max numLines (d.minheight - ((d.shape NW).height + (d.shape SW).height))) n → h ≤ n) ∧
      left.width = (d.shape NW).width ∧ right.width = (d.shape NE).width ∧
      left.height = (d.shape NW).height + h + (d.shape SW).height ∧ right.height = left.height ∧
      left.lines = (d.shape NW).lines ++ (times i1 (d.shape WNW).lines ++ times i2 (d.shape W).lines ++
        times i3 (d.shape WSW).lines) ++ (d.shape SW).lines ∧
      right.lines = (d.shape NE).lines ++ (times k1 (d.shape ENE).lines ++ times k2 (d.shape E).lines ++
        times k3 (d.shape ESE).lines) ++ (d.shape SE).lines ∧
      left.lines.length = left.height ∧ right.lines.length = right.height ∧
      (∀ b ∈ left.lines, (∃ v, GoodLine db b v) ∧ b.cols = left.width) ∧
      (∀ b ∈ right.lines, (∃ v, GoodLine db b v) ∧ b.cols = right.width) := by
  unfold vertGenerate at hr
  simp only [Option.map_eq_some_iff] at hr
  obtain ⟨q, hq, rfl⟩ := hr
  obtain ⟨lft, rgt, h, rfl, f1, s1, f2, s2, hm1, hm2, hmin⟩ := C12_heights d numLines fuel hd.left hd.right hd.minheight hq
  rw [slots3] at f1 f2
  obtain ⟨i3, i2, i1, rfl, p3, p2, p1⟩ := fills_counts f1
  obtain ⟨k1, k2, k3, rfl, q1, q2, q3⟩ := fills_counts f2
  simp only [List.sum_cons, List.sum_nil] at s1 s2
  have hlw : widest d.shape [SW, WSW, W, WNW, NW] = (d.shape NW).width := by
    apply widest_eq
    · intro n hn hp
      simp only [List.mem_cons, List.not_mem_nil, or_false] at hn
      rcases hn with rfl | rfl | rfl | rfl | rfl
      · exact hd.west _ (by simp) hp
      · exact hd.west _ (by simp) hp
      · exact hd.west _ (by simp) hp
      · exact hd.west _ (by simp) hp
      · rfl
    · exact ⟨NW, by simp, hd.corner NW (by simp)⟩
  have hrw : widest d.shape [SE, ESE, E, ENE, NE] = (d.shape NE).width := by
    apply widest_eq
    · intro n hn hp
      simp only [List.mem_cons, List.not_mem_nil, or_false] at hn
      rcases hn with rfl | rfl | rfl | rfl | rfl
      · exact hd.east _ (by simp) hp
      · exact hd.east _ (by simp) hp
      · exact hd.east _ (by simp) hp
      · exact hd.east _ (by simp) hp
      · rfl
    · exact ⟨NE, by simp, hd.corner NE (by simp)⟩
  have hNE : (d.shape NE).height = (d.shape NW).height := hd.north NE (by simp) (hd.corner NE (by simp))
  have hSE : (d.shape SE).height = (d.shape SW).height := hd.south SE (by simp) (hd.corner SE (by simp))
  have g : ∀ n, Present (d.shape n) → (d.shape n).lines.length = (d.shape n).height := fun n hp => (hd.shapes n hp).height
  have a1 := horizAssemble_eq (d.shape NW) (d.shape SW) (d.shape WNW) (d.shape W) (d.shape WSW) i1 i2 i3 h
    (or_present p1) (or_present p2) (or_present p3) (g _) (g _) (g _) (g _ (hd.corner NW (by simp)))
    (g _ (hd.corner SW (by simp))) (by omega)
  have a2 := horizAssemble_eq (d.shape NE) (d.shape SE) (d.shape ENE) (d.shape E) (d.shape ESE) k1 k2 k3 h
    (or_present q1) (or_present q2) (or_present q3) (g _) (g _) (g _) (g _ (hd.corner NE (by simp)))
    (g _ (hd.corner SE (by simp))) (by omega)
  have len : ∀ n i, (¬ Present (d.shape n) → i = 0) → (times i (d.shape n).lines).length = i * (d.shape n).height := by
    intro n i hi
    by_cases hp : Present (d.shape n)
    · simp [times, g n hp]
    · simp [times, hi hp]
  have mem : ∀ n i b, (¬ Present (d.shape n) → i = 0) → b ∈ times i (d.shape n).lines →
      Present (d.shape n) ∧ b ∈ (d.shape n).lines := by
    intro n i b hi hb
    simp only [times, List.mem_flatten, List.mem_replicate] at hb
    obtain ⟨l, ⟨h0, rfl⟩, hb⟩ := hb
    exact ⟨Classical.byContradiction fun hp => h0 (hi hp), hb⟩
  have wide : ∀ n m b, Present (d.shape n) → b ∈ (d.shape n).lines → (d.shape n).width = m →
      (∃ v, GoodLine db b v) ∧ b.cols = m := by
    intro n m b hp hb hw
    obtain ⟨h1, h2⟩ := (hd.shapes n hp).lines b hb
    exact ⟨h1, h2.trans hw⟩
  refine ⟨{ lines := _, width := (d.shape NW).width, height := (d.shape NW).height + h + (d.shape SW).height },
    { lines := _, width := (d.shape NE).width, height := (d.shape NW).height + h + (d.shape SW).height },
    h, i1, i2, i3, k1, k2, k3, ?_, by simpa using ⟨p1, p2, p3, q1, q2, q3⟩, by rw [slots3]; exact f1, by omega, by rw [slots3]; exact f2, by omega, hm1, hm2, hmin, rfl, rfl, rfl,
    rfl, rfl, rfl, ?_, ?_, ?_, ?_⟩
  · have z1 : ((middle d westSide).zip [i3 * (d.shape WSW).height, i2 * (d.shape W).height, i1 * (d.shape WNW).height]).reverse =
      [(d.shape WNW, i1 * (d.shape WNW).height), (d.shape W, i2 * (d.shape W).height), (d.shape WSW, i3 * (d.shape WSW).height)] := rfl
    have z2 : (middle d eastSide).zip [k1 * (d.shape ENE).height, k2 * (d.shape E).height, k3 * (d.shape ESE).height] =
      [(d.shape ENE, k1 * (d.shape ENE).height), (d.shape E, k2 * (d.shape E).height), (d.shape ESE, k3 * (d.shape ESE).height)] := rfl
    simp only [Res.ok_bind]
    rw [z1, a1, z2, a2]
    simp only [Res.ok_bind, hlw, hrw, hNE, hSE]
    rw [show h + (d.shape NW).height + (d.shape SW).height = (d.shape NW).height + h + (d.shape SW).height by omega]
  · simp only [List.length_append, len _ _ p1, len _ _ p2, len _ _ p3, g _ (hd.corner NW (by simp)),
      g _ (hd.corner SW (by simp))]
    omega
  · simp only [List.length_append, len _ _ q1, len _ _ q2, len _ _ q3, g _ (hd.corner NE (by simp)),
      g _ (hd.corner SE (by simp))]
    omega
  · intro b hb
    simp only [List.mem_append] at hb
    rcases hb with (hb | (hb | hb) | hb) | hb
    · exact wide NW _ b (hd.corner NW (by simp)) hb rfl
    · obtain ⟨h1, h2⟩ := mem _ _ _ p1 hb; exact wide _ _ b h1 h2 (hd.west _ (by simp) h1)
    · obtain ⟨h1, h2⟩ := mem _ _ _ p2 hb; exact wide _ _ b h1 h2 (hd.west _ (by simp) h1)
    · obtain ⟨h1, h2⟩ := mem _ _ _ p3 hb; exact wide _ _ b h1 h2 (hd.west _ (by simp) h1)
    · exact wide SW _ b (hd.corner SW (by simp)) hb (hd.west _ (by simp) (hd.corner SW (by simp)))
  · intro b hb
    simp only [List.mem_append] at hb
    rcases hb with (hb | (hb | hb) | hb) | hb
    · exact wide NE _ b (hd.corner NE (by simp)) hb rfl
    · obtain ⟨h1, h2⟩ := mem _ _ _ q1 hb; exact wide _ _ b h1 h2 (hd.east _ (by simp) h1)
    · obtain ⟨h1, h2⟩ := mem _ _ _ q2 hb; exact wide _ _ b h1 h2 (hd.east _ (by simp) h1)
    · obtain ⟨h1, h2⟩ := mem _ _ _ q3 hb; exact wide _ _ b h1 h2 (hd.east _ (by simp) h1)
    · exact wide SE _ b (hd.corner SE (by simp)) hb (hd.east _ (by simp) (hd.corner SE (by simp)))

example : GoodDesign sampleDb sampleDesign := sampleDesign_good
example : ((horizGenerate sampleDb sampleDesign 7 20).map (fun (r : Res (Shape × Shape)) => do
    let (t, b) ← (r : Res (Shape × Shape))
    .ok (t.lines.map Bxs.memory, b.lines.map Bxs.memory))) =
    some (.ok ([lit "-=-=<>=-"], [lit "########"])) := by decide
example : ((vertGenerate sampleDesign 3 20).map (fun (r : Res (Shape × Shape)) => do
    let (t, b) ← (r : Res (Shape × Shape))
    .ok (t.lines.map Bxs.memory, b.lines.map Bxs.memory))) =
    some (.ok ([lit "..", lit "O|", lit "||", lit "||", lit "||", lit "`'"],
      [lit ".", lit ")", lit "(", lit ")", lit "(", lit "'"])) := by decide

end Boxes
