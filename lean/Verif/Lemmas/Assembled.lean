import Verif.Spec.RoundTrip
import Verif.Props.Assemble
import Verif.Props.Output

/-!
# Lemmas: the rows of the assembled sides
-/
namespace Boxes
open Spec ShapeName
set_option linter.unusedSimpArgs false

private theorem occurs_in {size : Shape → Nat} {s : Shape} (hs : Present s → 0 < size s) {i i' : Nat} (h0 : ¬ Present s → i = 0)
    (he : i' * (slotOf size s).size = i * size s) (ho : Occurs (slotOf size s) i') : OccursIn s i := by
  unfold slotOf at he ho
  by_cases hp : Present s
  · rw [if_pos hp] at he ho
    have hi : i' = i := Nat.eq_of_mul_eq_mul_right (hs hp) he
    subst hi
    refine ⟨fun h => absurd hp h, fun _ => ?_, fun h => ?_⟩
    · cases hel : s.elastic <;> rw [hel] at ho <;> simp only [Occurs] at ho <;> omega
    · cases hel : s.elastic with
      | true => rfl
      | false => rw [hel] at ho; simp only [Occurs] at ho; omega
  · exact ⟨h0, fun h => absurd h hp, fun h => by have := h0 hp; omega⟩

/-- how often the shapes of a side occur, if there is room for each of them once -/
theorem fills_occurs {size : Shape → Nat} {x y z : Shape} (hs : ∀ s ∈ [x, y, z], Present s → 0 < size s) {i j k : Nat}
    (h : Fills [slotOf size x, slotOf size y, slotOf size z] [i * size x, j * size y, k * size z])
    (hx : ¬ Present x → i = 0) (hy : ¬ Present y → j = 0) (hz : ¬ Present z → k = 0)
    (hroom : x.elastic = true → z.elastic = true → size x + size y + size z ≤ i * size x + j * size y + k * size z) :
    OccursIn x i ∧ OccursIn y j ∧ OccursIn z k := by
  generalize e1 : slotOf size x = a at h
  generalize e2 : slotOf size y = b at h
  generalize e3 : slotOf size z = c at h
  generalize ef : [i * size x, j * size y, k * size z] = f at h
  cases h with
  | one _ _ _ i' j' k' _ o1 o2 o3 =>
    simp only [List.cons.injEq, and_true] at ef
    subst e1 e2 e3
    exact ⟨occurs_in (hs x (by simp)) hx ef.1.symm o1, occurs_in (hs y (by simp)) hy ef.2.1.symm o2, occurs_in (hs z (by simp)) hz ef.2.2.symm o3⟩
  | two l m n i' k' h1 h2 =>
    have pres : ∀ (s : Shape) m e, slotOf size s = some (m, e) → Present s ∧ size s = m ∧ s.elastic = e := by
      intro s m e hs
      unfold slotOf at hs
      split at hs
      · simp only [Option.some.injEq, Prod.mk.injEq] at hs; rename_i hp; exact ⟨hp, hs⟩
      · simp at hs
    obtain ⟨p1, p2, p3⟩ := pres x _ _ e1
    obtain ⟨q1, q2, q3⟩ := pres y _ _ e2
    obtain ⟨r1, r2, r3⟩ := pres z _ _ e3
    have hl := hs x (by simp) p1
    have hm := hs y (by simp) q1
    have hn := hs z (by simp) r1
    simp only [List.cons.injEq, and_true] at ef
    obtain ⟨f1, f2, f3⟩ := ef
    rw [p2] at hl f1
    rw [q2] at hm f2
    rw [r2] at hn f3
    have hi : i = i' := Nat.eq_of_mul_eq_mul_right hl f1
    have hk : k = k' := Nat.eq_of_mul_eq_mul_right hn f3
    have hj : j = 1 := Nat.eq_of_mul_eq_mul_right hm (by omega)
    subst hi hk hj
    have hr := hroom p3 r3
    rw [p2, q2, r2] at hr
    have hk : 0 < k := by
      rcases Nat.eq_zero_or_pos k with h0 | h0
      · subst h0
        have : i = 1 := by omega
        subst this
        omega
      · exact h0
    exact ⟨⟨fun h => absurd p1 h, fun _ => h1, fun _ => p3⟩, ⟨fun h => absurd q1 h, fun _ => by omega, fun h => by omega⟩,
      ⟨fun h => absurd r1 h, fun _ => hk, fun _ => r3⟩⟩

/-- The sides of a box, row by row: `h` is the number of rows between the top and the bottom. -/
structure SideRows (db : CharDb) (d : Design) (box : Sides Shape) (h : Nat) : Prop where
  topHeight : box.top.height = (d.shape NE).height
  bottomHeight : box.bottom.height = (d.shape SE).height
  height : box.right.height = (d.shape NE).height + h + (d.shape SE).height
  top : ∃ a b c, OccursIn (d.shape NNW) a ∧ OccursIn (d.shape N) b ∧ OccursIn (d.shape NNE) c ∧ ∀ y, y < (d.shape NE).height →
    lineText box.top y = times a (lineText (d.shape NNW) y) ++ times b (lineText (d.shape N) y) ++ times c (lineText (d.shape NNE) y)
  bottom : ∃ a b c, OccursIn (d.shape SSW) a ∧ OccursIn (d.shape S) b ∧ OccursIn (d.shape SSE) c ∧ ∀ y, y < (d.shape SE).height →
    lineText box.bottom y = times a (lineText (d.shape SSW) y) ++ times b (lineText (d.shape S) y) ++ times c (lineText (d.shape SSE) y)
  leftTop : ∀ y, y < (d.shape NE).height → lineText box.left y = lineText (d.shape NW) y
  rightTop : ∀ y, y < (d.shape NE).height → lineText box.right y = lineText (d.shape NE) y
  leftBody : ∀ y, y < h → ∃ n ∈ [WNW, W, WSW], Present (d.shape n) ∧ ∃ b ∈ (d.shape n).lines,
    lineText box.left ((d.shape NE).height + y) = b.memory
  rightBody : ∀ y, y < h → ∃ n ∈ [ENE, E, ESE], Present (d.shape n) ∧ ∃ b ∈ (d.shape n).lines,
    lineText box.right ((d.shape NE).height + y) = b.memory
  leftBottom : ∀ y, y < (d.shape SE).height → lineText box.left ((d.shape NE).height + h + y) = lineText (d.shape SW) y
  rightBottom : ∀ y, y < (d.shape SE).height → lineText box.right ((d.shape NE).height + h + y) = lineText (d.shape SE) y

/-- a column of lines: corner, `m`, corner -/
private theorem column_lines {a m b : List Bxs} {s sa sb : Shape} (hs : s.lines = a ++ m ++ b) (ha : sa.lines = a) (hb : sb.lines = b) :
    (∀ y, y < a.length → lineText s y = lineText sa y) ∧
    (∀ y, y < m.length → ∃ l ∈ m, lineText s (a.length + y) = l.memory) ∧
    (∀ y, y < b.length → lineText s (a.length + m.length + y) = lineText sb y) := by
  unfold lineText
  rw [hs, ha, hb]
  refine ⟨?_, ?_, ?_⟩
  · intro y hy
    rw [List.append_assoc, List.getElem?_append_left hy]
  · intro y hy
    rw [List.append_assoc, List.getElem?_append_right (by omega), Nat.add_sub_cancel_left, List.getElem?_append_left hy]
    exact ⟨m[y], List.getElem_mem hy, by rw [List.getElem?_eq_getElem hy]; rfl⟩
  · intro y hy
    rw [List.getElem?_append_right (by simp), List.length_append, Nat.add_sub_cancel_left]

private theorem times_present {d : Design} {n : ShapeName} {i : Nat} {b : Bxs} (hi : ¬ Present (d.shape n) → i = 0)
    (hb : b ∈ times i (d.shape n).lines) : Present (d.shape n) ∧ b ∈ (d.shape n).lines := by
  simp only [times, List.mem_flatten, List.mem_replicate] at hb
  obtain ⟨l, ⟨h0, rfl⟩, hb⟩ := hb
  exact ⟨Classical.byContradiction fun hp => h0 (hi hp), hb⟩

private theorem times_height {d : Design} {db : CharDb} (hd : GoodDesign db d) {n : ShapeName} {i : Nat} (hi : ¬ Present (d.shape n) → i = 0) :
    (times i (d.shape n).lines).length = i * (d.shape n).height := by
  by_cases hp : Present (d.shape n)
  · simp [times, (hd.shapes n hp).height]
  · simp [times, hi hp]

/-- the rows of an assembled box, if the minimum width has room for every shape of the top and the bottom -/
theorem generateBox_rows {db : CharDb} {d : Design} (hd : GoodDesign db d) {input : Input} {fuel : Nat} {box : Sides Shape}
    (hroom : Roomy d) (h : generateBox db d input fuel = some (.ok box)) : ∃ hgt, SideRows db d box hgt := by
  unfold generateBox at h
  have hNE : (d.shape NE).height = (d.shape NW).height := hd.north NE (by simp) (hd.corner NE (by simp))
  have hSE : (d.shape SE).height = (d.shape SW).height := hd.south SE (by simp) (hd.corner SE (by simp))
  have hw : ∀ l : List Shape, ∀ s ∈ l, Present s → 0 < s.width := fun _ _ _ hp => hp.2.1
  have hlen : ∀ n, Present (d.shape n) → (d.shape n).lines.length = (d.shape n).height := fun n hp => (hd.shapes n hp).height
  cases hq : horizGenerate db d input.maxline fuel with
  | none => rw [hq] at h; simp at h
  | some q =>
    obtain ⟨top, bottom, w, i1, i2, i3, k1, k2, k3, rfl, t0, t1, t2, t3, t4, t5, t6, t7, t8, t9, t10, t11, t12, t13, t14, t15⟩ :=
      C13_top_bottom db d hd input.maxline fuel hq
    rw [hq] at h
    simp only [Option.map_eq_some_iff] at h
    obtain ⟨q, hq', h⟩ := h
    obtain ⟨left, right, hgt, x1, x2, x3, y1, y2, y3, rfl, u0, u1, u2, u3, u4, u5, u6, u7, u8, u9, u10, u11, u12, u13, u14, u15, -⟩ :=
      C14_left_right db d hd input.lines.length fuel hq'
    rw [Res.ok_bind] at h
    simp only [Res.ok.injEq] at h
    subst h
    simp only [List.mem_cons, List.not_mem_nil, or_false, forall_eq_or_imp, forall_eq] at t0 u0
    obtain ⟨a1, a2, a3, a4, a5, a6⟩ := t0
    obtain ⟨b1, b2, b3, b4, b5, b6⟩ := u0
    obtain ⟨r1, r2⟩ := hroom
    obtain ⟨o1, o2, o3⟩ := fills_occurs (hw _) (by simpa only [slots, List.map_cons, List.map_nil] using t1) a1 a2 a3 (fun _ _ => by omega)
    obtain ⟨o6, o5, o4⟩ := fills_occurs (hw _) (by simpa only [slots, List.map_cons, List.map_nil] using t3) a6 a5 a4 (fun _ _ => by omega)
    obtain ⟨c1, c2, c3⟩ := column_lines u12 rfl rfl
    obtain ⟨c4, c5, c6⟩ := column_lines u13 rfl rfl
    rw [hlen NW (hd.corner NW (by simp)), ← hNE] at c1 c2 c3
    rw [hlen NE (hd.corner NE (by simp))] at c4 c5 c6
    rw [hlen SW (hd.corner SW (by simp)), ← hSE] at c3
    rw [hlen SE (hd.corner SE (by simp))] at c6
    simp only [List.length_append, times_height hd b1, times_height hd b2, times_height hd b3] at c2 c3
    simp only [List.length_append, times_height hd b4, times_height hd b5, times_height hd b6] at c5 c6
    rw [u2] at c2 c3
    rw [u4] at c5 c6
    have hlt : ∀ (s : Shape) y (b : Bxs), s.lines[y]? = some b → lineText s y = b.memory := by
      intro s y b hb; unfold lineText; rw [hb]; rfl
    refine ⟨hgt, ⟨by simp only; omega, by simp only; omega, by simp only; omega, ⟨i1, i2, i3, o1, o2, o3, ?_⟩, ⟨k1, k2, k3, o4, o5, o6, ?_⟩, c1, c4,
      ?_, ?_, c3, c6⟩⟩
    · intro y hy
      obtain ⟨b, v, g1, -, -, -, g2⟩ := t14 y (by omega)
      rw [hlt _ _ _ g1, g2]
    · intro y hy
      obtain ⟨b, v, g1, -, -, -, g2⟩ := t15 y (by omega)
      rw [hlt _ _ _ g1, g2]
    · intro y hy
      obtain ⟨l, hl, hle⟩ := c2 y hy
      simp only [List.mem_append] at hl
      rcases hl with (hl | hl) | hl
      · obtain ⟨z1, z2⟩ := times_present b1 hl; exact ⟨WNW, by simp, z1, l, z2, hle⟩
      · obtain ⟨z1, z2⟩ := times_present b2 hl; exact ⟨W, by simp, z1, l, z2, hle⟩
      · obtain ⟨z1, z2⟩ := times_present b3 hl; exact ⟨WSW, by simp, z1, l, z2, hle⟩
    · intro y hy
      obtain ⟨l, hl, hle⟩ := c5 y hy
      simp only [List.mem_append] at hl
      rcases hl with (hl | hl) | hl
      · obtain ⟨z1, z2⟩ := times_present b4 hl; exact ⟨ENE, by simp, z1, l, z2, hle⟩
      · obtain ⟨z1, z2⟩ := times_present b5 hl; exact ⟨E, by simp, z1, l, z2, hle⟩
      · obtain ⟨z1, z2⟩ := times_present b6 hl; exact ⟨ESE, by simp, z1, l, z2, hle⟩

end Boxes
