import Verif.Spec.Size
import Verif.Lemmas.SameShown
import Verif.Lemmas.Meet

/-!
# Lemmas: the size of a box
-/
namespace Boxes
open Spec ShapeName
set_option linter.unusedSimpArgs false

theorem common_mono {s1 s2 : List Slot} {a b n : Nat} (h : Common s1 s2 a n) (hb : b ≤ n) : Common s1 s2 b n := ⟨hb, h.2⟩

/-- the size of a box: the least one that has room and is not below the minimum -/
theorem box_size (db : CharDb) (d : Design) (hd : GoodDesign db d) (input : Input) (fuel : Nat) {box : Sides Shape}
    (hr : generateBox db d input fuel = some (.ok box)) :
    ∃ w h, box.top.width = w ∧ box.left.width = (d.shape NW).width ∧ box.right.width = (d.shape NE).width ∧
      box.right.height = (d.shape NW).height + h + (d.shape SW).height ∧
      d.minwidth ≤ w + ((d.shape NW).width + (d.shape NE).width) ∧ d.minheight ≤ h + ((d.shape NW).height + (d.shape SW).height) ∧
      (∀ n, CanBeWide d n → max input.maxline (d.minwidth - ((d.shape NW).width + (d.shape NE).width)) ≤ n → w ≤ n) ∧
      (∀ n, CanBeHigh d n → max input.lines.length (d.minheight - ((d.shape NW).height + (d.shape SW).height)) ≤ n → h ≤ n) := by
  unfold generateBox at hr
  cases hh : horizGenerate db d input.maxline fuel with
  | none => rw [hh] at hr; simp at hr
  | some q =>
    obtain ⟨top, bottom, w, i1, i2, i3, k1, k2, k3, rfl, -, -, -, -, -, t1, t2, tmin, t3, t4, t5, t6, t7, t8, t9, t10⟩ :=
      C13_top_bottom db d hd input.maxline fuel hh
    rw [hh] at hr
    simp only [Option.map_eq_some_iff] at hr
    obtain ⟨q, hq, he⟩ := hr
    obtain ⟨left, right, h, i1, i2, i3, k1, k2, k3, rfl, -, -, -, -, -, u1, u2, umin, u3, u4, u5, u6, -, -, u7, u8, u9, u10⟩ :=
      C14_left_right db d hd input.lines.length fuel hq
    simp only [Res.ok_bind, Res.ok.injEq] at he
    subst he
    exact ⟨w, h, t3, u3, u4, by simp only; omega, t2, u2, fun n hn hm => tmin n (common_mono hn hm), fun n hn hm => umin n (common_mono hn hm)⟩

private theorem columns_drop_le (db : CharDb) (v : Str) (n : Nat) : columns db (v.drop n) ≤ columns db v := by
  have := columns_take_drop db v n; omega

theorem fitted_requested {req : Prop} {need min a b a' b' min' : Nat} (h : Fitted req need min a b a' b' min') (hr : req) : min' = min := by
  by_cases h1 : need + (a + b) ≤ min ∨ a + b = 0
  · exact (h.enough h1).2.2
  · exact (h.shrink (by omega) (by omega) hr).2

theorem sized_draw (db : CharDb) (hdb : Sane db) (opt : Opt) (hr : opt.r = false) (ht : 1 ≤ opt.tabstop) (d : Design)
    (hd : GoodDesign db d) (junk : Nat) (pieces : List Str) (hp : ∀ s ∈ pieces, Readable db opt.tabstop s) (hne : pieces ≠ [])
    (fuel : Nat) {r : Res (List (Bxs × Str))} (h : drawOnce db opt (prepareDesign opt d) [] junk pieces fuel = some r)
    {top bottom left right : Nat} (htop : NumberIf (BlankSide db d [NW, NNW, N, NNE, NE]) (d.shape NW).height top)
    (hbottom : NumberIf (BlankSide db d [SE, SSE, S, SSW, SW]) (d.shape SW).height bottom)
    (hleft : NumberIf (BlankSide db d [SW, WSW, W, WNW, NW]) (d.shape NW).width left)
    (hright : NumberIf (BlankSide db d [NE, ENE, E, ESE, SE]) (d.shape NE).width right) :
    ∃ out cols, r = .ok out ∧ (∀ p ∈ out, RowOf db (prepareDesign opt d).indentmode (cols + right) p.1) ∧
      (∀ H : Nat, opt.reqheight = H → 0 < H → H ≤ out.length ∧
        (d.minheight ≤ H → pieces.length + (d.shape NW).height + (d.shape SW).height ≤ H + top + bottom →
          CanBeHigh d (H + top + bottom - ((d.shape NW).height + (d.shape SW).height)) → out.length = H)) ∧
      (∀ W : Nat, opt.reqwidth = W → 0 < W → W ≤ cols ∧
        (d.minwidth ≤ W →
          (∀ s ∈ pieces, ∃ n, FitsIn db opt.tabstop n s ∧ n + (d.shape NW).width + (d.shape NE).width ≤ W + left + right) →
          CanBeWide d (W + left + right - ((d.shape NW).width + (d.shape NE).width)) → cols = W)) := by
  have hs0 : (prepareDesign opt d).shape = d.shape := by unfold prepareDesign; split <;> rfl
  have hg := (C20_adjusted_design db opt d hd {}).1
  obtain ⟨j, box, ls, ls', rfl, b1, b2, b3, b4, b5, b6, b7, b8, b9, b10, b11, b12⟩ := draw_block db hdb opt hr ht _ hg junk pieces hp hne fuel h
  obtain ⟨out, above, below, lp, rp, s, e, o1, -, -, -, -, hs, he, o8, -⟩ := C16_box db hdb opt _ j ls' box b5 b6 b7 b8
  obtain ⟨out', l, p1, p2, p3, p4⟩ := C15_rectangle db hdb opt _ j ls' box b5 b6 b7 b8
  rw [o1] at p1
  simp only [Res.ok.injEq] at p1
  subst p1
  obtain ⟨w, hh, s1, s2, s3, s4, s5, s6, s7, s8⟩ := box_size db _ b5 j fuel b1
  obtain ⟨f1, f2, f3, f4⟩ := C21_padding opt (prepareDesign opt d) j
  obtain ⟨t', b', r', l', q1, q2, q3, q4, q5, q6, -, -, -⟩ := C21_requested_size db hdb opt d hd
  have m1 : (prepareDesign opt d).minwidth = (applyExpectedSize opt d).minwidth := by unfold prepareDesign; split <;> rfl
  have m2 : (prepareDesign opt d).minheight = (applyExpectedSize opt d).minheight := by unfold prepareDesign; split <;> rfl
  have hsh : (adjustSizeAndPadding opt (prepareDesign opt d) j).shape = d.shape := f3.trans hs0
  have hbl : ∀ side, BlankSide db (adjustSizeAndPadding opt (prepareDesign opt d) j) side ↔ BlankSide db d side := by
    intro side; unfold BlankSide; rw [hsh]
  have hsl : ∀ (size : Shape → Nat) (l : List ShapeName), slots size (adjustSizeAndPadding opt (prepareDesign opt d) j) l = slots size d l := by
    intro size l; simp [slots, hsh]
  have hth := b6.topHeight
  have hbh := b6.bottomHeight
  rw [hsh] at s2 s3 s4 s5 s6 s7 s8 hth hbh
  rw [hs0] at f1 f2
  have hNE : (d.shape NE).height = (d.shape NW).height := hd.north NE (by simp) (hd.corner NE (by simp))
  have hSE : (d.shape SE).height = (d.shape SW).height := hd.south SE (by simp) (hd.corner SE (by simp))
  have hSEw : (d.shape SE).width = (d.shape NE).width := hd.east SE (by simp) (hd.corner SE (by simp))
  have num : ∀ {P Q : Prop} {n a b : Nat}, NumberIf P n a → NumberIf Q n b → (P ↔ Q) → a = b := by
    intro P Q n a b h1 h2 hpq
    by_cases hP : P
    · rw [h1.1 hP, h2.1 (hpq.1 hP)]
    · rw [h1.2 hP, h2.2 (fun x => hP (hpq.2 x))]
  have es : s = top := num hs (hth ▸ htop) (hbl _)
  have ee : e = bottom := num he (hbh ▸ hbottom) (hbl _)
  have el : l + left = (d.shape NW).width := by
    by_cases hW : BlankSide db d [SW, WSW, W, WNW, NW]
    · rw [p2 ((hbl _).2 hW), hleft.1 hW]; omega
    · rw [p3 (fun x => hW ((hbl _).1 x)), hleft.2 hW]; omega
  have er : right ≤ (d.shape NE).width := by
    by_cases hE : BlankSide db d [NE, ENE, E, ESE, SE]
    · rw [hright.1 hE]; omega
    · rw [hright.2 hE]; omega
  have hjl : j.lines.length = pieces.length := by
    have := congrArg List.length b7.texts
    simp at this
    omega
  refine ⟨out, l + w + ((d.shape NE).width - right), o1, ?_, ?_, ?_⟩
  · intro p hp
    obtain ⟨t, ht', hpt⟩ := List.mem_iff_getElem.1 hp
    obtain ⟨ind, rest, v, b, r, i, c1, c2, c3, c4, c5, c6⟩ := p4 t ht'
    rw [List.getElem?_eq_getElem ht', hpt] at c6
    simp only [Option.map_some, Option.some.injEq] at c6
    subst c6
    exact ⟨ind, rest, v, b, c1.chars, fun hm => c1.off (by rw [f4]; exact hm), c2, by omega, c4, c5⟩
  · intro H hH hpos
    have e1 : t' = top := num q1 htop ⟨fun x => x.2, fun x => ⟨by omega, x⟩⟩
    have e2 : b' = bottom := num (hSE ▸ q2) hbottom ⟨fun x => x.2, fun x => ⟨by omega, x⟩⟩
    have hm := fitted_requested f1 (by omega)
    refine ⟨by omega, fun x1 x2 x3 => ?_⟩
    have := s8 _ (by unfold CanBeHigh; rw [hsl, hsl]; exact x3) (by omega)
    have := hd.minheight
    omega
  · intro W hW hpos
    have e1 : l' = left := num q4 hleft ⟨fun x => x.2, fun x => ⟨by omega, x⟩⟩
    have e2 : r' = right := num (hSEw ▸ q3) hright ⟨fun x => x.2, fun x => ⟨by omega, x⟩⟩
    have hm := fitted_requested f2 (by omega)
    refine ⟨by omega, fun x1 x2 x3 => ?_⟩
    have hmax : j.maxline + (d.shape NW).width + (d.shape NE).width ≤ W + left + right := by
      obtain ⟨p, hpm, hpc⟩ := b3
      obtain ⟨y, hy⟩ := List.mem_iff_getElem?.1 hpm
      have hylt : y < pieces.length := by
        have := (List.getElem?_eq_some_iff.1 hy).1
        omega
      obtain ⟨u, p', q, z, yy, k1, k2, k3, k4, k5, k6, k7, k8⟩ := b12 y _ (List.getElem?_eq_getElem hylt)
      rw [hy] at k2
      obtain rfl := Option.some.inj k2
      obtain ⟨n, n1, n2⟩ := x2 _ (List.getElem_mem hylt)
      have hu := n1 q z u.1 u.2 k4 k8 (b10 u (List.mem_of_getElem? k1))
      have : columns db p.2 ≤ columns db u.2 := by
        rcases k3 with ⟨-, hq, -⟩ | ⟨-, -, hq⟩
        · rw [hq]; exact columns_drop_le _ _ _
        · rw [hq]; exact Nat.le_refl _
      omega
    have := s7 _ (by unfold CanBeWide; rw [hsl, hsl]; exact x3) (by omega)
    have := hd.minwidth
    omega
end Boxes
