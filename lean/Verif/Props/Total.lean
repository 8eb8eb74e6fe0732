import Verif.Lemmas.Total

/-!
# Removing a box always comes to a result (C23)
-/
namespace Boxes
open Spec ShapeName
set_option linter.unusedSimpArgs false

theorem findVerticalShapes_total {db : CharDb} (hdb : Sane db) {d : Design} (hd : ReadyDesign db d) {lines : List Line}
    (hin : ReadyInput db lines) (ctx : RemoveCtx) (hb : ctx.bottomStart ≤ lines.length) (ht : ctx.topEnd ≤ ctx.bottomStart) :
    ∃ c, findVerticalShapes db d lines ctx = .ok c := by
  unfold findVerticalShapes
  split
  · exact ⟨_, rfl⟩
  · obtain ⟨r, hr⟩ := vertRounds_total hdb hd hin ctx hb compTypes ctx.compType ctx.body ht
    exact ⟨_, by simp only [hr, Res.ok_bind]; rfl⟩

theorem some_total {α} {x : Res α} (h : ∃ r, x = .ok r) : ∃ q, (x >>= fun c => Res.ok (some c)) = .ok q := by
  obtain ⟨r, rfl⟩ := h; exact ⟨_, rfl⟩

/-- C23: with a design as the parser makes it and input as it is read, the search for the box comes to an end without leaving its
data: no access outside a line, a shape or a list of lines, no NULL pointer. -/
theorem C23_found_total (db : CharDb) (hdb : Sane db) (d : Design) (hd : ReadyDesign db d) (i : Input) (hi : ReadyInput db i.lines) :
    ∃ q, findBox db d i = .ok q := by
  obtain ⟨dm, hdm⟩ := designIsMono_total hd
  obtain ⟨im, him⟩ := inputIsMono_total hi
  unfold findBox
  simp only [hdm, him, Res.ok_bind]
  by_cases hf : findFirstLine db i.lines ≥ i.lines.length
  · rw [if_pos hf]; exact ⟨_, rfl⟩
  rw [if_neg hf]
  have hf' : findFirstLine db i.lines < i.lines.length := by omega
  obtain ⟨l1, l2, -⟩ := findLastLine_spec db i.lines hf'
  have h1 : ∃ q, (if (determineEmptySides d).top = true then
      (.ok (0, { emptySide := determineEmptySides d, designMono := dm, inputMono := im, topStart := findFirstLine db i.lines }) : Res (Nat × RemoveCtx))
      else findTopSide db d i.lines { emptySide := determineEmptySides d, designMono := dm, inputMono := im, topStart := findFirstLine db i.lines }) = .ok q := by
    split
    · exact ⟨_, rfl⟩
    · exact topLoop_total hdb hd hi _ _ _
  obtain ⟨q, hq⟩ := h1
  rw [hq]
  simp only [Res.ok_bind]
  generalize hc : ({ q.2 with topEnd := findFirstLine db i.lines + q.1, bottomEnd := findLastLine db i.lines + 1 } : RemoveCtx) = c
  have hbe : c.bottomEnd = findLastLine db i.lines + 1 := by rw [← hc]
  have hte : c.topEnd = findFirstLine db i.lines + q.1 := by rw [← hc]
  have h2 : ∃ q', (if q.2.emptySide.bottom = true then (.ok (0, c) : Res (Nat × RemoveCtx)) else findBottomSide db d i.lines c) = .ok q' ∧
      SameBut c q'.2 := by
    split
    · exact ⟨_, rfl, SameBut.refl _⟩
    · obtain ⟨q', hq'⟩ := bottomLoop_total hdb hd hi (d.shape SE).height 0 c (by omega)
      exact ⟨q', hq', (bottomLoop_spec _ _ _ _ hq' (Nat.zero_le _)).1⟩
  obtain ⟨q', hq', t, hs⟩ := h2
  rw [hq']
  simp only [Res.ok_bind]
  by_cases hn : (if findLastLine db i.lines + 1 - q'.1 > findFirstLine db i.lines + q.1 then findLastLine db i.lines + 1 - q'.1 - (findFirstLine db i.lines + q.1) else 0) > 0
  · rw [if_pos hn]
    have hlt : findLastLine db i.lines + 1 - q'.1 > findFirstLine db i.lines + q.1 := by
      revert hn; split <;> intro hn <;> omega
    exact some_total (findVerticalShapes_total hdb hd hi _ (by show findLastLine db i.lines + 1 - q'.1 ≤ _; omega)
      (by show q'.2.topEnd ≤ findLastLine db i.lines + 1 - q'.1; rw [hs]; show c.topEnd ≤ _; omega))
  · rw [if_neg hn]; exact ⟨_, rfl⟩

/-- C23: if all lines are blank, there is nothing to be removed and the input stays as it is. -/
theorem C23_blank_input (db : CharDb) (hdb : Sane db) (opt : Opt) (d : Design) (hd : ReadyDesign db d) (i : Input)
    (hi : ReadyInput db i.lines) (hb : ∀ l ∈ i.lines, textIsBlank db l.text = true) : removeBox db opt d i = .ok i := by
  obtain ⟨q, hq⟩ := C23_found_total db hdb d hd i hi
  have : q = none := by
    cases q with
    | none => rfl
    | some ctx =>
      obtain ⟨a1, -⟩ := findBox_spec hq
      obtain ⟨l, hl, hne⟩ := (findFirstLine_spec db i.lines).2 a1
      have := hb l (List.mem_of_getElem? hl)
      rw [hne] at this; simp at this
  subst this
  unfold removeBox
  simp [hq]

/-- what was recorded for a side lies inside the line -/
theorem bestHit_inside {db : CharDb} {left : Bool} {input : Str} {x y : Nat} {sls : List ShapeLine} {a e q : Nat}
    (h : BestHit db left input x y sls a e q) : (q = 0 ∧ a = 0 ∧ e = 0) ∨ (e = a + q ∧ e ≤ input.length) := by
  rcases h with ⟨h1, h2, h3, -⟩ | ⟨b, sl, c, -, -, h, he, -⟩
  · exact .inl ⟨h1, h2, h3⟩
  · right
    refine ⟨he, ?_⟩
    obtain ⟨l, r, -, hlen, hh, -⟩ := h
    have hr : (remains sl.text.memory l r).length = q := by
      unfold remains
      simp only [List.length_take, List.length_drop]; omega
    have ho : OccursAt input (remains sl.text.memory l r) a := by
      cases left with
      | true => exact hh.2.1.2.1
      | false => exact hh.2.1.1
    obtain ⟨p, s, rfl, rfl⟩ := ho
    simp only [List.length_append, hr]; omega

/-- indentation and columns of an analysed text -/
theorem fuLoop_indent (db : CharDb) : ∀ (n : Nat) (s : Str) (st st' : FuState), fuLoop db n st s = some st' → st.indent ≤ st.cols →
    st'.indent ≤ st'.cols
  | n, [], st, st', h, h0 => by
    cases n <;> · simp only [fuLoop, Option.some.injEq] at h; subst h; exact h0
  | 0, c :: s, st, st', h, _ => by simp [fuLoop] at h
  | n + 1, c :: s, st, st', h, h0 => by
    unfold fuLoop at h
    split at h
    · simp at h
    · refine fuLoop_indent db n _ _ _ h ?_
      have h1 : (fuChar db st c (c :: s)).indent ≤ (fuChar db st c (c :: s)).cols := by
        unfold fuChar
        split
        · exact h0
        · dsimp only
          split <;> omega
      have h2 : (fuBlank db (fuChar db st c (c :: s)) c).indent ≤ (fuBlank db (fuChar db st c (c :: s)) c).cols := by
        unfold fuBlank; split <;> exact h1
      have h3 : ∀ (u : FuState) x, (fuStep u x).indent = u.indent ∧ (fuStep u x).cols = u.cols := by
        intro u x; unfold fuStep; split <;> exact ⟨rfl, rfl⟩
      rw [(h3 _ _).1, (h3 _ _).2]
      exact h2

theorem fromUnicode_indent_cols {db : CharDb} {s : Str} {b : Bxs} (h : fromUnicode db s = some b) : b.indent ≤ b.cols := by
  unfold fromUnicode at h
  rw [Option.map_eq_some_iff] at h
  obtain ⟨st, h1, rfl⟩ := h
  exact fuLoop_indent db _ _ _ _ h1 (Nat.le_refl _)

/-- a line whose measures make sense -/
def Measurable' (l : Line) : Prop := ∃ t, l.text = some t ∧ t.indent ≤ t.cols

theorem newLine_total {db : CharDb} {opt : Opt} {n : Nat} {b : Bxs} {s e : Nat} {line : Line} {x : Option Bxs}
    (hx : x = b.substr db s e) (hsub : ∃ t, b.substr db s e = some t) :
    ∃ y, (if opt.indentmode = 'b' ∨ opt.indentmode = '\x00' then
        (Res.ok { line with text := prependSpacesOpt db x n } : Res Line)
        else .ok { line with text := x }) = .ok y ∧ Measurable' y := by
  obtain ⟨t, ht⟩ := hsub
  rw [ht] at hx
  subst hx
  obtain ⟨_, _, h0⟩ := substr_eq ht
  have h1 := fromUnicode_indent_cols h0
  split
  · refine ⟨_, rfl, t.prependSpaces n, rfl, ?_⟩
    unfold Bxs.prependSpaces
    split
    · exact h1
    · dsimp only; omega
  · exact ⟨_, rfl, t, rfl, h1⟩

/-- the analysis of a part of a line exists if its end is not in front of its start -/
theorem substr_total {db : CharDb} {b : Bxs} {s e : Nat} (hse : s ≤ e) (hok : fromUnicode db ((b.memory.take e).drop s) ≠ none)
    (hn : b.numChars = b.memory.length) : ∃ t, b.substr db s e = some t := by
  unfold Bxs.substr
  dsimp only
  rw [hn, clamp_take, clamp_drop, if_neg (by split <;> split <;> omega)]
  exact Option.ne_none_iff_exists'.1 hok

theorem removeVerticalLine_total {db : CharDb} {opt : Opt} {d : Design} {n : Nat} {c : CompType} {line : Line} {lc : LineCtx} {b : Bxs} {v : Str}
    (hl : line.text = some b) (hb : fromUnicode db b.memory = some b) (ht : Text b.memory v) (hcl : ∀ x ∈ b.memory, ¬ Forbidden db x)
    (hap : keepFrom db d lc (if c.skipsInput then v else b.memory) ≤ keepTo lc (if c.skipsInput then v else b.memory))
    (hin : c.skipsInput = true → keepTo lc v ≤ v.length) :
    ∃ y, removeVerticalLine db opt d n c line lc = .ok y ∧ Measurable' y := by
  unfold removeVerticalLine
  rw [hl]
  simp only [Res.get_some, Res.ok_bind]
  cases hc : c.skipsInput with
  | false =>
    rw [hc] at hap
    simp only [Bool.false_eq_true, if_false] at hap
    have hn := fromUnicode_numChars hb
    rw [calculateStartIdx_eq (v := b.memory) (by rw [maxChars_literal hc, hn]) (fun x y => orgIsNotBlank_literal hc x y),
      calculateEndIdx_eq (v := b.memory) (by rw [maxChars_literal hc, hn]), hc]
    simp only [Bool.false_eq_true, if_false, Res.ok_bind]
    refine newLine_total rfl (substr_total hap (fromUnicode_allowed db ?_) hn)
    intro x hx
    exact hcl x (List.mem_of_mem_take (List.mem_of_mem_drop hx))
  | true =>
    rw [hc] at hap
    simp only [if_true] at hap
    have hin := hin hc
    obtain ⟨ts, h1, h2, h3, h4, h5⟩ := fromUnicode_text_some db ht hb
    rw [h5]
    subst h3
    rw [calculateStartIdx_eq (v := visOf ts) (maxChars_visible hc) (fun x y => orgIsNotBlank_visible hc x y),
      calculateEndIdx_eq (v := visOf ts) (maxChars_visible hc), hc]
    obtain ⟨p, q, t', e1, e2, e3, e4, e5, e6⟩ := cut_between db ts h1 hap hin
    simp only [if_true, e1, e2, Res.get_some, Res.ok_bind]
    refine newLine_total rfl (substr_total e3 ?_ rfl)
    show fromUnicode db (((flat ts).take q).drop p) ≠ none
    rw [e5, fromUnicode_ok db t' e4 (all_allowed_sub h4 (by
      rw [e6]; intro x hx; exact List.mem_of_mem_take (List.mem_of_mem_drop hx)))]
    simp

theorem removeVerticalLines_total {db : CharDb} {opt : Opt} {d : Design} {n : Nat} {c : CompType} : ∀ (ctxs : List LineCtx) (lines : List Line),
    ctxs.length ≤ lines.length →
    (∀ (k : Nat) l lc, lines[k]? = some l → ctxs[k]? = some lc → ∃ y, removeVerticalLine db opt d n c l lc = .ok y) →
    ∃ out, removeVerticalLines db opt d n c ctxs lines = .ok out
  | [], lines, _, _ => ⟨lines, rfl⟩
  | lc :: r, [], h, _ => by simp at h
  | lc :: r, l :: ls, h, hx => by
    obtain ⟨y, hy⟩ := hx 0 l lc rfl rfl
    obtain ⟨out, ho⟩ := removeVerticalLines_total r ls (by simpa using h) (fun k l lc h1 h2 => hx (k + 1) l lc (by simpa using h1) (by simpa using h2))
    unfold removeVerticalLines
    exact ⟨_, by simp only [hy, ho, Res.ok_bind]; rfl⟩

theorem measureLines_total : ∀ ls : List Line, (∀ l ∈ ls, Measurable' l) → ∃ m, measureLines ls = .ok m
  | [], _ => ⟨_, rfl⟩
  | l :: r, h => by
    obtain ⟨t, ht, -⟩ := h l (by simp)
    obtain ⟨m, hm⟩ := measureLines_total r (fun x hx => h x (by simp [hx]))
    unfold measureLines
    exact ⟨_, by simp only [ht, hm, Res.get_some, Res.ok_bind]; rfl⟩

theorem cutLines_total {db : CharDb} {n : Nat} : ∀ ls : List Line, (∀ l ∈ ls, Measurable' l) → ∃ out, cutLines db n ls = .ok out
  | [], _ => ⟨_, rfl⟩
  | l :: r, h => by
    obtain ⟨t, ht, -⟩ := h l (by simp)
    obtain ⟨m, hm⟩ := cutLines_total (db := db) (n := n) r (fun x hx => h x (by simp [hx]))
    unfold cutLines
    exact ⟨_, by simp only [ht, hm, Res.get_some, Res.ok_bind]; rfl⟩

theorem removeDefaultPadding_total {db : CharDb} {j : Input} {ctx : RemoveCtx} {n : Nat} (h1 : ctx.topStart + ctx.bodyNum ≤ j.lines.length)
    (h2 : ∀ l ∈ j.lines, Measurable' l) (h3 : n ≤ j.indent) (h4 : n ≤ j.maxline) : ∃ k, removeDefaultPadding db j ctx n = .ok k := by
  unfold removeDefaultPadding
  split
  · rw [Res.sub_ok h3, Res.sub_ok h4]
    obtain ⟨o, ho⟩ := cutLines_total (db := db) (n := n) ((j.lines.drop ctx.topStart).take ctx.bodyNum)
      (fun l hl => h2 l (List.mem_of_mem_drop (List.mem_of_mem_take hl)))
    simp only [ho, Res.ok_bind]
    exact ⟨_, rfl⟩
  · exact ⟨_, rfl⟩

theorem takeDrop_mem {α} {l : List α} {a b : Nat} {x : α} (h : x ∈ l.take a ++ l.drop b) : x ∈ l := by
  rcases List.mem_append.1 h with h | h
  · exact List.mem_of_mem_take h
  · exact List.mem_of_mem_drop h

/-- C23: and the removal itself succeeds, if the parts found do not overlap: the top part ends before the bottom part begins, and in no
line of the body the right side is found in front of the end of the left side. -/
theorem C23_total (db : CharDb) (hdb : Sane db) (opt : Opt) (d : Design) (hd : ReadyDesign db d) (i : Input) (hi : ReadyInput db i.lines)
    (hcl : CleanInput db i.lines) :
    ∃ q, findBox db d i = .ok q ∧ ∀ ctx, q = some ctx → ctx.topEnd ≤ ctx.bottomStart → SidesApart db d i.lines ctx →
      ∃ j, removeBox db opt d i = .ok j := by
  obtain ⟨q, hq⟩ := C23_found_total db hdb d hd i hi
  refine ⟨q, hq, ?_⟩
  intro ctx hqc hno hap
  subst hqc
  obtain ⟨a1, a2, a3, a4, a5, a6, a7, a8, a9, a10, a11⟩ := findBox_spec hq
  obtain ⟨l1, l2, l3, l4⟩ := findLastLine_spec db i.lines a1
  obtain ⟨-, -, -, -, -, -, -, -, hbody⟩ := C64_box db d i ctx hq
  have hline : ∀ (k : Nat) l lc, i.lines[ctx.topEnd + k]? = some l → ctx.body[k]? = some lc →
      ∃ y, removeVerticalLine db opt d i.indent ctx.compType l lc = .ok y ∧ Measurable' y := by
    intro k l lc hl hlc
    obtain ⟨b, v, e1, e2, e3, e4⟩ := hi l (List.mem_of_getElem? hl)
    refine removeVerticalLine_total e1 e2 e3 (hcl l (List.mem_of_getElem? hl) b e1) (hap k l lc b v hl hlc e1 e3) ?_
    intro hs
    unfold keepTo
    split
    · rename_i hpos
      have hk : k < ctx.body.length := (List.getElem?_eq_some_iff.1 hlc).1
      split at hbody
      · rw [hbody] at hlc
        rw [hbody] at hk
        rw [List.getElem?_replicate] at hlc
        split at hlc
        · have := (Option.some.inj hlc).symm
          subst this
          simp at hpos
        · simp at hlc
      · obtain ⟨-, ⟨west, east, w1, w2, w3⟩, -⟩ := hbody
        have hw : Sized west := by
          split at w1
          · subst w1; intro x hx; simp at hx
          · exact (C64_shapes db d true _ west w1).2.2
        have he : Sized east := by
          split at w2
          · subst w2; intro x hx; simp at hx
          · exact (C64_shapes db d false _ east w2).2.2
        obtain ⟨-, hb⟩ := C64_body db i.lines ctx ctx.compType west east hw he _ _ _ w3
        obtain ⟨s, ln, b', x, y, lc', f1, f2, f3, f4, f5, f6, f7⟩ := hb k (by omega)
        rw [hlc] at f5
        obtain rfl := Option.some.inj f5
        rw [hl] at f2
        obtain rfl := Option.some.inj f2
        obtain ⟨t, g1, g2, g3, -⟩ := C25_input db i.lines (ctx.topEnd + k) ctx.compType false e3 e2 hl e1 e4
        rw [g1] at f1
        obtain rfl := Res.ok.inj f1
        have hlen : t = v := by rw [g3 hs]; simp [stripped]
        split at f7
        · omega
        · rcases bestHit_inside f7 with h | h
          · omega
          · rw [← hlen]; omega
    · exact Nat.le_refl _
  obtain ⟨out, hout⟩ := removeVerticalLines_total (db := db) (opt := opt) (d := d) (n := i.indent) (c := ctx.compType)
    (ctx.body.take ctx.bodyNum) (i.lines.drop ctx.topEnd) (by simp; omega) (by
      intro k l lc h1 h2
      rw [List.getElem?_drop] at h1
      obtain ⟨y, hy, -⟩ := hline k l lc h1 (by
        rw [List.take_of_length_le (by omega)] at h2; exact h2)
      exact ⟨y, hy⟩)
  have hv : removeVertical db opt d i ctx = .ok (i.lines.take ctx.topEnd ++ out) := by
    unfold removeVertical; simp only [hout, Res.ok_bind]
  generalize hls : i.lines.take ctx.topEnd ++ out = ls at hv
  obtain ⟨v1, v2, v3⟩ := removeVertical_spec hv
  have hme : ∀ l ∈ ls, Measurable' l := by
    intro l hl
    obtain ⟨k, hk⟩ := List.getElem?_of_mem hl
    have hkl := (List.getElem?_eq_some_iff.1 hk).1
    by_cases hbk : k < ctx.topEnd ∨ ctx.topEnd + min ctx.bodyNum ctx.body.length ≤ k
    · rw [v3 k hbk] at hk
      obtain ⟨b, v, e1, e2, -⟩ := hi l (List.mem_of_getElem? hk)
      exact ⟨b, e1, fromUnicode_indent_cols e2⟩
    · obtain ⟨x, rfl⟩ : ∃ x, k = ctx.topEnd + x := ⟨k - ctx.topEnd, by omega⟩
      have hg : i.lines[ctx.topEnd + x]? = some i.lines[ctx.topEnd + x] := List.getElem?_eq_getElem (by omega)
      have hb : ctx.body[x]? = some ctx.body[x] := List.getElem?_eq_getElem (by omega)
      obtain ⟨y, hy, hm⟩ := hline x _ _ hg hb
      have := v2 x _ _ _ (by omega) hb hg hk
      rw [hy] at this
      obtain rfl := Res.ok.inj this
      exact hm
  unfold removeBox applyResults
  simp only [hq, hv, Res.ok_bind]
  generalize hc' : (if opt.killblank ≠ 0 ∨ opt.mend ≠ 0 then killBlank db opt d ls ctx else ctx) = c'
  have hk : c'.topStart = ctx.topStart ∧ c'.bottomEnd = ctx.bottomEnd ∧ ctx.topEnd ≤ c'.topEnd ∧ c'.bottomStart ≤ ctx.bottomStart ∧
      c'.topEnd ≤ c'.bottomStart ∧ c'.bodyNum = c'.bottomStart - c'.topEnd := by
    subst hc'
    split
    · unfold killBlank
      dsimp only
      generalize hk1 : killCount db (maxRemovable opt d.padding.top) 0 ((ls.take ctx.bottomStart).drop ctx.topEnd) = k1
      have hk1' := killCount_le db (maxRemovable opt d.padding.top) ((ls.take ctx.bottomStart).drop ctx.topEnd) 0
      have hk2' := killCount_le db (maxRemovable opt d.padding.bottom) ((((ls.take ctx.bottomStart).drop ctx.topEnd).drop k1).reverse) 0
      simp only [List.length_reverse, List.length_drop, List.length_take] at hk1' hk2'
      generalize killCount db (maxRemovable opt d.padding.bottom) 0 ((((ls.take ctx.bottomStart).drop ctx.topEnd).drop k1).reverse) = k2 at hk2' ⊢
      refine ⟨rfl, rfl, ?_, ?_, ?_, ?_⟩ <;> omega
    · exact ⟨rfl, rfl, Nat.le_refl _, Nat.le_refl _, hno, a9⟩
  obtain ⟨k1, k2, k3, k4, k5, k6⟩ := hk
  have hbot : ∃ ls1, removeBottom ls c' = .ok ls1 ∧ (∀ l ∈ ls1, Measurable' l) ∧ c'.bottomStart ≤ ls1.length := by
    unfold removeBottom
    split
    · rw [if_pos (by omega)]
      refine ⟨_, rfl, fun l hl => hme l (takeDrop_mem hl), ?_⟩
      simp only [List.length_append, List.length_take, List.length_drop]; omega
    · exact ⟨_, rfl, hme, by omega⟩
  obtain ⟨ls1, hb1, hb2, hb3⟩ := hbot
  have htop : ∃ ls2, removeTop ls1 c' = .ok ls2 ∧ (∀ l ∈ ls2, Measurable' l) ∧ c'.topStart + c'.bodyNum ≤ ls2.length := by
    unfold removeTop
    split
    · rw [if_pos (by omega)]
      refine ⟨_, rfl, fun l hl => hb2 l (takeDrop_mem hl), ?_⟩
      simp only [List.length_append, List.length_take, List.length_drop]; omega
    · exact ⟨_, rfl, hb2, by omega⟩
  obtain ⟨ls2, ht1, ht2, ht3⟩ := htop
  obtain ⟨m, hm⟩ := measureLines_total ls2 ht2
  simp only [hb1, ht1, hm, Res.ok_bind]
  split
  · refine removeDefaultPadding_total ht3 ht2 ?_ ?_
    · cases m.2 with
      | none => exact Nat.zero_le _
      | some ind => exact Nat.min_le_left _ _
    · obtain ⟨s1, s2, s3, s4⟩ := measureLines_spec ls2 m hm
      cases hm2 : m.2 with
      | none => exact Nat.zero_le _
      | some ind =>
        have hne : ls2 ≠ [] := by
          intro hnil
          rw [s4 hnil] at hm2; simp at hm2
        obtain ⟨l, hl, t, ht, hmt⟩ := s2 hne
        obtain ⟨t', ht', hcols, -⟩ := s1 l hl
        obtain ⟨t'', ht'', hic⟩ := ht2 l hl
        rw [ht] at ht' ht''
        obtain rfl := Option.some.inj ht'
        obtain rfl := Option.some.inj ht''
        rw [hm2] at hmt
        obtain rfl := Option.some.inj hmt
        exact Nat.le_trans (Nat.min_le_left _ _) (Nat.le_trans hic hcols)
  · exact ⟨_, rfl⟩

/-! ## An example: the box in `boxedTight` -/

theorem sampleDesign_ready : ReadyDesign sampleDb sampleDesign where
  good := sampleDesign_good
  lines := by
    intro n _ b hb
    right
    have : fromUnicode sampleDb b.memory = some b ∧ (∀ c ∈ b.memory, c ≠ 0x1b) ∧
        ∀ c ∈ b.memory, Blank sampleDb c → Spec.width sampleDb c = 1 := by
      revert b
      cases n <;> decide +kernel
    exact ⟨b.memory, Spec.Text.plain this.2.1, this.1, this.2.2⟩

theorem boxedTight_plain : ∀ l ∈ boxedTight.lines, ∃ b, l.text = some b ∧ fromUnicode sampleDb b.memory = some b ∧
    (∀ c ∈ b.memory, c ≠ 0x1b) ∧ (∀ c ∈ b.memory, Blank sampleDb c → Spec.width sampleDb c = 1) ∧ ∀ c ∈ b.memory, ¬ Forbidden sampleDb c := by
  have h : ∀ l ∈ boxedTight.lines, (match l.text with
      | some b => decide (fromUnicode sampleDb b.memory = some b ∧ (∀ c ∈ b.memory, c ≠ 0x1b) ∧
          (∀ c ∈ b.memory, Blank sampleDb c → Spec.width sampleDb c = 1) ∧ ∀ c ∈ b.memory, ¬ Forbidden sampleDb c)
      | none => false) = true := by decide +kernel
  intro l hl
  have := h l hl
  cases ht : l.text with
  | none => rw [ht] at this; simp at this
  | some b => rw [ht] at this; exact ⟨b, rfl, of_decide_eq_true this⟩

example : ∃ q, findBox sampleDb sampleDesign boxedTight = .ok q ∧ ∀ ctx, q = some ctx → ctx.topEnd ≤ ctx.bottomStart →
    SidesApart sampleDb sampleDesign boxedTight.lines ctx → ∃ j, removeBox sampleDb {} sampleDesign boxedTight = .ok j := by
  refine C23_total sampleDb sampleDb_sane {} sampleDesign sampleDesign_ready boxedTight ?_ ?_
  · intro l hl
    obtain ⟨b, h1, h2, h3, h4, -⟩ := boxedTight_plain l hl
    exact ⟨b, b.memory, h1, h2, Spec.Text.plain h3, h4⟩
  · intro l hl b hb
    obtain ⟨b', h1, -, -, -, h5⟩ := boxedTight_plain l hl
    rw [hb] at h1
    obtain rfl := Option.some.inj h1
    exact h5

/-- in this example, the conditions about the box found are true -/
example : (match findBox sampleDb sampleDesign boxedTight with
    | .ok (some ctx) => decide (ctx.topEnd = 1 ∧ ctx.bottomStart = 5 ∧ ctx.body.map LineCtx.westEnd = [4, 4, 4, 4] ∧
        ctx.body.map LineCtx.eastStart = [10, 10, 10, 10])
    | _ => false) = true := by decide +kernel

theorem substr_crossed {db : CharDb} {b : Bxs} {s e : Nat} (hn : b.numChars = b.memory.length) (h : e < s) (hs : s ≤ b.memory.length) :
    b.substr db s e = none := by
  unfold Bxs.substr
  dsimp only
  rw [hn, if_neg (show ¬ e > b.memory.length by omega), if_neg (show ¬ s > b.memory.length by omega), if_pos h]

/-- the text of a line in which nothing can be cut out -/
theorem newLine_crossed {db : CharDb} {opt : Opt} {n : Nat} {line : Line} :
    (if opt.indentmode = 'b' ∨ opt.indentmode = '\x00' then
        (Res.ok { line with text := prependSpacesOpt db none n } : Res Line)
        else .ok { line with text := none }) =
      .ok { line with text := if restored opt n = 0 then none else fromUnicode db (spaces (restored opt n)) } := by
  unfold restored
  by_cases hm : opt.indentmode = 'b' ∨ opt.indentmode = '\x00'
  · simp only [hm, if_true]; rfl
  · simp only [hm, if_false, if_true]

/-- C23: a body line in which the right side begins in front of the end of the left side and its padding, exactly: the line becomes its
indentation, if that is restored and there is any; otherwise it is left without any text (a NULL pointer, which is dereferenced in
src/remove.c:1087; see `C23_shared_side_disagrees`). -/
theorem C23_line_crossed (db : CharDb) (opt : Opt) (d : Design) (n : Nat) (c : CompType)
    (line : Line) (l : LineCtx) (s v : Str) (b : Bxs) (hs : Text s v) (hb : fromUnicode db s = some b) (hl : line.text = some b)
    (hx : keepTo l (if c.skipsInput then v else s) < keepFrom db d l (if c.skipsInput then v else s))
    (hin : keepFrom db d l (if c.skipsInput then v else s) ≤ (if c.skipsInput then v else s).length) :
    removeVerticalLine db opt d n c line l =
      .ok { line with text := if restored opt n = 0 then none else fromUnicode db (spaces (restored opt n)) } := by
  have hm := fromUnicode_memory hb
  have hn := fromUnicode_numChars hb
  subst hm
  unfold removeVerticalLine
  rw [hl]
  simp only [Res.get_some, Res.ok_bind]
  cases hc : c.skipsInput with
  | false =>
    rw [hc] at hx hin
    simp only [Bool.false_eq_true, if_false] at hx hin
    rw [calculateStartIdx_eq (v := b.memory) (by rw [maxChars_literal hc, hn]) (fun x y => orgIsNotBlank_literal hc x y),
      calculateEndIdx_eq (v := b.memory) (by rw [maxChars_literal hc, hn]), hc]
    simp only [Bool.false_eq_true, if_false, Res.ok_bind]
    rw [substr_crossed hn hx hin]
    exact newLine_crossed
  | true =>
    rw [hc] at hx hin
    simp only [if_true] at hx hin
    obtain ⟨ts, h1, h2, h3, h4, h5⟩ := fromUnicode_text_some db hs hb
    rw [h5]
    subst h3
    rw [calculateStartIdx_eq (v := visOf ts) (maxChars_visible hc) (fun x y => orgIsNotBlank_visible hc x y),
      calculateEndIdx_eq (v := visOf ts) (maxChars_visible hc), hc]
    obtain ⟨p, q, t', e1, e2, e3, e4, e5, e6⟩ := cut_between db ts h1 (Nat.le_of_lt hx) hin
    have hpq : p < q := by
      rcases Nat.lt_or_ge p q with h | h
      · exact h
      · have h0 : visOf t' = [] := by
          have : flat t' = [] := by rw [← e5]; exact List.drop_of_length_le (by simp; omega)
          have ht := text_of_toks e4
          rw [this] at ht
          exact ht.unique Text.nil
        rw [h0] at e6
        have := congrArg List.length e6
        simp at this
        omega
    simp only [if_true, e1, e2, Res.get_some, Res.ok_bind]
    rw [substr_crossed rfl hpq (by
      obtain ⟨a1, a2, ha, hal, hap⟩ := firstChar_cut db ts _ hin
      rw [e2] at hap
      obtain rfl := Option.some.inj hap
      show (flat a1).length ≤ (flat ts).length
      rw [ha]; simp [flat])]
    exact newLine_crossed
/-- an indented box with a line in which one star is taken for both sides: the line becomes its indentation -/
example : texts (removeBox sampleDb { killblank := 1 } starDesign (mkInput ["  *****", "  *a  *", "  *", "  *b  *", "  *****"] 2)) =
    .ok [some (lit "  a  "), some (lit "  "), some (lit "  b  ")] := by decide +kernel

/-- and if indentation is not restored, there is no text -/
example : removeBox sampleDb { killblank := 1, indentmode := 'n' } starDesign
    (mkInput ["  *****", "  *a  *", "  *", "  *b  *", "  *****"] 2) = .ub := by decide +kernel

example : ∃ b, fromUnicode sampleDb (lit "  *") = some b ∧
    removeVerticalLine sampleDb {} starDesign 2 .literal (mkLine "  *")
      { westStart := 2, westEnd := 3, westQuality := 1, eastStart := 2, eastEnd := 3, eastQuality := 1 } =
    .ok { mkLine "  *" with text := fromUnicode sampleDb (spaces 2) } := by
  obtain ⟨b, hb⟩ : ∃ b, fromUnicode sampleDb (lit "  *") = some b := Option.ne_none_iff_exists'.1 (by decide)
  refine ⟨b, hb, ?_⟩
  rw [C23_line_crossed sampleDb {} starDesign 2 .literal (mkLine "  *") _ (lit "  *") (lit "  *") b
    (Spec.Text.plain (by decide)) hb (by rw [← hb]; rfl) (by decide) (by decide)]
  rfl

end Boxes
