import Verif.Spec.Side
import Verif.Props.Match

/-!
# C64: how the left and right side of a box are recognised
-/
set_option linter.unusedSimpArgs false
namespace Boxes
open Spec

theorem FewestCut.pos {db : CharDb} {lf l r : Bool} {text : Str} {Hit : Str → Nat → Prop} {p q : Nat}
    (h : FewestCut db lf l r text Hit p q) (hh : ∀ piece p, Hit piece p → piece ≠ []) : 0 < q := by
  obtain ⟨a, b, hc, he, hhit, _⟩ := h
  rcases Nat.eq_zero_or_pos q with h0 | h0
  · exfalso
    apply hh _ _ hhit
    unfold remains
    rw [show text.length - a - b = 0 by omega]; simp
  · exact h0

theorem sideHit_pos {db : CharDb} {left : Bool} {input : Str} {indent trailing : Nat} {text : Str} {p q : Nat}
    (h : SideHit db left input indent trailing text p q) : 0 < q := by
  apply FewestCut.pos h
  intro piece p hp
  cases left with
  | true => exact (by simpa using hp : WestHit _ _ _ _ _).1
  | false => exact (by simpa using hp : EastHit _ _ _ _).1

theorem remains_len (text : Str) (l r q : Nat) (h : l + r + q = text.length) : (remains text l r).length = q := by
  unfold remains; rw [List.length_take, List.length_drop]; omega

theorem vertTest_iff (left : Bool) (input : Str) (indent trailing len q : Nat) (s : Str) (hs : s.length = q) (h0 : 0 < q)
    (hq : q ≤ len) (p : Nat) :
    vertTest left input indent trailing len s q = some p ↔
      (if left then WestHit input indent len else EastHit input trailing) s p := by
  have hne : s ≠ [] := by intro h; rw [h] at hs; simp at hs; omega
  unfold vertTest
  cases left with
  | true =>
    simp only [if_true]
    unfold WestHit
    rw [hs]
    cases hp : strstr input s with
    | none =>
      simp only [reduceCtorEq, false_iff]
      rintro ⟨_, h, _⟩
      rw [← strstr_first, hp] at h; simp at h
    | some p' =>
      have := (strstr_first input s p').1 hp
      simp only [true_and, false_and, or_false, Bool.true_eq_false]
      constructor
      · intro h
        split at h
        · simp at h
        · simp at h; subst h; exact ⟨hne, this, by omega⟩
      · rintro ⟨_, h, hle⟩
        rw [← strstr_first, hp] at h
        simp at h; subst h
        rw [if_neg (by omega)]
  | false =>
    simp only [Bool.false_eq_true, if_false]
    unfold EastHit
    rw [hs]
    rw [← hs]
    have hl := strnrstr_last input s hne
    cases hp : strnrstr input s s.length with
    | none =>
      simp only [reduceCtorEq, false_iff]
      rintro ⟨_, h, _⟩
      rw [← hl, hp] at h; simp at h
    | some p' =>
      simp only [true_and, false_and, false_or]
      constructor
      · intro h
        split at h
        · simp at h
        · simp at h; subst h; exact ⟨hne, (hl _).1 hp, by omega, by omega⟩
      · rintro ⟨_, h, hle, hle'⟩
        rw [← hl, hp] at h
        simp at h; subst h
        rw [if_neg (by omega)]

/-- one shape line, if something is found -/
theorem vertFit_iff (db : CharDb) (left : Bool) (input : Str) (indent trailing : Nat) (text : Bxs)
    (ht : text.numChars = text.memory.length) (p q : Nat) :
    (vertFit db left input indent trailing text (text.numChars + 2) (some text.memory) text.numChars = some (p, q) ∧ 0 < q) ↔
      SideHit db left input indent trailing text.memory p q := by
  rw [vertFit_eq, cutSearch_start db text ht]
  have hb : (true && left) = left := by simp
  rw [hb]
  constructor
  · rintro ⟨⟨l, r, h1, h2, h3, h4⟩, h0⟩
    refine ⟨l, r, h1, h2, ?_, ?_⟩
    · rw [ht] at h3
      exact (vertTest_iff left input indent trailing _ q _ (remains_len _ _ _ _ h2) h0 (by omega) p).1 h3
    · intro l' r' p' hc hlt hh
      have hf := hc.fits
      have hlen : l' + r' + (text.memory.length - l' - r') = text.memory.length := by omega
      have := h4 l' r' _ hc hlen (by omega)
      rw [ht] at this
      have h5 := (vertTest_iff left input indent trailing _ _ _ (remains_len _ _ _ _ hlen) (by omega) (by omega) p').2 hh
      rw [h5] at this; simp at this
  · intro h
    have h0 := sideHit_pos h
    obtain ⟨l, r, h1, h2, h3, h4⟩ := h
    refine ⟨⟨l, r, h1, h2, ?_, ?_⟩, h0⟩
    · rw [ht]
      exact (vertTest_iff left input indent trailing _ q _ (remains_len _ _ _ _ h2) h0 (by omega) p).2 h3
    · intro l' r' q' hc he hlt
      rw [ht]
      cases hv : vertTest left input indent trailing text.memory.length (remains text.memory l' r') q' with
      | none => rfl
      | some p' =>
        exact absurd ((vertTest_iff left input indent trailing _ q' _ (remains_len _ _ _ _ he) (by omega) (by omega) p').1 hv)
          (h4 l' r' p' hc (by omega))

theorem SideHit.unique {db : CharDb} {left : Bool} {input : Str} {indent trailing : Nat} {text : Bxs} {p q p' q' : Nat}
    (ht : text.numChars = text.memory.length)
    (h : SideHit db left input indent trailing text.memory p q) (h' : SideHit db left input indent trailing text.memory p' q') :
    p = p' ∧ q = q' := by
  have a := ((vertFit_iff db left input indent trailing text ht p q).2 h).1
  have b := ((vertFit_iff db left input indent trailing text ht p' q').2 h').1
  rw [a] at b; simpa using b

/-- the fields of one side -/
def sideOf (left : Bool) (l : LineCtx) : Nat × Nat × Nat :=
  if left then (l.westStart, l.westEnd, l.westQuality) else (l.eastStart, l.eastEnd, l.eastQuality)

/-- the best match so far and the remaining shape lines -/
theorem matchVerticalSide_step (db : CharDb) (left : Bool) (input : Str) (indent trailing : Nat) :
    ∀ (rest done : List ShapeLine) (l : LineCtx), Sized done → Sized rest →
      BestHit db left input indent trailing done (sideOf left l).1 (sideOf left l).2.1 (sideOf left l).2.2 →
      (BestHit db left input indent trailing (done ++ rest) (sideOf left (matchVerticalSide db left input indent trailing rest l)).1
        (sideOf left (matchVerticalSide db left input indent trailing rest l)).2.1
        (sideOf left (matchVerticalSide db left input indent trailing rest l)).2.2) ∧
      sideOf (!left) (matchVerticalSide db left input indent trailing rest l) = sideOf (!left) l := by
  intro rest
  induction rest with
  | nil => intro done l _ _ h; simpa [matchVerticalSide] using h
  | cons sl r ih =>
    intro done l hd hs h
    have hds : Sized (done ++ [sl]) := by
      intro x hx
      rcases List.mem_append.1 hx with hx | hx
      · exact hd x hx
      · simp at hx; rw [hx]; exact hs sl (by simp)
    have hsr : Sized r := fun x hx => hs x (by simp [hx])
    have hsl := hs sl (by simp)
    have happ : done ++ sl :: r = (done ++ [sl]) ++ r := by simp
    rw [happ]
    -- adding a shape line in which nothing better is found
    have hskip : (sl.empty = false → ∀ p k, SideHit db left input indent trailing sl.text.memory p k → k ≤ (sideOf left l).2.2) →
        BestHit db left input indent trailing (done ++ [sl]) (sideOf left l).1 (sideOf left l).2.1 (sideOf left l).2.2 := by
      intro hno
      rcases h with ⟨h1, h2, h3, h4⟩ | ⟨b, x, a, h1, h2, h3, h4, h5, h6⟩
      · left
        refine ⟨h1, h2, h3, ?_⟩
        intro y hy he p k hk
        rcases List.mem_append.1 hy with hy | hy
        · exact h4 y hy he p k hk
        · simp at hy; subst hy
          have := hno he p k hk
          have := sideHit_pos hk
          omega
      · right
        refine ⟨b, x, a ++ [sl], by simp [h1], h2, h3, h4, h5, ?_⟩
        intro y hy he p k hk
        rcases List.mem_append.1 hy with hy | hy
        · exact h6 y hy he p k hk
        · simp at hy; subst hy
          exact hno he p k hk
    rw [matchVerticalSide]
    by_cases he : sl.empty = true
    · rw [if_pos he]
      exact ih _ _ hds hsr (hskip (by rw [he]; simp))
    · rw [if_neg he]
      have he : sl.empty = false := by simpa using he
      cases hv : vertFit db left input indent trailing sl.text (sl.text.numChars + 2) (some sl.text.memory) sl.text.numChars with
      | none =>
        apply ih _ _ hds hsr (hskip _)
        intro _ p k hk
        have := ((vertFit_iff db left input indent trailing sl.text hsl p k).2 hk).1
        rw [hv] at this; simp at this
      | some pq =>
        obtain ⟨p, q⟩ := pq
        simp only
        have hothers : ∀ p' k, SideHit db left input indent trailing sl.text.memory p' k → k = q := by
          intro p' k hk
          have := ((vertFit_iff db left input indent trailing sl.text hsl p' k).2 hk).1
          rw [hv] at this; simp at this; exact this.2.symm
        by_cases hq : q > (sideOf left l).2.2
        · have hrec : sideOf left (recordMatch left p q l) = (p, p + q, q) ∧ sideOf (!left) (recordMatch left p q l) = sideOf (!left) l := by
            unfold recordMatch
            cases left with
            | true =>
              have hq : q > l.westQuality := by simpa [sideOf] using hq
              simp [sideOf, if_pos hq]
            | false =>
              have hq : q > l.eastQuality := by simpa [sideOf] using hq
              simp [sideOf, if_pos hq]
          have hhit := (vertFit_iff db left input indent trailing sl.text hsl p q).1 ⟨hv, by omega⟩
          have hnew : BestHit db left input indent trailing (done ++ [sl]) p (p + q) q := by
            right
            refine ⟨done, sl, [], rfl, he, hhit, rfl, ?_, by simp⟩
            intro x hx hxe p' k hk
            rcases h with ⟨h1, h2, h3, h4⟩ | ⟨b, y, a, h1, h2, h3, h4, h5, h6⟩
            · exact absurd hk (h4 x hx hxe p' k)
            · rw [h1] at hx
              rcases List.mem_append.1 hx with hx | hx
              · have := h5 x hx hxe p' k hk; omega
              · rcases List.mem_cons.1 hx with rfl | hx
                · have := (SideHit.unique (hd x (by rw [h1]; simp)) h3 hk).2
                  omega
                · have := h6 x hx hxe p' k hk; omega
          have := ih (done ++ [sl]) (recordMatch left p q l) hds hsr (by rw [hrec.1]; exact hnew)
          rw [hrec.2] at this
          exact this
        · have hrec : recordMatch left p q l = l := by
            unfold recordMatch
            cases left with
            | true =>
              have hq : ¬ q > l.westQuality := by simpa [sideOf] using hq
              simp [if_neg hq]
            | false =>
              have hq : ¬ q > l.eastQuality := by simpa [sideOf] using hq
              simp [if_neg hq]
          rw [hrec]
          apply ih _ _ hds hsr (hskip _)
          intro _ p' k hk
          have := hothers p' k hk
          omega

/-- C64: the match recorded for one side of one line is the first of the longest ones. -/
theorem C64_side (db : CharDb) (left : Bool) (input : Str) (indent trailing : Nat) (sls : List ShapeLine) (l : LineCtx) (hs : Sized sls)
    (h0 : sideOf left l = (0, 0, 0)) :
    BestHit db left input indent trailing sls (sideOf left (matchVerticalSide db left input indent trailing sls l)).1
      (sideOf left (matchVerticalSide db left input indent trailing sls l)).2.1
      (sideOf left (matchVerticalSide db left input indent trailing sls l)).2.2 ∧
    sideOf (!left) (matchVerticalSide db left input indent trailing sls l) = sideOf (!left) l := by
  have := matchVerticalSide_step db left input indent trailing sls [] l (by intro x hx; simp at hx) hs
    (Or.inl ⟨by rw [h0], by rw [h0], by rw [h0], by simp⟩)
  simpa using this

theorem compShapeLines_get (db : CharDb) (d : Design) (c : CompType) (n : ShapeName) : ∀ m i sls,
    compShapeLines db d c n m i = .ok sls → sls.length = m ∧ ∀ k, k < m → ∃ sl t, sls[k]? = some sl ∧
      sl.empty = (d.shape n).isDeepEmpty ∧ sl.elastic = (d.shape n).elastic ∧
      prepareCompShape d n (i + k) c false false = .ok t ∧ fromUnicode db t = some sl.text := by
  intro m
  induction m with
  | zero => intro i sls h; simp [compShapeLines] at h; subst h; exact ⟨rfl, by intro k; omega⟩
  | succ m ih =>
    intro i sls h
    rw [compShapeLines] at h
    obtain ⟨t, ht, h⟩ := Res.bind_eq_ok.1 h
    obtain ⟨b, hb, h⟩ := Res.bind_eq_ok.1 h
    obtain ⟨more, hm, h⟩ := Res.bind_eq_ok.1 h
    simp at h; subst h
    obtain ⟨e1, e2⟩ := ih _ _ hm
    refine ⟨by simp [e1], ?_⟩
    intro k hk
    cases k with
    | zero =>
      refine ⟨_, t, rfl, rfl, rfl, ht, ?_⟩
      cases hf : fromUnicode db t with
      | none => simp [hf, Res.get] at hb
      | some x => simp [hf, Res.get] at hb; rw [hb]
    | succ k =>
      obtain ⟨sl, t', f1, f2, f3, f4, f5⟩ := e2 k (by omega)
      exact ⟨sl, t', by simpa using f1, f2, f3, by rw [show i + (k + 1) = i + 1 + k by omega]; exact f4, f5⟩

/-- the lines of the shapes that are not empty, in order -/
def shapeLabels (d : Design) (ns : List ShapeName) : List (ShapeName × Nat) :=
  (ns.filter (fun n => !(d.shape n).isEmpty)).flatMap (fun n => (List.range (d.shape n).height).map (fun k => (n, k)))

theorem compShapesVert_get (db : CharDb) (d : Design) (c : CompType) : ∀ ns sls, compShapesVert db d c ns = .ok sls →
    sls.length = (shapeLabels d ns).length ∧ ∀ (m : Nat) n k, (shapeLabels d ns)[m]? = some (n, k) →
      ∃ sl t, sls[m]? = some sl ∧ sl.empty = (d.shape n).isDeepEmpty ∧ sl.elastic = (d.shape n).elastic ∧
        prepareCompShape d n k c false false = .ok t ∧ fromUnicode db t = some sl.text := by
  intro ns
  induction ns with
  | nil => intro sls h; simp [compShapesVert] at h; subst h; exact ⟨rfl, by intro m n k h; simp [shapeLabels] at h⟩
  | cons x r ih =>
    intro sls h
    rw [compShapesVert] at h
    split at h
    · rename_i he
      have : shapeLabels d (x :: r) = shapeLabels d r := by simp [shapeLabels, he]
      rw [this]; exact ih sls h
    · rename_i he
      obtain ⟨ls, hl, h⟩ := Res.bind_eq_ok.1 h
      obtain ⟨more, hm, h⟩ := Res.bind_eq_ok.1 h
      simp at h; subst h
      have hlab : shapeLabels d (x :: r) = (List.range (d.shape x).height).map (fun k => (x, k)) ++ shapeLabels d r := by
        simp [shapeLabels, he]
      rw [hlab]
      obtain ⟨e1, e2⟩ := compShapeLines_get _ _ _ _ _ _ _ hl
      obtain ⟨f1, f2⟩ := ih _ hm
      refine ⟨by simp [e1, f1], ?_⟩
      intro m n k hmk
      by_cases hlt : m < (d.shape x).height
      · rw [List.getElem?_append_left (by simpa using hlt)] at hmk
        rw [List.getElem?_map, List.getElem?_range hlt] at hmk
        simp at hmk
        obtain ⟨rfl, rfl⟩ := hmk
        obtain ⟨sl, t, g1, g2, g3, g4, g5⟩ := e2 m hlt
        exact ⟨sl, t, by rw [List.getElem?_append_left (by omega)]; exact g1, g2, g3, by simpa using g4, g5⟩
      · rw [List.getElem?_append_right (by simp; omega)] at hmk
        simp only [List.length_map, List.length_range] at hmk
        obtain ⟨sl, t, g1, g2⟩ := f2 _ n k hmk
        exact ⟨sl, t, by rw [List.getElem?_append_right (by omega), e1]; exact g1, g2⟩

/-- C64: the shape lines that the left (right) side is compared with: all lines of all shapes of the side except for the corners. -/
theorem C64_shapes (db : CharDb) (d : Design) (left : Bool) (c : CompType) (sls : List ShapeLine)
    (h : prepareCompShapesVert db d left c = .ok sls) :
    sls.length = (shapeLabels d (if left then [.WNW, .W, .WSW] else [.ENE, .E, .ESE])).length ∧
    (∀ (m : Nat) n k, (shapeLabels d (if left then [.WNW, .W, .WSW] else [.ENE, .E, .ESE]))[m]? = some (n, k) →
      ∃ sl t, sls[m]? = some sl ∧ sl.empty = (d.shape n).isDeepEmpty ∧ sl.elastic = (d.shape n).elastic ∧
        prepareCompShape d n k c false false = .ok t ∧ fromUnicode db t = some sl.text) ∧ Sized sls := by
  obtain ⟨h1, h2⟩ := compShapesVert_get db d c _ sls h
  refine ⟨h1, h2, ?_⟩
  intro sl hsl
  obtain ⟨m, hm⟩ := List.getElem?_of_mem hsl
  have hlt := (List.getElem?_eq_some_iff.1 hm).1
  rw [h1] at hlt
  obtain ⟨sl', t, e1, _, _, _, e5⟩ := h2 m _ _ (List.getElem?_eq_getElem hlt)
  rw [hm] at e1; simp at e1; subst e1
  rw [fromUnicode_memory e5, fromUnicode_numChars e5]

/-- C64: what is recorded for the body lines: `n` lines beginning with line `i`. -/
theorem C64_body (db : CharDb) (lines : List Line) (ctx : RemoveCtx) (c : CompType) (west east : List ShapeLine) (hw : Sized west)
    (he : Sized east) : ∀ n i body, vertLines db lines ctx c west east n i = .ok body → body.length = n ∧
      ∀ k, k < n → ∃ s ln b x y lc, prepareCompInput lines (i + k) false c = .ok s ∧ lines[i + k]? = some ln ∧ ln.text = some b ∧
        compInputMargins b c = .ok (x, y) ∧ body[k]? = some lc ∧
        (if ctx.emptySide.left then lc.westStart = 0 ∧ lc.westEnd = 0 ∧ lc.westQuality = 0
          else BestHit db true s x y west lc.westStart lc.westEnd lc.westQuality) ∧
        (if ctx.emptySide.right then lc.eastStart = 0 ∧ lc.eastEnd = 0 ∧ lc.eastQuality = 0
          else BestHit db false s x y east lc.eastStart lc.eastEnd lc.eastQuality) := by
  intro n
  induction n with
  | zero => intro i body h; simp [vertLines] at h; subst h; exact ⟨rfl, by intro k; omega⟩
  | succ n ih =>
    intro i body h
    rw [vertLines] at h
    obtain ⟨s, hs, h⟩ := Res.bind_eq_ok.1 h
    obtain ⟨ln, hln, h⟩ := Res.bind_eq_ok.1 h
    obtain ⟨b, hb, h⟩ := Res.bind_eq_ok.1 h
    obtain ⟨m, hm, h⟩ := Res.bind_eq_ok.1 h
    obtain ⟨more, hmore, h⟩ := Res.bind_eq_ok.1 h
    simp only [Res.ok.injEq] at h
    obtain ⟨e1, e2⟩ := ih _ _ hmore
    subst h
    refine ⟨by simp [e1], ?_⟩
    intro k hk
    cases k with
    | succ k =>
      obtain ⟨s', ln', b', x, y, lc, f⟩ := e2 k (by omega)
      rw [show i + 1 + k = i + (k + 1) by omega] at f
      exact ⟨s', ln', b', x, y, lc, by simpa using f⟩
    | zero =>
      have hln' : lines[i]? = some ln := by
        cases hl : lines[i]? with
        | none => simp [hl, Res.get] at hln
        | some z => simp [hl, Res.get] at hln; rw [hln]
      have hb' : ln.text = some b := by
        cases hl : ln.text with
        | none => simp [hl, Res.get] at hb
        | some z => simp [hl, Res.get] at hb; rw [hb]
      refine ⟨s, ln, b, m.1, m.2, _, by simpa using hs, by simpa using hln', hb', hm, rfl, ?_, ?_⟩
      · cases hl : ctx.emptySide.left with
        | true =>
          simp only [if_true]
          cases hr : ctx.emptySide.right with
          | true => simp
          | false =>
            have := (C64_side db false s m.1 m.2 east {} he rfl).2
            simp [sideOf] at this ⊢
            exact this
        | false =>
          simp only [Bool.false_eq_true, if_false]
          have h1 := (C64_side db true s m.1 m.2 west {} hw rfl)
          cases hr : ctx.emptySide.right with
          | true => simpa [sideOf] using h1.1
          | false =>
            have h2 := (C64_side db false s m.1 m.2 east (matchVerticalSide db true s m.1 m.2 west {}) he
              (by have := h1.2; simpa [sideOf] using this)).2
            simp [sideOf] at h2 h1 ⊢
            rw [h2.1, h2.2.1, h2.2.2]; exact h1.1
      · cases hr : ctx.emptySide.right with
        | true =>
          simp only [if_true]
          cases hl : ctx.emptySide.left with
          | true => simp
          | false =>
            have := (C64_side db true s m.1 m.2 west {} hw rfl).2
            simpa [sideOf] using this
        | false =>
          simp only [Bool.false_eq_true, if_false]
          cases hl : ctx.emptySide.left with
          | true =>
            have := (C64_side db false s m.1 m.2 east {} he rfl).1
            simpa [sideOf] using this
          | false =>
            have h1 := (C64_side db true s m.1 m.2 west {} hw rfl)
            have h2 := (C64_side db false s m.1 m.2 east (matchVerticalSide db true s m.1 m.2 west {}) he
              (by have := h1.2; simpa [sideOf] using this)).1
            simpa [sideOf] using h2

/-- C64: the width of the sides that are looked for -/
def sideWidth (d : Design) (isOpen : Sides Bool) : Nat :=
  (if isOpen.left then 0 else (d.shape .NW).width) + (if isOpen.right then 0 else (d.shape .NE).width)

/-- C64: enough of the sides is found. -/
theorem C64_sufficient (d : Design) (ctx : RemoveCtx) (body : List LineCtx) :
    sufficientBodyQuality d ctx body = true ↔
      MostlyFound (sideWidth d ctx.emptySide) ((body.map (fun l => l.eastQuality + l.westQuality)).sum) body.length := by
  unfold sufficientBodyQuality MostlyFound sideWidth
  simp only [decide_eq_true_eq, gt_iff_lt, Bool.or_eq_true, Bool.decide_or, Bool.decide_and, Bool.and_eq_true]

/-- C64: `body` is what is recorded with comparison type `c` -/
def BodyWith (db : CharDb) (d : Design) (lines : List Line) (ctx : RemoveCtx) (c : CompType) (body : List LineCtx) : Prop :=
  ∃ west east, (if ctx.emptySide.left then west = [] else prepareCompShapesVert db d true c = .ok west) ∧
    (if ctx.emptySide.right then east = [] else prepareCompShapesVert db d false c = .ok east) ∧
    vertLines db lines ctx c west east (ctx.bottomStart - ctx.topEnd) ctx.topEnd = .ok body

/-- C64: the kind of comparison used is the first one that applies and finds enough of the sides; if there is none, it is the last one that
applies. -/
theorem C64_rounds (db : CharDb) (d : Design) (lines : List Line) (ctx : RemoveCtx) : ∀ cs cur body0 c body,
    vertRounds db d lines ctx cs cur body0 = .ok (c, body) →
    (∃ before after, cs = before ++ c :: after ∧ applicable c (!ctx.inputMono) (!ctx.designMono) = true ∧
      BodyWith db d lines ctx c body ∧
      (∀ c' ∈ before, applicable c' (!ctx.inputMono) (!ctx.designMono) = true →
        ∃ body', BodyWith db d lines ctx c' body' ∧ sufficientBodyQuality d ctx body' = false) ∧
      (sufficientBodyQuality d ctx body = true ∨ ∀ c' ∈ after, applicable c' (!ctx.inputMono) (!ctx.designMono) = false)) ∨
    ((∀ c' ∈ cs, applicable c' (!ctx.inputMono) (!ctx.designMono) = false) ∧ c = cur ∧ body = body0) := by
  intro cs
  induction cs with
  | nil => intro cur body0 c body h; simp [vertRounds] at h; right; exact ⟨by simp, h.1.symm, h.2.symm⟩
  | cons x r ih =>
    intro cur body0 c body h
    rw [vertRounds, C27_viable] at h
    cases hv : applicable x (!ctx.inputMono) (!ctx.designMono) with
    | false =>
      rw [hv, if_pos (by simp)] at h
      rcases ih _ _ _ _ h with ⟨b, a, h1, h2, h3, h4, h5⟩ | ⟨h1, h2, h3⟩
      · left
        refine ⟨x :: b, a, by simp [h1], h2, h3, ?_, h5⟩
        intro c' hc' ha
        rcases List.mem_cons.1 hc' with rfl | hc'
        · rw [hv] at ha; simp at ha
        · exact h4 c' hc' ha
      · right
        refine ⟨?_, h2, h3⟩
        intro c' hc'
        rcases List.mem_cons.1 hc' with rfl | hc'
        · exact hv
        · exact h1 c' hc'
    | true =>
      rw [hv, if_neg (by simp)] at h
      obtain ⟨west, hw, h⟩ := Res.bind_eq_ok.1 h
      obtain ⟨east, he, h⟩ := Res.bind_eq_ok.1 h
      obtain ⟨body', hb, h⟩ := Res.bind_eq_ok.1 h
      have hwith : BodyWith db d lines ctx x body' := by
        refine ⟨west, east, ?_, ?_, hb⟩
        · split
          · rename_i hl; rw [if_pos hl] at hw; simp at hw; exact hw
          · rename_i hl; rw [if_neg hl] at hw; exact hw
        · split
          · rename_i hl; rw [if_pos hl] at he; simp at he; exact he
          · rename_i hl; rw [if_neg hl] at he; exact he
      left
      cases hs : sufficientBodyQuality d ctx body' with
      | true =>
        rw [hs, if_pos rfl] at h
        simp at h
        obtain ⟨rfl, rfl⟩ := h
        exact ⟨[], r, rfl, hv, hwith, by simp, Or.inl hs⟩
      | false =>
        rw [hs, if_neg (by simp)] at h
        rcases ih _ _ _ _ h with ⟨b, a, h1, h2, h3, h4, h5⟩ | ⟨h1, h2, h3⟩
        · refine ⟨x :: b, a, by simp [h1], h2, h3, ?_, h5⟩
          intro c' hc' ha
          rcases List.mem_cons.1 hc' with rfl | hc'
          · exact ⟨body', hwith, hs⟩
          · exact h4 c' hc' ha
        · subst h2 h3
          exact ⟨[], r, rfl, hv, hwith, by simp, Or.inr h1⟩

theorem vertLines_congr (db : CharDb) (lines : List Line) (ctx ctx' : RemoveCtx) (he : ctx.emptySide = ctx'.emptySide) (c : CompType)
    (west east : List ShapeLine) : ∀ n i, vertLines db lines ctx c west east n i = vertLines db lines ctx' c west east n i := by
  intro n
  induction n with
  | zero => intro i; rfl
  | succ n ih => intro i; rw [vertLines, vertLines, he]; simp only [ih]

theorem bodyWith_congr {db : CharDb} {d : Design} {lines : List Line} {ctx ctx' : RemoveCtx} {c : CompType} {body : List LineCtx}
    (he : ctx.emptySide = ctx'.emptySide) (h1 : ctx.bottomStart = ctx'.bottomStart) (h2 : ctx.topEnd = ctx'.topEnd)
    (h : BodyWith db d lines ctx c body) : BodyWith db d lines ctx' c body := by
  unfold BodyWith at h ⊢
  obtain ⟨w, e, a, b, hc⟩ := h
  rw [vertLines_congr db lines ctx ctx' he] at hc
  rw [← he, ← h1, ← h2] at *
  exact ⟨w, e, a, b, by rw [h1, h2] at *; exact hc⟩

theorem recognised_congr {db : CharDb} {d : Design} {lines : List Line} {ctx ctx' : RemoveCtx} {top : Bool} {i j : Nat}
    (he : ctx.emptySide = ctx'.emptySide) (h1 : ctx.inputMono = ctx'.inputMono) (h2 : ctx.designMono = ctx'.designMono) :
    Recognised db d lines ctx top i j ↔ Recognised db d lines ctx' top i j := by
  unfold Recognised
  rw [he, h1, h2]

theorem sufficient_congr {d : Design} {ctx ctx' : RemoveCtx} {body : List LineCtx} (he : ctx.emptySide = ctx'.emptySide) :
    sufficientBodyQuality d ctx body = sufficientBodyQuality d ctx' body := by
  unfold sufficientBodyQuality
  rw [he]

theorem some_applicable (a b : Bool) : ¬ ∀ c' ∈ compTypes, applicable c' a b = false := by
  cases a <;> cases b <;> decide

/-- C64: the box found.  It reaches from the first to the last line that is not blank.  Its top (bottom) part are the lines recognised from
the first (last) line on, none if the design has nothing there.  The lines in between are the body. -/
theorem C64_box (db : CharDb) (d : Design) (i : Input) (ctx : RemoveCtx) (h : findBox db d i = .ok (some ctx)) :
    ctx.inputMono = !inputColoured i.lines ∧ ctx.designMono = !designColoured d ∧ ctx.emptySide = determineEmptySides d ∧
    ((∃ l, i.lines[ctx.topStart]? = some l ∧ textIsBlank db l.text = false) ∧
      ∀ (k : Nat) l, k < ctx.topStart → i.lines[k]? = some l → textIsBlank db l.text = true) ∧
    ((∃ l, 0 < ctx.bottomEnd ∧ i.lines[ctx.bottomEnd - 1]? = some l ∧ textIsBlank db l.text = false) ∧
      ∀ (k : Nat) l, ctx.bottomEnd ≤ k → i.lines[k]? = some l → textIsBlank db l.text = true) ∧
    (if ctx.emptySide.top then ctx.topEnd = ctx.topStart else
      ∃ k, ctx.topEnd = ctx.topStart + k ∧ k ≤ (d.shape .NE).height ∧
        (∀ m, m < k → ctx.topStart + m < i.lines.length ∧
          ∃ j, j < (d.shape .NE).height ∧ Recognised db d i.lines ctx true (ctx.topStart + m) j) ∧
        (k = (d.shape .NE).height ∨ i.lines.length ≤ ctx.topEnd ∨
          ∀ j, j < (d.shape .NE).height → ¬ Recognised db d i.lines ctx true ctx.topEnd j)) ∧
    (if ctx.emptySide.bottom then ctx.bottomStart = ctx.bottomEnd else
      ∃ k, ctx.bottomStart + k = ctx.bottomEnd ∧ k ≤ (d.shape .SE).height ∧
        (∀ m, ctx.bottomStart ≤ m → m < ctx.bottomEnd →
          ∃ j, j < (d.shape .SE).height ∧ Recognised db d i.lines ctx false m j) ∧
        (k = (d.shape .SE).height ∨ ctx.bottomStart = 0 ∨
          ∀ j, j < (d.shape .SE).height → ¬ Recognised db d i.lines ctx false (ctx.bottomStart - 1) j)) ∧
    ctx.bodyNum = ctx.bottomStart - ctx.topEnd ∧
    (if ctx.bodyNum = 0 ∨ (ctx.emptySide.left = true ∧ ctx.emptySide.right = true) then ctx.body = List.replicate ctx.bodyNum {}
      else applicable ctx.compType (!ctx.inputMono) (!ctx.designMono) = true ∧ BodyWith db d i.lines ctx ctx.compType ctx.body ∧
        ∃ before after, compTypes = before ++ ctx.compType :: after ∧
          (∀ c' ∈ before, applicable c' (!ctx.inputMono) (!ctx.designMono) = true →
            ∃ body', BodyWith db d i.lines ctx c' body' ∧ sufficientBodyQuality d ctx body' = false) ∧
          (sufficientBodyQuality d ctx ctx.body = true ∨ ∀ c' ∈ after, applicable c' (!ctx.inputMono) (!ctx.designMono) = false)) := by
  unfold findBox at h
  simp only [Res.bind_eq_ok] at h
  obtain ⟨dm, hdm, im, him, h⟩ := h
  split at h
  · simp at h
  rename_i hf
  have hf' : findFirstLine db i.lines < i.lines.length := by omega
  obtain ⟨f1, f2⟩ := findFirstLine_spec db i.lines
  obtain ⟨l1, l2, l3, l4⟩ := findLastLine_spec db i.lines hf'
  simp only [Res.bind_eq_ok] at h
  obtain ⟨⟨k, c1⟩, hq, ⟨k', c2⟩, hq', h⟩ := h
  have hm1 := C27_input _ _ him
  have hm2 := C27_design _ _ hdm
  have hn : ∀ a b : Nat, (if a > b then a - b else 0) = a - b := by intro a b; split <;> omega
  simp only [hn] at h
  -- the contexts after the two searches
  have htop : c1 =
        { emptySide := determineEmptySides d, designMono := dm, inputMono := im, topStart := findFirstLine db i.lines, compType := c1.compType } ∧
      (if (determineEmptySides d).top then k = 0 else
      k ≤ (d.shape .NE).height ∧
      (∀ m, m < k → findFirstLine db i.lines + m < i.lines.length ∧
        ∃ j, j < (d.shape .NE).height ∧ Recognised db d i.lines c1 true (findFirstLine db i.lines + m) j) ∧
      (k = (d.shape .NE).height ∨ i.lines.length ≤ findFirstLine db i.lines + k ∨
        ∀ j, j < (d.shape .NE).height → ¬ Recognised db d i.lines c1 true (findFirstLine db i.lines + k) j)) := by
    split at hq
    · rename_i he
      simp only [Res.ok.injEq, Prod.mk.injEq] at hq
      obtain ⟨rfl, rfl⟩ := hq
      exact ⟨rfl, by rw [if_pos he]⟩
    · rename_i he
      obtain ⟨a1, a2, a3, a4⟩ := C25_top _ _ _ _ _ _ hq
      refine ⟨a4, ?_⟩
      rw [if_neg he]
      refine ⟨a1, ?_, ?_⟩
      · intro m hm
        obtain ⟨b1, j, b2, b3⟩ := a2 m hm
        exact ⟨b1, j, b2, (recognised_ctx a4).2 b3⟩
      · rcases a3 with a3 | a3 | a3
        · exact Or.inl a3
        · exact Or.inr (Or.inl a3)
        · exact Or.inr (Or.inr (fun j hj hr => a3 j hj ((recognised_ctx a4).1 hr)))
  obtain ⟨hc1, htop⟩ := htop
  have e1 : c1.emptySide = determineEmptySides d := by rw [hc1]
  have hbot : c2 = { c1 with topEnd := findFirstLine db i.lines + k, bottomEnd := findLastLine db i.lines + 1, compType := c2.compType } ∧
      (if (determineEmptySides d).bottom then k' = 0 else
      k' ≤ (d.shape .SE).height ∧
      (∀ m, m < k' → m < findLastLine db i.lines + 1 ∧
        ∃ j, j < (d.shape .SE).height ∧ Recognised db d i.lines c1 false (findLastLine db i.lines + 1 - 1 - m) j) ∧
      (k' = (d.shape .SE).height ∨ findLastLine db i.lines + 1 ≤ k' ∨
        ∀ j, j < (d.shape .SE).height → ¬ Recognised db d i.lines c1 false (findLastLine db i.lines + 1 - 1 - k') j)) := by
    split at hq'
    · rename_i he
      simp only [Res.ok.injEq, Prod.mk.injEq] at hq'
      obtain ⟨rfl, rfl⟩ := hq'
      have he : (determineEmptySides d).bottom = true := by rw [← e1]; exact he
      exact ⟨rfl, by rw [if_pos he]⟩
    · rename_i he
      have he : ¬ (determineEmptySides d).bottom = true := by rw [← e1]; exact he
      obtain ⟨a1, a2, a3, a4⟩ := C25_bottom _ _ _ _ _ _ hq'
      refine ⟨a4, ?_⟩
      rw [if_neg he]
      refine ⟨a1, ?_, ?_⟩
      · intro m hm
        obtain ⟨b1, j, b2, b3⟩ := a2 m hm
        exact ⟨b1, j, b2, b3⟩
      · rcases a3 with a3 | a3 | a3
        · exact Or.inl a3
        · exact Or.inr (Or.inl a3)
        · exact Or.inr (Or.inr (fun j hj hr => a3 j hj hr))
  obtain ⟨hc2, hbot⟩ := hbot
  have e2 : c2.emptySide = determineEmptySides d ∧ c2.inputMono = im ∧ c2.designMono = dm ∧ c2.topStart = findFirstLine db i.lines ∧
      c2.topEnd = findFirstLine db i.lines + k ∧ c2.bottomEnd = findLastLine db i.lines + 1 := by
    rw [hc2, hc1]; exact ⟨rfl, rfl, rfl, rfl, rfl, rfl⟩
  have e1' : c1.inputMono = im ∧ c1.designMono = dm := by rw [hc1]; exact ⟨rfl, rfl⟩
  have hk' : k' ≤ findLastLine db i.lines + 1 := by
    split at hbot
    · omega
    · obtain ⟨_, b, _⟩ := hbot
      rcases Nat.eq_zero_or_pos k' with h0 | h0
      · omega
      · have := (b (k' - 1) (by omega)).1; omega
  -- all but the last part
  suffices hs : (ctx.emptySide = determineEmptySides d ∧ ctx.inputMono = im ∧ ctx.designMono = dm ∧ ctx.topStart = findFirstLine db i.lines ∧
      ctx.topEnd = findFirstLine db i.lines + k ∧ ctx.bottomEnd = findLastLine db i.lines + 1 ∧
      ctx.bottomStart = findLastLine db i.lines + 1 - k' ∧ ctx.bodyNum = ctx.bottomStart - ctx.topEnd) ∧
      (if ctx.bodyNum = 0 ∨ (ctx.emptySide.left = true ∧ ctx.emptySide.right = true) then ctx.body = List.replicate ctx.bodyNum {}
      else applicable ctx.compType (!ctx.inputMono) (!ctx.designMono) = true ∧ BodyWith db d i.lines ctx ctx.compType ctx.body ∧
        ∃ before after, compTypes = before ++ ctx.compType :: after ∧
          (∀ c' ∈ before, applicable c' (!ctx.inputMono) (!ctx.designMono) = true →
            ∃ body', BodyWith db d i.lines ctx c' body' ∧ sufficientBodyQuality d ctx body' = false) ∧
          (sufficientBodyQuality d ctx ctx.body = true ∨ ∀ c' ∈ after, applicable c' (!ctx.inputMono) (!ctx.designMono) = false)) by
    obtain ⟨⟨s1, s2, s3, s4, s5, s6, s7, s8⟩, s9⟩ := hs
    have hrec : ∀ top m j, Recognised db d i.lines ctx top m j ↔ Recognised db d i.lines c1 top m j := fun top m j =>
      recognised_congr (by rw [s1, e1]) (by rw [s2, e1'.1]) (by rw [s3, e1'.2])
    refine ⟨by rw [s2, hm1], by rw [s3, hm2], s1, ?_, ?_, ?_, ?_, s8, s9⟩
    · rw [s4]; exact ⟨f2 hf', f1⟩
    · rw [s6]
      obtain ⟨l, g1, g2⟩ := l4
      exact ⟨⟨l, by omega, by simpa using g1, g2⟩, fun k l hk => l3 k l (by omega)⟩
    · simp only [hrec]
      rw [s1, s4, s5]
      split at htop
      · rename_i he; rw [if_pos he]; omega
      · rename_i he; rw [if_neg he]
        exact ⟨k, rfl, htop.1, htop.2.1, htop.2.2⟩
    · simp only [hrec]
      rw [s1, s6, s7]
      split at hbot
      · rename_i he; rw [if_pos he]; omega
      · rename_i he; rw [if_neg he]
        refine ⟨k', by omega, hbot.1, ?_, ?_⟩
        · intro m h1 h2
          obtain ⟨_, j, g1, g2⟩ := hbot.2.1 (findLastLine db i.lines - m) (by omega)
          rw [show findLastLine db i.lines + 1 - 1 - (findLastLine db i.lines - m) = m by omega] at g2
          exact ⟨j, g1, g2⟩
        · rcases hbot.2.2 with g | g | g
          · exact Or.inl g
          · right; left; omega
          · right; right
            rw [show findLastLine db i.lines + 1 - k' - 1 = findLastLine db i.lines + 1 - 1 - k' by omega]
            exact g
  by_cases hpos : findLastLine db i.lines + 1 - k' - (findFirstLine db i.lines + k) > 0
  · rw [if_pos hpos] at h
    simp only [Res.bind_eq_ok, Res.ok.injEq, Option.some.injEq] at h
    obtain ⟨c', h, rfl⟩ := h
    unfold findVerticalShapes at h
    split at h
    · rename_i hside
      simp only [Res.ok.injEq] at h
      subst h
      refine ⟨⟨e2.1, e2.2.1, e2.2.2.1, e2.2.2.2.1, e2.2.2.2.2.1, e2.2.2.2.2.2, rfl, ?_⟩, ?_⟩
      · simp only [e2.2.2.2.2.1]
      · rw [if_pos (Or.inr hside)]
    · rename_i hside
      simp only [Res.bind_eq_ok, Res.ok.injEq] at h
      obtain ⟨⟨c, body⟩, hx, rfl⟩ := h
      refine ⟨⟨e2.1, e2.2.1, e2.2.2.1, e2.2.2.2.1, e2.2.2.2.2.1, e2.2.2.2.2.2, rfl, ?_⟩, ?_⟩
      · simp only [e2.2.2.2.2.1]
      · rw [if_neg (by rintro (hz | hz); · simp only at hz; omega
                       · exact hside hz)]
        rcases C64_rounds _ _ _ _ _ _ _ _ _ hx with ⟨b, a, h1, h2, h3, h4, h5⟩ | ⟨h1, _⟩
        · refine ⟨h2, bodyWith_congr (ctx := _) (by rfl) (by rfl) (by rfl) h3, b, a, h1, ?_, ?_⟩
          · intro c'' hc'' ha
            obtain ⟨body', g1, g2⟩ := h4 c'' hc'' ha
            exact ⟨body', bodyWith_congr (by rfl) (by rfl) (by rfl) g1, g2⟩
          · exact h5
        · exact absurd h1 (some_applicable _ _)
  · rw [if_neg hpos] at h
    simp only [Res.ok.injEq, Option.some.injEq] at h
    subst h
    refine ⟨⟨e2.1, e2.2.1, e2.2.2.1, e2.2.2.2.1, e2.2.2.2.2.1, e2.2.2.2.2.2, rfl, ?_⟩, ?_⟩
    · simp only [e2.2.2.2.2.1]
    · rw [if_pos (Or.inl (by simp only; omega))]

/-! ## Examples -/

private def starBox : Input := mkInput ["", "  *****", "  * a *", "   bc *", "  *****", ""] 2

/-- a box in which the left side of one body line is missing -/
example : (match findBox sampleDb starDesign starBox with
    | .ok (some ctx) => [ctx.topStart, ctx.topEnd, ctx.bottomStart, ctx.bottomEnd] ::
        ctx.body.map (fun l => [l.westStart, l.westEnd, l.westQuality, l.eastStart, l.eastEnd, l.eastQuality])
    | _ => []) = [[1, 2, 4, 5], [2, 3, 1, 6, 7, 1], [0, 0, 0, 6, 7, 1]] := by decide +kernel

/-- the longest match is taken, shortened by the blank on its outer side -/
example : sideOf true (matchVerticalSide sampleDb true (lit "# x") 0 0
    [{ empty := false, text := fromAscii (lit "#"), elastic := true }, { empty := false, text := fromAscii (lit " # "), elastic := true }] {}) =
    (0, 2, 2) := by decide +kernel

end Boxes
