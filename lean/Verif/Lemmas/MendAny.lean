import Verif.Props.FoundPipe
import Verif.Props.Mend

/-!
# What drawing a box depends on; mending a box in a design that is detected (C93)
-/
namespace Boxes
open Spec ShapeName
set_option linter.unusedSimpArgs false

/-! ## drawing does not depend on the caches -/

/-- a shape without its blankward caches -/
def uncachedShape (s : Shape) : Shape := { s with blankLeft := none, blankRight := none }

/-- a design without the blankward caches of its shapes -/
def uncached (d : Design) : Design := { d with shape := fun n => uncachedShape (d.shape n) }

theorem middle_uncached (d : Design) (l : List ShapeName) : middle (uncached d) l = (middle d l).map uncachedShape := by
  unfold middle; rw [List.map_map]; rfl

theorem initSide_uncached (f : Shape → Nat) (hf : ∀ s, f (uncachedShape s) = f s) (l : List Shape) :
    initSide f (l.map uncachedShape) = initSide f l := by
  unfold initSide
  rw [List.map_map]
  congr 1
  apply List.map_congr_left
  intro s _
  simp only [Function.comp_apply, hf]
  rfl

theorem horizPrecalc_uncached (d : Design) (m f : Nat) : horizPrecalc (uncached d) m f = horizPrecalc d m f := by
  unfold horizPrecalc
  simp only [middle_uncached, initSide_uncached (·.width) (fun _ => rfl)]
  rfl

theorem vertPrecalc_uncached (d : Design) (m f : Nat) : vertPrecalc (uncached d) m f = vertPrecalc d m f := by
  unfold vertPrecalc
  simp only [middle_uncached, initSide_uncached (·.height) (fun _ => rfl)]
  rfl

/-- cells without caches -/
def uncachedCells (l : List (Shape × Nat)) : List (Shape × Nat) := l.map (fun p => (uncachedShape p.1, p.2))

theorem uncachedCells_drop (l : List (Shape × Nat)) :
    (uncachedCells l).dropWhile (fun p => p.2 == 0) = uncachedCells (l.dropWhile (fun p => p.2 == 0)) := by
  induction l with
  | nil => rfl
  | cons p r ih =>
    unfold uncachedCells at ih ⊢
    simp only [List.map_cons, List.dropWhile_cons]
    cases h : p.2 == 0 with
    | true => simpa [h] using ih
    | false => simp [h]

theorem shapeSeq_uncached (w : Nat) : ∀ f j cells,
    shapeSeq w f j (uncachedCells cells) = (do let l ← shapeSeq w f j cells; .ok (l.map uncachedShape))
  | 0, j, cells => by
    unfold shapeSeq
    split <;> simp
  | f + 1, j, cells => by
    unfold shapeSeq
    split
    · simp
    · rw [uncachedCells_drop]
      cases h : cells.dropWhile (fun p => p.2 == 0) with
      | nil => simp [uncachedCells]
      | cons p r =>
        have ih := fun f' => shapeSeq_uncached w f (j + p.1.width) ((p.1, f') :: r)
        simp only [uncachedCells, List.map_cons] at ih ⊢
        have hw : (uncachedShape p.1).width = p.1.width := rfl
        rw [hw]
        cases hs : Res.sub p.2 p.1.width with
        | fail n => simp
        | ub => simp
        | ok f' =>
          simp only [Res.ok_bind]
          rw [ih f']
          cases shapeSeq w f (j + p.1.width) ((p.1, f') :: r) <;> simp

theorem lineOf_uncached (i : Nat) : ∀ l, lineOf i (l.map uncachedShape) = lineOf i l
  | [] => rfl
  | s :: r => by simp only [List.map_cons, lineOf, lineOf_uncached i r]; rfl

theorem charsRequired_uncached (l : List Shape) : ∀ is, charsRequired (l.map uncachedShape) is = charsRequired l is
  | [] => rfl
  | i :: r => by simp only [charsRequired, lineOf_uncached, charsRequired_uncached l r]

theorem assembleLines_uncached (db : CharDb) (l : List Shape) (m w : Nat) : ∀ is, assembleLines db (l.map uncachedShape) m w is = assembleLines db l m w is
  | [] => rfl
  | i :: r => by simp only [assembleLines, lineOf_uncached, assembleLines_uncached db l m w r]

theorem vertAssemble_uncached (db : CharDb) (w h : Nat) (cells : List (Shape × Nat)) : vertAssemble db w h (uncachedCells cells) = vertAssemble db w h cells := by
  unfold vertAssemble
  rw [shapeSeq_uncached]
  cases shapeSeq w w 0 cells with
  | fail n => simp
  | ub => simp
  | ok l => simp only [Res.ok_bind, charsRequired_uncached, assembleLines_uncached]

theorem sideLines_uncached : ∀ n cells sc, sideLines n (uncachedCells cells) sc = sideLines n cells sc
  | 0, _, _ => rfl
  | n + 1, cells, sc => by
    unfold sideLines
    rw [uncachedCells_drop]
    have hl : ∀ l, (uncachedCells l).length = l.length := fun l => by simp [uncachedCells]
    simp only [hl]
    cases h : cells.dropWhile (fun p => p.2 == 0) with
    | nil => simp [uncachedCells]
    | cons p r =>
      have ih := fun k => sideLines_uncached n ((p.1, p.2 - 1) :: r) k
      simp only [uncachedCells, List.map_cons] at ih ⊢
      simp only [ih]
      rfl

theorem zip_uncached (l : List Shape) (f : List Nat) : (l.map uncachedShape).zip f = uncachedCells (l.zip f) := by
  unfold uncachedCells
  rw [List.zip_map_left]
  rfl

theorem uncachedCells_reverse (l : List (Shape × Nat)) : (uncachedCells l).reverse = uncachedCells l.reverse := by
  unfold uncachedCells; rw [List.map_reverse]

theorem horizAssemble_uncached (h : Nat) (a b : Shape) (cells : List (Shape × Nat)) :
    horizAssemble h (uncachedShape a) (uncachedShape b) (uncachedCells cells) = horizAssemble h a b cells := by
  unfold horizAssemble
  simp only [sideLines_uncached]
  rfl

theorem highest_uncached (d : Design) (l : List ShapeName) : highest (uncached d).shape l = highest d.shape l := by
  unfold highest; rfl
theorem widest_uncached (d : Design) (l : List ShapeName) : widest (uncached d).shape l = widest d.shape l := by
  unfold widest; rfl

theorem generateBox_uncached (db : CharDb) (d : Design) (i : Input) (f : Nat) : generateBox db (uncached d) i f = generateBox db d i f := by
  have h1 : horizGenerate db (uncached d) i.maxline f = horizGenerate db d i.maxline f := by
    unfold horizGenerate
    simp only [horizPrecalc_uncached, highest_uncached, middle_uncached, zip_uncached, uncachedCells_reverse, vertAssemble_uncached]
  have h2 : vertGenerate (uncached d) i.lines.length f = vertGenerate d i.lines.length f := by
    have hs : ∀ n, (uncached d).shape n = uncachedShape (d.shape n) := fun _ => rfl
    have hh : ∀ s, (uncachedShape s).height = s.height := fun _ => rfl
    unfold vertGenerate
    simp only [vertPrecalc_uncached, widest_uncached, middle_uncached, zip_uncached, uncachedCells_reverse, hs, horizAssemble_uncached, hh]
  unfold generateBox
  rw [h1, h2]

theorem outputLoop_uncached (db : CharDb) (opt : Opt) (d : Design) (i : Input) (box : Sides Shape) (lay : Layout) : ∀ n j v,
    outputLoop db opt (uncached d) i box lay n j v = outputLoop db opt d i box lay n j v
  | 0, _, _ => rfl
  | n + 1, j, v => by
    have : ∀ j v, outputRow db opt (uncached d) i box lay j v = outputRow db opt d i box lay j v := fun _ _ => rfl
    simp only [outputLoop, outputLoop_uncached db opt d i box lay n, this]

theorem generate_uncached (db : CharDb) (opt : Opt) (d : Design) (i : Input) (f : Nat) :
    handleGenerateBox db opt (uncached d) i f = handleGenerateBox db opt d i f := by
  have h : ∀ box, outputBox db opt (uncached d) i box = outputBox db opt d i box := by
    intro box
    have he : ∀ l, emptySide (uncached d).shape l = emptySide d.shape l := fun l => emptySide_bare d l
    unfold outputBox
    simp only [outputLoop_uncached, he]
    rfl
  unfold handleGenerateBox
  simp only [generateBox_uncached, h]

/-! ## drawing and the minimum size -/

/-- the minimum size matters only as far as it enlarges the box -/
theorem generate_sizes (db : CharDb) (opt : Opt) (d : Design) (w h : Nat) (i : Input) (f : Nat)
    (hw : targetLen i.maxline w (d.shape NW).width (d.shape NE).width = targetLen i.maxline d.minwidth (d.shape NW).width (d.shape NE).width)
    (hh : targetLen i.lines.length h (d.shape SW).height (d.shape NW).height = targetLen i.lines.length d.minheight (d.shape SW).height (d.shape NW).height) :
    handleGenerateBox db opt { d with minwidth := w, minheight := h } i f = handleGenerateBox db opt d i f := by
  have ho : ∀ box, outputBox db opt { d with minwidth := w, minheight := h } i box = outputBox db opt d i box := by
    intro box
    have : ∀ lay n j v, outputLoop db opt { d with minwidth := w, minheight := h } i box lay n j v = outputLoop db opt d i box lay n j v := by
      intro lay n
      induction n with
      | zero => intros; rfl
      | succ n ih =>
        intro j v
        have e : ∀ j v, outputRow db opt { d with minwidth := w, minheight := h } i box lay j v = outputRow db opt d i box lay j v := fun _ _ => rfl
        simp only [outputLoop, ih, e]
    unfold outputBox
    simp only [this]
    rfl
  have hg : generateBox db { d with minwidth := w, minheight := h } i f = generateBox db d i f := by
    have h1 : horizPrecalc { d with minwidth := w, minheight := h } i.maxline f = horizPrecalc d i.maxline f := by
      unfold horizPrecalc
      simp only
      rw [hw]
      rfl
    have h2 : vertPrecalc { d with minwidth := w, minheight := h } i.lines.length f = vertPrecalc d i.lines.length f := by
      unfold vertPrecalc
      simp only
      rw [hh]
      rfl
    unfold generateBox horizGenerate vertGenerate
    rw [h1, h2]
    rfl
  unfold handleGenerateBox
  rw [hg]
  simp only [ho]

theorem targetLen_fit (text pad c1 c2 a b min min' : Nat) (hpad : pad = a + b) (hmin : c1 + c2 ≤ min)
    (h : min' = min ∨ (min ≤ text + pad + (c1 + c2) ∧ min' ≤ text + pad + (c1 + c2) ∧ (0 < pad ∨ c1 + c2 ≤ min'))) :
    targetLen text (fitPadding 0 (text + (c1 + c2)) min' a b).2.2 c1 c2 = targetLen text (fitPadding 0 (text + (c1 + c2)) min a b).2.2 c1 c2 := by
  rcases h with rfl | ⟨h1, h2, h3⟩
  · rfl
  · have key : ∀ m, m ≤ text + pad + (c1 + c2) → (0 < pad ∨ c1 + c2 ≤ m) → targetLen text (fitPadding 0 (text + (c1 + c2)) m a b).2.2 c1 c2 = .ok (text + pad) := by
      intro m hm hc
      have ht : ∀ n, c1 + c2 ≤ n → targetLen text n c1 c2 = .ok (max text (n - c1 - c2)) := by
        intro n hn
        unfold targetLen Res.sub
        rw [if_pos (by omega), Res.ok_bind, if_pos (by omega), Res.ok_bind]
        congr 1
        split <;> omega
      have hf : (fitPadding 0 (text + (c1 + c2)) m a b).2.2 = if 0 < pad then text + pad + (c1 + c2) else m := by
        unfold fitPadding
        dsimp only
        repeat' split
        all_goals first | contradiction | rfl | omega | (simp only; omega; done) | skip
      rw [hf, ht _ (by split <;> omega)]
      congr 1
      split <;> omega
    rw [key _ h1 (.inr hmin), key _ h2 h3]

/-! ## the two rounds -/

/-- the program mends a box in a design that it detects -/
theorem run_mended_detected (s : Setup) (opt : Opt) (hm : opt.mend = 2) (hr : opt.r = true) (hkb : opt.killblank = 0) (hu : s.byUser = false) (d0 : Design) (ds : List Design) (n k : Nat)
    (hrev : s.revRules k = []) (hrules : s.rules k = [])
    {o1 o3 : Opt} (ho1 : o1 = { opt with mend := 1 }) (ho3 : o3 = { opt with mend := 0, r := false }) {d : Design} (hd : d = prepareDesign opt d0)
    {raw i j i2 : Input} {des : List Design} {d' dB : Design} {out : List (Bxs × Str)}
    (h1 : readAllInput s.db o1 s.junk s.pieces = .ok raw) (h2 : analyzeInput s.db o1 d [] raw = .ok i) (hl : i.lines ≠ [])
    (hdet : autodetectDesign s.db (adjustSizeAndPadding o1 d i :: ds) i.lines = .ok (some k, des)) (hk : des[k]? = some d')
    (h3 : handleRemoveBox s.db o1 d' [] i = .ok (j, [])) (hB : dB = { d' with minwidth := d.minwidth, minheight := d.minheight })
    (h4 : analyzeInput s.db o3 dB [] j = .ok i2) (hl2 : i2.lines ≠ [])
    (h5 : handleGenerateBox s.db o3 (adjustSizeAndPadding o3 dB i2) i2 s.fuel = some (.ok out)) :
    runProgram s opt (d0 :: ds) (n + 2) = some (.ok [.read, .removed [], .drawn out]) := by
  unfold runProgram
  simp only [List.getElem?_cons_zero, List.set_cons_zero]
  rw [← hd]
  have hone : mainPhase s d.minwidth d.minheight { opt := opt, designs := d :: ds, cur := 0 } =
      some (.ok (false, { opt := o1, designs := des, cur := k, input := j }, [.read, .removed []])) := by
    unfold mainPhase handleInput
    have ho : { opt with r := if opt.mend = 1 then false else opt.r, mend := opt.mend - 1 } = o1 := by
      rw [ho1, if_neg (by omega), hm]; rfl
    simp only [ho, List.getElem?_cons_zero, List.set_cons_zero]
    have hr1 : o1.r = true := by rw [ho1]; exact hr
    rw [if_pos (by omega), h1, Res.ok_bind]
    have e2 : analyzeInput s.db o1 { d with minwidth := d.minwidth, minheight := d.minheight } (s.rules 0) raw = .ok i := by
      rw [← h2]; exact analyze_rules hr1 d (s.rules 0) raw
    rw [e2, Res.ok_bind]
    simp only
    rw [if_neg hl, if_pos (by rw [if_neg (by omega)]; exact hr)]
    have hkb1 : ∀ e, killblankDefault o1.killblank e = 0 := by
      intro e
      rw [ho1]
      simp only [hkb]
      rfl
    have ho' : { o1 with killblank := 0 } = o1 := by rw [ho1]; simp only [← hkb]
    have hdd : adjustSizeAndPadding o1 { d with minwidth := d.minwidth, minheight := d.minheight } i = adjustSizeAndPadding o1 d i := rfl
    unfold removePhase
    simp only [hkb1, ho', hu, Bool.false_eq_true, if_false, detectDesignIfNeeded, hdd, hdet, Res.ok_bind, hk, Res.get_some, hrev, h3]
    rfl
  have htwo : mainPhase s d.minwidth d.minheight { opt := o1, designs := des, cur := k, input := j } =
      some (.ok (false, { opt := o3, designs := (des.set k dB).set k (adjustSizeAndPadding o3 dB i2), cur := k, input := i2 }, [.drawn out])) := by
    unfold mainPhase handleInput
    have ho : { o1 with r := if o1.mend = 1 then false else o1.r, mend := o1.mend - 1 } = o3 := by
      rw [ho1, ho3, if_pos rfl]; rfl
    simp only [ho, hk, ← hB]
    rw [if_neg (by rw [ho1]; simp), hrules, h4, Res.ok_bind]
    simp only
    rw [if_neg hl2, if_neg (by rw [ho1]; simp), h5]
    rfl
  unfold mainLoop
  rw [hone]
  simp only
  rw [if_pos ⟨trivial, by rw [ho1]; simp⟩]
  unfold mainLoop
  rw [htwo]
  simp only
  rw [if_neg (by rw [ho3]; simp)]
  rfl

/-- the text is at least as wide as what is visible of any line -/
theorem analyze_wide {db : CharDb} {opt : Opt} {d : Design} {raw i : Input} {lines : List Str} (hpl : ∀ s ∈ lines, PlainLine db s)
    (h : raw.lines.map Line.text = lines.map (fromUnicode db)) (ha : analyzeInput db opt d [] raw = .ok i) (hne : lines ≠ []) :
    i.lines.length = lines.length ∧ ∀ s ∈ lines, columns db (s.drop (leadingBlanks db s)) ≤ i.maxline := by
  have hb : ∀ s ∈ lines, ∃ b, fromUnicode db s = some b ∧ b.cols = b.indent + columns db (s.drop (leadingBlanks db s)) := by
    intro s hs
    have ht := Spec.Text.plain (fun c hc => ((hpl s hs).chars c hc).1)
    cases hb : fromUnicode db s with
    | none =>
      obtain ⟨c, hc, hf⟩ := (C01_rejected_iff db ht).1 hb
      exact absurd hf ((hpl s hs).chars c hc).2.2.2.1
    | some b =>
      obtain ⟨-, -, -, -, m1, -, m2, -⟩ := C01_metrics db ht hb
      refine ⟨b, rfl, ?_⟩
      have e : s.drop (leadingBlanks db s) = s.dropWhile (fun c => decide (Blank db c)) := by
        unfold leadingBlanks
        have := List.drop_left' (l₁ := s.takeWhile (fun c => decide (Blank db c))) (l₂ := s.dropWhile (fun c => decide (Blank db c))) rfl
        rwa [List.takeWhile_append_dropWhile] at this
      rw [m1, m2, e]
      unfold columns
      rw [← List.sum_append, ← List.map_append, List.takeWhile_append_dropWhile]
  have hT : HasTexts raw.lines (lines.map (fun s => (fromUnicode db s).getD emptyBxs)) := by
    unfold HasTexts
    rw [h, List.map_map]
    apply List.map_congr_left
    intro s hs
    obtain ⟨b, hb, -⟩ := hb s hs
    simp [hb]
  have hlen : raw.lines.length = lines.length := by simpa using congrArg List.length h
  have hine : raw.lines ≠ [] := by
    intro h0
    rw [h0] at hlen
    exact hne (List.length_eq_zero_iff.1 hlen.symm)
  obtain ⟨n, m, hci, hm1, -, hnm, hA, hB⟩ := analyzeInput_eq db opt d raw _ hT hine (by
    intro t ht
    obtain ⟨s, hs, rfl⟩ := List.mem_map.1 ht
    obtain ⟨b, e, e1⟩ := hb s hs
    rw [e]; simp only [Option.getD_some]; omega)
  have hmem : ∀ s ∈ lines, ∀ b, fromUnicode db s = some b → b ∈ lines.map (fun s => (fromUnicode db s).getD emptyBxs) := by
    intro s hs b e
    exact List.mem_map.2 ⟨s, hs, by rw [e]; rfl⟩
  by_cases hc : d.indentmode ≠ 't' ∧ opt.r = false
  · obtain ⟨ls, e1, e2, -⟩ := hA hc
    rw [e1] at ha
    obtain rfl := Res.ok.inj ha
    refine ⟨by simpa using congrArg List.length e2, fun s hs => ?_⟩
    obtain ⟨b, g1, g2⟩ := hb s hs
    have q1 := hm1 b (hmem s hs b g1)
    simp only
    by_cases h0 : 0 < b.cols
    · have := hci.le b (hmem s hs b g1) h0
      omega
    · omega
  · rw [hB hc] at ha
    obtain rfl := Res.ok.inj ha
    refine ⟨hlen, fun s hs => ?_⟩
    obtain ⟨b, g1, g2⟩ := hb s hs
    have q1 := hm1 b (hmem s hs b g1)
    simp only
    omega

end Boxes
