import Verif.Lemmas.Parse

/-!
# Lemmas about the parser: what holds of the current design between its entries
-/
namespace Boxes
open Spec ShapeName
set_option linter.unusedSimpArgs false

/-! ## shapes of one SHAPES block -/

/-- A shape as it comes from a definition: its lines satisfy `Q`, nothing is cached. -/
structure Plain (Q : Bxs → Prop) (s : Shape) : Prop where
  solid : Solid s
  line : ∀ b ∈ s.lines, Q b
  left : s.blankLeft = none
  right : s.blankRight = none

theorem plain_empty (Q : Bxs → Prop) : Plain Q emptyShape :=
  ⟨⟨rfl, by simp [emptyShape], fun _ => rfl, by simp [emptyShape]⟩, by simp [emptyShape], rfl, rfl⟩

/-- the lines of a shape that comes from these texts -/
structure FromTexts (db : CharDb) (texts : List Str) (s : Shape) : Prop where
  lines : s.lines.map some = texts.map (fromUnicode db)
  cols : ∀ b ∈ s.lines, b.cols = s.width ∧ b.validInShape db = true
  height : s.height = texts.length
  rest : s = { emptyShape with lines := s.lines, width := s.width, height := s.height }

theorem firstShapeLine_ok {db : CharDb} {t : Str} {s : Shape} (h : firstShapeLine db t = .ok s) : FromTexts db [t] s := by
  unfold firstShapeLine at h
  split at h
  · simp at h
  · rename_i line hl
    split at h
    · simp at h
    · rename_i hv
      simp only [Res.ok.injEq] at h
      subst h
      exact ⟨by simp [hl], by intro b hb; simp at hb; subst hb; exact ⟨rfl, by simpa using hv⟩, rfl, rfl⟩

theorem addShapeLine_ok {db : CharDb} {t : Str} {ts : List Str} {s s' : Shape} (hs : FromTexts db ts s)
    (h : addShapeLine db s t = .ok s') : FromTexts db (ts ++ [t]) s' ∧ s'.width = s.width := by
  unfold addShapeLine at h
  split at h
  · simp at h
  · rename_i line hl
    split at h
    · simp at h
    · rename_i hw
      split at h
      · simp at h
      · rename_i hv
        simp only [Res.ok.injEq] at h
        subst h
        refine ⟨⟨by simp [hl, hs.lines], ?_, by simp [hs.height], ?_⟩, rfl⟩
        · intro b hb
          rcases List.mem_append.1 hb with hb | hb
          · exact hs.cols b hb
          · simp at hb; subst hb
            exact ⟨by simpa using hw, by simpa using hv⟩
        · have := hs.rest
          rw [this]

theorem addShapeLines_ok {db : CharDb} : ∀ (rest ts : List Str) {s s' : Shape}, FromTexts db ts s →
    addShapeLines db rest s = .ok s' → FromTexts db (ts ++ rest) s' ∧ s'.width = s.width := by
  intro rest
  induction rest with
  | nil =>
    intro ts s s' hs h
    simp only [addShapeLines, Res.ok.injEq] at h
    subst h
    exact ⟨by simpa using hs, rfl⟩
  | cons t rest ih =>
    intro ts s s' hs h
    unfold addShapeLines at h
    obtain ⟨s1, h1, h2⟩ := Res.bind_eq_ok.1 h
    obtain ⟨f1, w1⟩ := addShapeLine_ok hs h1
    obtain ⟨f2, w2⟩ := ih _ f1 h2
    exact ⟨by simpa using f2, by rw [w2, w1]⟩

/-- A shape definition yields the shape with these lines, or no shape if the lines have no width. -/
theorem shapeDef_ok {db : CharDb} {texts : List Str} {s : Shape} (h : shapeDef db texts = .ok s) :
    s = emptyShape ∨ (texts ≠ [] ∧ FromTexts db texts s ∧ 0 < s.width) := by
  cases texts with
  | nil => simp only [shapeDef, Res.ok.injEq] at h; exact Or.inl h.symm
  | cons t rest =>
    unfold shapeDef at h
    obtain ⟨s1, h1, h⟩ := Res.bind_eq_ok.1 h
    obtain ⟨s2, h2, h⟩ := Res.bind_eq_ok.1 h
    have f1 := firstShapeLine_ok h1
    obtain ⟨f2, -⟩ := addShapeLines_ok rest [t] f1 h2
    simp only [Res.ok.injEq] at h
    split at h
    · exact Or.inl h.symm
    · rename_i hn
      subst h
      right
      simp only [Bool.or_eq_true, decide_eq_true_eq, not_or] at hn
      exact ⟨by simp, by simpa using f2, by omega⟩

theorem FromTexts.plain {db : CharDb} {Q : Bxs → Prop} {texts : List Str} {s : Shape} (h : FromTexts db texts s)
    (hne : texts ≠ []) (hw : 0 < s.width)
    (hq : ∀ t ∈ texts, ∀ b, fromUnicode db t = some b → b.validInShape db = true → Q b) : Plain Q s := by
  have hlen : s.lines.length = texts.length := by
    have := congrArg List.length h.lines; simpa using this
  refine ⟨⟨by rw [hlen, h.height], fun b hb => (h.cols b hb).1, ?_, fun _ => hw⟩, ?_, by rw [h.rest]; rfl, by rw [h.rest]; rfl⟩
  · intro hl
    rw [hl] at hlen
    simp at hlen
    exact absurd (List.length_eq_zero_iff.1 hlen.symm) hne
  · intro b hb
    have : some b ∈ texts.map (fromUnicode db) := by rw [← h.lines]; exact List.mem_map_of_mem hb
    obtain ⟨t, ht, hb'⟩ := List.mem_map.1 this
    exact hq t ht b hb' (h.cols b hb).2

/-- `st'` has further shapes in the current design, but is otherwise like `st`. -/
structure MoreShapes (Q : Bxs → Prop) (st st' : ParseState) : Prop where
  keep : ∀ n, Present (st.cur.core.shape n) → st'.cur.core.shape n = st.cur.core.shape n
  plain : (∀ n, Plain Q (st.cur.core.shape n)) → ∀ n, Plain Q (st'.cur.core.shape n)
  rest : ∃ f k, st' = { st with cur := { st.cur with core := { st.cur.core with shape := f } }, shapeSpecs := k }

theorem MoreShapes.refl (Q : Bxs → Prop) (st : ParseState) : MoreShapes Q st st :=
  ⟨fun _ _ => rfl, fun h => h, st.cur.core.shape, st.shapeSpecs, rfl⟩

theorem MoreShapes.trans {Q : Bxs → Prop} {a b c : ParseState} (h1 : MoreShapes Q a b) (h2 : MoreShapes Q b c) : MoreShapes Q a c := by
  refine ⟨?_, fun h => h2.plain (h1.plain h), ?_⟩
  · intro n hp
    rw [h2.keep n (by rw [h1.keep n hp]; exact hp), h1.keep n hp]
  · obtain ⟨f, k, rfl⟩ := h1.rest
    obtain ⟨g, j, rfl⟩ := h2.rest
    exact ⟨g, j, rfl⟩

theorem slistEntry_ok {db : CharDb} {Q : Bxs → Prop} {st st' : ParseState} {n : ShapeName} {texts : List Str}
    (hq : ∀ t ∈ texts, ∀ b, fromUnicode db t = some b → b.validInShape db = true → Q b)
    (h : slistEntry db st n texts = .ok st') : MoreShapes Q st st' := by
  unfold slistEntry at h
  obtain ⟨s, hs, h⟩ := Res.bind_eq_ok.1 h
  split at h
  · rename_i he
    simp only [Res.ok.injEq] at h
    subst h
    refine ⟨?_, ?_, _, _, rfl⟩
    · intro m hp
      show (if m = n then s else _) = _
      rw [if_neg]
      rintro rfl
      exact (isEmpty_iff_not_present _).1 he hp
    · intro hpl m
      show Plain Q (if m = n then s else _)
      split
      · rcases shapeDef_ok hs with rfl | ⟨h1, h2, h3⟩
        · exact plain_empty Q
        · exact h2.plain h1 h3 hq
      · exact hpl m
  · simp at h

theorem slist_ok {db : CharDb} {Q : Bxs → Prop} : ∀ (defs : List (ShapeName × List Str)) {st st' : ParseState},
    (∀ t ∈ defs.flatMap (·.2), ∀ b, fromUnicode db t = some b → b.validInShape db = true → Q b) →
    slist db defs st = .ok st' → MoreShapes Q st st' := by
  intro defs
  induction defs with
  | nil =>
    intro st st' _ h
    simp only [slist, Res.ok.injEq] at h
    subst h; exact MoreShapes.refl Q st
  | cons p rest ih =>
    obtain ⟨n, texts⟩ := p
    intro st st' hq h
    unfold slist at h
    obtain ⟨s1, h1, h2⟩ := Res.bind_eq_ok.1 h
    simp only [List.flatMap_cons, List.mem_append] at hq
    exact (slistEntry_ok (fun t ht => hq t (Or.inl ht)) h1).trans (ih (fun t ht => hq t (Or.inr ht)) h2)

/-! ## minimum sizes -/

theorem sideSum_eq (shape : ShapeName → Shape) (size : Shape → Nat) (side : List ShapeName) :
    sideSum shape size side = total size shape side := by
  unfold sideSum total
  have key : ∀ (l : List ShapeName) (c : Nat),
      l.foldl (fun c n => if (shape n).isEmpty then c else c + size (shape n)) c =
        c + (l.map (fun n => if Present (shape n) then size (shape n) else 0)).sum := by
    intro l
    induction l with
    | nil => intro c; simp
    | cons n rest ih =>
      intro c
      rw [List.foldl_cons, ih, List.map_cons, List.sum_cons]
      by_cases hp : Present (shape n)
      · rw [if_pos hp, if_neg (by rw [(present_iff _).2 hp]; simp)]; omega
      · rw [if_neg hp, if_pos ((isEmpty_iff_not_present _).2 hp)]; omega
  rw [key]; simp

theorem total_mono {a b : ShapeName → Shape} (size : Shape → Nat) (h : ∀ n, Present (a n) → b n = a n) (names : List ShapeName) :
    total size a names ≤ total size b names := by
  unfold total
  induction names with
  | nil => simp
  | cons n rest ih =>
    simp only [List.map_cons, List.sum_cons]
    by_cases hp : Present (a n)
    · rw [if_pos hp, h n hp, if_pos hp]; omega
    · rw [if_neg hp]; omega

theorem total_congr {a b : ShapeName → Shape} (size : Shape → Nat) (h : ∀ n, (Present (a n) ↔ Present (b n)) ∧ size (a n) = size (b n))
    (names : List ShapeName) : total size a names = total size b names := by
  unfold total
  congr 1
  apply List.map_congr_left
  intro n _
  rw [(h n).2]
  by_cases hp : Present (a n)
  · rw [if_pos hp, if_pos ((h n).1.1 hp)]
  · rw [if_neg hp, if_neg (fun hq => hp ((h n).1.2 hq))]

/-- height of the highest shape -/
def tallest (shape : ShapeName → Shape) : Nat :=
  allShapes.foldl (fun m n => max m (if Present (shape n) then (shape n).height else 0)) 0

theorem raise_eq_max (m c : Nat) : raise m c = max m c := by unfold raise; split <;> omega

theorem maxh_fold (shape : ShapeName → Shape) (l : List ShapeName) : ∀ m : Nat,
    l.foldl (fun m n => if (shape n).isEmpty then m else raise m (shape n).height) m =
      l.foldl (fun m n => max m (if Present (shape n) then (shape n).height else 0)) m := by
  induction l with
  | nil => intro m; rfl
  | cons n rest ih =>
    intro m
    rw [List.foldl_cons, List.foldl_cons, ih]
    congr 1
    by_cases hp : Present (shape n)
    · rw [if_pos hp, if_neg (by rw [(present_iff _).2 hp]; simp), raise_eq_max]
    · rw [if_neg hp, if_pos ((isEmpty_iff_not_present _).2 hp)]; omega

theorem foldl_max (f : ShapeName → Nat) (l : List ShapeName) : ∀ m : Nat,
    l.foldl (fun m n => max m (f n)) m = max m (l.foldl (fun m n => max m (f n)) 0) := by
  induction l with
  | nil => intro m; simp
  | cons n rest ih =>
    intro m
    rw [List.foldl_cons, List.foldl_cons, ih, ih (max 0 (f n))]
    omega

theorem foldl_max_mono (f g : ShapeName → Nat) (h : ∀ n, f n ≤ g n) (l : List ShapeName) :
    l.foldl (fun m n => max m (f n)) 0 ≤ l.foldl (fun m n => max m (g n)) 0 := by
  induction l with
  | nil => simp
  | cons n rest ih =>
    rw [List.foldl_cons, List.foldl_cons, foldl_max, foldl_max g]
    have := h n
    omega

theorem tallest_mono {a b : ShapeName → Shape} (h : ∀ n, Present (a n) → b n = a n) : tallest a ≤ tallest b := by
  unfold tallest
  apply foldl_max_mono
  intro n
  by_cases hp : Present (a n)
  · rw [if_pos hp, h n hp, if_pos hp]; omega
  · rw [if_neg hp]; omega

theorem foldl_max_ge (f : ShapeName → Nat) (l : List ShapeName) : ∀ n ∈ l, f n ≤ l.foldl (fun m n => max m (f n)) 0 := by
  induction l with
  | nil => intro n hn; simp at hn
  | cons a rest ih =>
    intro n hn
    rw [List.foldl_cons, foldl_max]
    rcases List.mem_cons.1 hn with rfl | h
    · omega
    · have := ih n h; omega

theorem foldl_max_mem (f : ShapeName → Nat) (l : List ShapeName) (hl : l ≠ []) :
    ∃ n ∈ l, f n = l.foldl (fun m n => max m (f n)) 0 := by
  induction l with
  | nil => exact absurd rfl hl
  | cons a rest ih =>
    rw [List.foldl_cons, foldl_max]
    by_cases hr : rest = []
    · subst hr; exact ⟨a, by simp, by simp⟩
    · obtain ⟨n, hn, he⟩ := ih hr
      by_cases hle : f a ≤ f n
      · exact ⟨n, by simp [hn], by omega⟩
      · exact ⟨a, by simp, by omega⟩

theorem tallest_ge {shape : ShapeName → Shape} {n : ShapeName} (hp : Present (shape n)) : (shape n).height ≤ tallest shape := by
  have := foldl_max_ge (fun n => if Present (shape n) then (shape n).height else 0) allShapes n (by cases n <;> decide)
  simp only [if_pos hp] at this
  exact this

theorem tallest_mem {shape : ShapeName → Shape} {n : ShapeName} (hp : Present (shape n)) :
    ∃ n, Present (shape n) ∧ (shape n).height = tallest shape := by
  obtain ⟨m, _, he⟩ := foldl_max_mem (fun n => if Present (shape n) then (shape n).height else 0) allShapes (by decide)
  have h1 := tallest_ge hp
  have h2 : 0 < (shape n).height := hp.2.2
  by_cases hm : Present (shape m)
  · rw [if_pos hm] at he; exact ⟨m, hm, he⟩
  · rw [if_neg hm] at he
    have : tallest shape = 0 := he.symm
    omega

/-! ## the invariant -/

/-- The shapes of the design have been completed. -/
structure Final (d : DesignDef) : Prop where
  corner : ∀ n ∈ [NW, NE, SE, SW], Present (d.core.shape n)
  middle : ∀ side, side < 4 → ∃ n ∈ midShapes (nthSide side), Present (d.core.shape n)
  named : ∀ n, (d.core.shape n).name = n
  sizes : checkSizes d.core.shape = true
  minwidth : d.core.minwidth = max (total (·.width) d.core.shape northSide) (total (·.width) d.core.shape southSide)
  minheight : d.core.minheight = max (total (·.height) d.core.shape eastSide) (total (·.height) d.core.shape westSide)
  maxheight : d.maxshapeheight = tallest d.core.shape

/-- The design has no shapes yet. -/
structure Fresh (d : DesignDef) : Prop where
  none : ∀ n, ¬ Present (d.core.shape n)
  minwidth : d.core.minwidth = 0
  minheight : d.core.minheight = 0
  maxheight : d.maxshapeheight = 0

/-- What holds between the entries of a design -/
structure Inv (Q : Bxs → Prop) (st : ParseState) : Prop where
  plain : ∀ n, Plain Q (st.cur.core.shape n)
  phase : Fresh st.cur ∨ Final st.cur
  se : 2 ≤ st.seChecks → seCheck st.cur.core.shape = true
  mand : st.mandatory ≤ st.seChecks + (if st.cur.sample.isSome then 1 else 0)

theorem inv_init (Q : Bxs → Prop) (ds : List DesignDef) (ps : List Bxs) : Inv Q { designs := ds, parents := ps } :=
  ⟨fun _ => plain_empty Q, Or.inl ⟨fun _ h => absurd h.1 (by simp [emptyShape]), rfl, rfl, rfl⟩, by simp, by simp⟩

theorem present_rename (s : Shape) (n : ShapeName) : Present { s with name := n } ↔ Present s := Iff.rfl

theorem checkSizes_rename (shape : ShapeName → Shape) (h : checkSizes shape = true) :
    checkSizes (fun n => { shape n with name := n }) = true := h

theorem seCheck_rename (shape : ShapeName → Shape) (h : seCheck shape = true) :
    seCheck (fun n => { shape n with name := n }) = true := by
  have h' := (seCheck_iff _).1 h
  exact (seCheck_iff _).2 ⟨h'.exist, h'.corner, h'.top, h'.right, h'.bottom, h'.left⟩

theorem Completion.plain {Q : Bxs → Prop} {a b : ShapeName → Shape} (h : Completion a b) (hQ : ∀ w, Q (fromAscii (nspaces w)))
    (ha : ∀ n, Plain Q (a n)) (n : ShapeName) : Plain Q (b n) := by
  by_cases hp : Present (a n)
  · rw [h.keep n hp]; exact ha n
  · rcases h.made n hp with he | ⟨w, k, e, hw, hk, -, -, he⟩
    · rw [he]; exact ha n
    · rw [he]
      refine ⟨⟨by simp, ?_, ?_, fun _ => hw⟩, ?_, (ha n).left, (ha n).right⟩
      · intro b hb
        have := List.eq_of_mem_replicate hb
        subst this
        simp [fromAscii, nspaces]
      · intro hl
        have := congrArg List.length hl
        simp at this; omega
      · intro b hb
        have := List.eq_of_mem_replicate hb
        subst this; exact hQ w

theorem finalize_inv {Q : Bxs → Prop} {env : ParseEnv} {st st1 st' : ParseState} (hQ : ∀ w, Q (fromAscii (nspaces w)))
    (hi : Inv Q st) (hm : MoreShapes Q st st1) (h : finalizeShapes env st1 = .ok st') : Inv Q st' ∧ Final st'.cur := by
  obtain ⟨shape2, hc, hcor, hmid, hsz, hse, -, rfl⟩ := finalize_ok h
  have hpl1 := hm.plain hi.plain
  have hpl2 := hc.plain hQ hpl1
  have hk : ∀ n, Present (st.cur.core.shape n) → shape2 n = st.cur.core.shape n := by
    intro n hp
    have e := hm.keep n hp
    rw [hc.keep n (by rw [e]; exact hp), e]
  have hkeep := hm.keep
  obtain ⟨f, k, rfl⟩ := hm.rest
  simp only at hse hc hkeep hpl1 ⊢
  have hw1 := total_mono (·.width) hk northSide
  have hw2 := total_mono (·.width) hk southSide
  have hh1 := total_mono (·.height) hk eastSide
  have hh2 := total_mono (·.height) hk westSide
  have hmax := tallest_mono hk
  have hold : st.cur.core.minwidth ≤ max (total (·.width) shape2 northSide) (total (·.width) shape2 southSide) ∧
      st.cur.core.minheight ≤ max (total (·.height) shape2 eastSide) (total (·.height) shape2 westSide) ∧
      st.cur.maxshapeheight ≤ tallest shape2 := by
    rcases hi.phase with hf | hf
    · rw [hf.minwidth, hf.minheight, hf.maxheight]; exact ⟨by omega, by omega, by omega⟩
    · rw [hf.minwidth, hf.minheight, hf.maxheight]; exact ⟨by omega, by omega, by omega⟩
  have hfin : Final { st.cur with
        maxshapeheight := allShapes.foldl
          (fun m n => if (shape2 n).isEmpty then m else raise m (shape2 n).height) st.cur.maxshapeheight
        core := { st.cur.core with
          minwidth := raise (raise st.cur.core.minwidth (sideSum shape2 (·.width) northSide)) (sideSum shape2 (·.width) southSide)
          minheight := raise (raise st.cur.core.minheight (sideSum shape2 (·.height) eastSide)) (sideSum shape2 (·.height) westSide)
          shape := fun n => { shape2 n with name := n } } } := by
    refine ⟨hcor, hmid, fun _ => rfl, checkSizes_rename _ hsz, ?_, ?_, ?_⟩
    · simp only [raise_eq_max, sideSum_eq]
      show _ = max (total (·.width) shape2 northSide) (total (·.width) shape2 southSide)
      omega
    · simp only [raise_eq_max, sideSum_eq]
      show _ = max (total (·.height) shape2 eastSide) (total (·.height) shape2 westSide)
      omega
    · have e : tallest (fun n => { shape2 n with name := n }) = tallest shape2 := rfl
      simp only [e]
      rw [maxh_fold, foldl_max]
      have e2 : allShapes.foldl (fun m n => max m (if Present (shape2 n) then (shape2 n).height else 0)) 0 = tallest shape2 := rfl
      rw [e2]
      omega
  refine ⟨⟨?_, Or.inr hfin, ?_, ?_⟩, hfin⟩
  · intro n
    have p := hpl2 n
    exact ⟨⟨p.solid.lines, p.solid.cols, p.solid.nothing, p.solid.wide⟩, p.line, p.left, p.right⟩
  · intro h2
    simp only at h2
    exact seCheck_rename _ (hse (by omega))
  · have := hi.mand
    simp only
    omega

/-! ## ELASTIC -/

theorem elist_foldl : ∀ (names : List ShapeName) (st : ParseState), ∃ f : ShapeName → Shape,
    names.foldl elistEntry st = { st with cur := { st.cur with core := { st.cur.core with shape := f } } } ∧
    ∀ n, f n = { st.cur.core.shape n with elastic := (st.cur.core.shape n).elastic || decide (n ∈ names) } := by
  intro names
  induction names with
  | nil => intro st; exact ⟨st.cur.core.shape, rfl, by intro n; simp⟩
  | cons m rest ih =>
    intro st
    obtain ⟨f, hf, hfn⟩ := ih (elistEntry st m)
    refine ⟨f, by rw [List.foldl_cons, hf]; rfl, ?_⟩
    intro n
    rw [hfn n]
    by_cases hn : n = m
    · subst hn; simp [elistEntry, Design.setShape]
    · simp [elistEntry, Design.setShape, hn]

theorem elasticBlock_inv {Q : Bxs → Prop} {st st' : ParseState} {names : List ShapeName} (hi : Inv Q st)
    (h : elasticBlock st names = .ok st') : Inv Q st' := by
  unfold elasticBlock at h
  simp only at h
  obtain ⟨f, hf, hfn⟩ := elist_foldl names st
  rw [hf] at h
  simp only at h
  split at h
  · simp at h
  rename_i hse
  simp only [Res.ok.injEq] at h
  subst h
  have hpres : ∀ n, Present (st.cur.core.shape n) ↔ Present (f n) := by intro n; rw [hfn n]; exact Iff.rfl
  refine ⟨?_, ?_, ?_, ?_⟩
  · intro n
    show Plain Q (f n)
    have p := hi.plain n
    rw [hfn n]
    exact ⟨⟨p.solid.lines, p.solid.cols, p.solid.nothing, p.solid.wide⟩, p.line, p.left, p.right⟩
  · rcases hi.phase with hp | hp
    · left
      exact ⟨fun n hpn => hp.none n ((hpres n).2 hpn), hp.minwidth, hp.minheight, hp.maxheight⟩
    · right
      have hmeas : ∀ n, (f n).width = (st.cur.core.shape n).width ∧ (f n).height = (st.cur.core.shape n).height := by
        intro n; rw [hfn n]; exact ⟨rfl, rfl⟩
      refine ⟨fun n hn => (hpres n).1 (hp.corner n hn), ?_, ?_, ?_, ?_, ?_, ?_⟩
      · intro side hs
        obtain ⟨n, hn, hpn⟩ := hp.middle side hs
        exact ⟨n, hn, (hpres n).1 hpn⟩
      · intro n; show (f n).name = n; rw [hfn n]; exact hp.named n
      · have := hp.sizes
        unfold checkSizes at this ⊢
        simpa only [(fun n => (hmeas n).1 : ∀ n, _), (fun n => (hmeas n).2 : ∀ n, _)] using this
      · show st.cur.core.minwidth = max (total _ f _) (total _ f _)
        rw [hp.minwidth, total_congr (b := f) (·.width) (fun n => ⟨hpres n, (hmeas n).1.symm⟩),
          total_congr (b := f) (·.width) (fun n => ⟨hpres n, (hmeas n).1.symm⟩)]
      · show st.cur.core.minheight = max (total _ f _) (total _ f _)
        rw [hp.minheight, total_congr (b := f) (·.height) (fun n => ⟨hpres n, (hmeas n).2.symm⟩),
          total_congr (b := f) (·.height) (fun n => ⟨hpres n, (hmeas n).2.symm⟩)]
      · show st.cur.maxshapeheight = tallest f
        rw [hp.maxheight]
        unfold tallest
        congr 1
        funext m n
        rw [(hmeas n).2]
        by_cases hpn : Present (st.cur.core.shape n)
        · rw [if_pos hpn, if_pos ((hpres n).1 hpn)]
        · rw [if_neg hpn, if_neg (fun h => hpn ((hpres n).2 h))]
  · intro h2
    simp only at h2
    simp only [Bool.and_eq_true, decide_eq_true_eq, Bool.not_eq_true', not_and, Bool.not_eq_false] at hse
    exact hse (by omega)
  · have := hi.mand
    simp only
    omega

/-! ## the other entries -/

/-- Nothing that concerns the shapes has changed. -/
theorem inv_of_same {Q : Bxs → Prop} {st st' : ParseState} (hi : Inv Q st) (h1 : st'.cur.core.shape = st.cur.core.shape)
    (h2 : st'.cur.core.minwidth = st.cur.core.minwidth) (h3 : st'.cur.core.minheight = st.cur.core.minheight)
    (h4 : st'.cur.maxshapeheight = st.cur.maxshapeheight) (h5 : st'.seChecks = st.seChecks)
    (h6 : st'.mandatory ≤ st.seChecks + (if st'.cur.sample.isSome then 1 else 0)) : Inv Q st' := by
  refine ⟨by rw [h1]; exact hi.plain, ?_, by rw [h1, h5]; exact hi.se, by rw [h5]; exact h6⟩
  rcases hi.phase with hp | hp
  · left; exact ⟨by rw [h1]; exact hp.none, by rw [h2]; exact hp.minwidth, by rw [h3]; exact hp.minheight, by rw [h4]; exact hp.maxheight⟩
  · right
    exact ⟨by rw [h1]; exact hp.corner, by rw [h1]; exact hp.middle, by rw [h1]; exact hp.named, by rw [h1]; exact hp.sizes,
      by rw [h1, h2]; exact hp.minwidth, by rw [h1, h3]; exact hp.minheight, by rw [h1, h4]; exact hp.maxheight⟩

theorem recordKeyword_same {db : CharDb} {d d' : DesignDef} {k v : Str} (h : recordKeyword db d k v = .ok d') :
    d'.core.shape = d.core.shape ∧ d'.core.minwidth = d.core.minwidth ∧ d'.core.minheight = d.core.minheight ∧
      d'.maxshapeheight = d.maxshapeheight ∧ d'.sample = d.sample := by
  unfold recordKeyword at h
  split at h
  · simp at h
  · split at h
    · simp at h
    · split at h
      · simp only [Res.ok.injEq] at h; subst h; exact ⟨rfl, rfl, rfl, rfl, rfl⟩
      · split at h
        · simp only [Res.ok.injEq] at h; subst h; exact ⟨rfl, rfl, rfl, rfl, rfl⟩
        · split at h
          · obtain ⟨t, -, h⟩ := Res.bind_eq_ok.1 h
            simp only [Res.ok.injEq] at h; subst h; exact ⟨rfl, rfl, rfl, rfl, rfl⟩
          · split at h
            · split at h
              · simp only [Res.ok.injEq] at h; subst h; exact ⟨rfl, rfl, rfl, rfl, rfl⟩
              · simp at h
            · simp at h

theorem sampleBlock_same {env : ParseEnv} {st st' : ParseState} {t : Str} (h : sampleBlock env st t = .ok st') :
    ∃ line, st.cur.sample = none ∧ line.isEmpty = false ∧
      st' = { st with cur := { st.cur with sample := some line }, mandatory := st.mandatory + 1 } := by
  unfold sampleBlock at h
  split at h
  · simp at h
  · split at h
    · simp at h
    · rename_i hs
      split at h
      · simp at h
      · rename_i line _
        split at h
        · simp at h
        · rename_i he
          split at h
          · simp at h
          · simp only [Res.ok.injEq] at h
            exact ⟨line, by simpa using hs, by simpa using he, h.symm⟩

theorem parseItem_inv {Q : Bxs → Prop} {env : ParseEnv} (hQ : ∀ w, Q (fromAscii (nspaces w))) {st st' : ParseState} {i : Item}
    (hq : ∀ t ∈ shapeTexts [i], ∀ b, fromUnicode env.db t = some b → b.validInShape env.db = true → Q b)
    (hi : Inv Q st) (h : parseItem env st i = .ok st') : Inv Q st' := by
  cases i with
  | keyword k v =>
    obtain ⟨d, hd, h⟩ := Res.bind_eq_ok.1 h
    simp only [Res.ok.injEq] at h; subst h
    obtain ⟨a, b, c, e, f⟩ := recordKeyword_same hd
    exact inv_of_same hi a b c e rfl (by simp only [f]; exact hi.mand)
  | tags vs =>
    obtain ⟨d, hd, h⟩ := Res.bind_eq_ok.1 h
    simp only [Res.ok.injEq] at h; subst h
    exact inv_of_same hi rfl rfl rfl rfl rfl hi.mand
  | sample t =>
    obtain ⟨line, hn, -, rfl⟩ := sampleBlock_same h
    have := hi.mand
    rw [hn] at this
    exact inv_of_same hi rfl rfl rfl rfl rfl (by simp at this ⊢; omega)
  | shapes defs =>
    obtain ⟨s1, h1, h2⟩ := Res.bind_eq_ok.1 h
    have hm := slist_ok (Q := Q) defs (fun t ht => hq t (by simpa [shapeTexts] using ht)) h1
    exact (finalize_inv hQ hi hm h2).1
  | elastic names => exact elasticBlock_inv hi h
  | replace f s r =>
    obtain ⟨d, hd, h⟩ := Res.bind_eq_ok.1 h
    simp only [Res.ok.injEq] at h; subst h
    exact inv_of_same hi rfl rfl rfl rfl rfl hi.mand
  | reverse f s r =>
    obtain ⟨d, hd, h⟩ := Res.bind_eq_ok.1 h
    simp only [Res.ok.injEq] at h; subst h
    exact inv_of_same hi rfl rfl rfl rfl rfl hi.mand
  | padding es =>
    simp only [parseItem, Res.ok.injEq] at h; subst h
    exact inv_of_same hi rfl rfl rfl rfl rfl hi.mand
  | other =>
    simp only [parseItem, Res.ok.injEq] at h; subst h; exact hi
  | bad => simp [parseItem] at h

theorem parseItems_inv {Q : Bxs → Prop} {env : ParseEnv} (hQ : ∀ w, Q (fromAscii (nspaces w))) : ∀ (items : List Item)
    {st st' : ParseState},
    (∀ t ∈ shapeTexts items, ∀ b, fromUnicode env.db t = some b → b.validInShape env.db = true → Q b) →
    Inv Q st → parseItems env items st = .ok st' → Inv Q st' := by
  intro items
  induction items with
  | nil =>
    intro st st' _ hi h
    simp only [parseItems, Res.ok.injEq] at h; subst h; exact hi
  | cons i rest ih =>
    intro st st' hq hi h
    unfold parseItems at h
    obtain ⟨s1, h1, h2⟩ := Res.bind_eq_ok.1 h
    have e : shapeTexts (i :: rest) = shapeTexts [i] ++ shapeTexts rest := by simp [shapeTexts]
    rw [e] at hq
    exact ih (fun t ht => hq t (List.mem_append_right _ ht))
      (parseItem_inv hQ (fun t ht => hq t (List.mem_append_left _ ht)) hi h1) h2

theorem addAliases_same {env : ParseEnv} : ∀ (l : List Str) {st st' : ParseState}, addAliases env l st = .ok st' →
    ∃ as, st' = { st with cur := { st.cur with aliases := as } } := by
  intro l
  induction l with
  | nil => intro st st' h; simp only [addAliases, Res.ok.injEq] at h; subst h; exact ⟨_, rfl⟩
  | cons a rest ih =>
    intro st st' h
    unfold addAliases at h
    obtain ⟨s1, h1, h2⟩ := Res.bind_eq_ok.1 h
    obtain ⟨as, rfl⟩ := ih h2
    unfold addAlias at h1
    split at h1
    · simp at h1
    · split at h1
      · simp only [Res.ok.injEq] at h1; subst h1; exact ⟨as, rfl⟩
      · simp only [Res.ok.injEq] at h1; subst h1; exact ⟨as, rfl⟩

theorem startDesign_same {env : ParseEnv} {st st' : ParseState} {name : Str} (h : startDesign env st name = .ok st') :
    st' = { st with cur := { st.cur with name := name } } := by
  unfold startDesign at h
  simp only at h
  split at h
  · simp at h
  · simp only [Res.ok.injEq] at h; exact h.symm

theorem addDesign_same {st : ParseState} {e : Str} {d : DesignDef} (h : addDesign st e = .ok d) :
    d = st.cur ∧ 3 ≤ st.mandatory ∧ designNameExists st st.cur.name = false ∧ strCaseEq st.cur.name e = true := by
  unfold addDesign at h
  split at h
  · simp at h
  · rename_i h1
    split at h
    · simp at h
    · split at h
      · simp at h
      · rename_i h2 h3
        simp only [Res.ok.injEq] at h
        exact ⟨h.symm, by omega, by simpa using h3, by simpa using h1⟩

/-- An accepted design: its shapes were completed and passed all checks. -/
theorem parseDesign_inv {Q : Bxs → Prop} {env : ParseEnv} (hQ : ∀ w, Q (fromAscii (nspaces w))) {ds : List DesignDef} {ps : List Bxs}
    {name : Str} {aliases : List Str} {items : List Item} {nameAtEnd : Str} {d : DesignDef}
    (hq : ∀ t ∈ shapeTexts items, ∀ b, fromUnicode env.db t = some b → b.validInShape env.db = true → Q b)
    (h : parseDesign env { designs := ds, parents := ps } name aliases items nameAtEnd = .ok d) :
    (∀ n, Plain Q (d.core.shape n)) ∧ Final d ∧ seCheck d.core.shape = true := by
  unfold parseDesign at h
  obtain ⟨s1, h1, h'⟩ := Res.bind_eq_ok.1 h
  obtain ⟨s2, h2, h''⟩ := Res.bind_eq_ok.1 h'
  obtain ⟨s3, h3, h'''⟩ := Res.bind_eq_ok.1 h''
  obtain ⟨as, rfl⟩ := addAliases_same _ h1
  have := startDesign_same h2
  subst this
  have hi0 := inv_of_same (st' := { designs := ds, cur := { aliases := as, name := name }, parents := ps }) (inv_init Q ds ps) rfl rfl rfl rfl rfl
    (by simp)
  have hi := parseItems_inv hQ items hq hi0 h3
  obtain ⟨rfl, hm, -, -⟩ := addDesign_same h'''
  have hmand := hi.mand
  have hse := hi.se (by split at hmand <;> omega)
  refine ⟨hi.plain, ?_, hse⟩
  rcases hi.phase with hp | hp
  · have he := (seCheck_iff _).1 hse
    exfalso
    rcases he.top with ⟨a, -⟩ | ⟨-, a, -⟩ | ⟨-, -, a⟩ | ⟨a, -⟩ <;> exact hp.none _ (he.exist _ a)
  · exact hp

theorem parseDecls_all {P : DesignDef → Prop} {env : ParseEnv} : ∀ (decls : List Decl) (ds : List DesignDef) (ps : List Bxs)
    {ds' : List DesignDef} {ps' : List Bxs} {early : Bool},
    (∀ name aliases items e, Decl.box name aliases items e ∈ decls → ∀ ds ps d,
      parseDesign env { designs := ds, parents := ps } name aliases items e = .ok d → P d) →
    (∀ d ∈ ds, P d) → parseDecls env decls ds ps = .ok (ds', ps', early) → ∀ d ∈ ds', P d := by
  intro decls
  induction decls with
  | nil =>
    intro ds ps ds' ps' early _ hds h
    simp only [parseDecls, Res.ok.injEq, Prod.mk.injEq] at h
    obtain ⟨rfl, -, -⟩ := h
    exact hds
  | cons decl rest ih =>
    intro ds ps ds' ps' early hP hds h
    have hP' := fun name aliases items e (hm : Decl.box name aliases items e ∈ rest) =>
      hP name aliases items e (List.mem_cons_of_mem _ hm)
    cases decl with
    | parent path =>
      unfold parseDecls at h
      exact ih _ _ hP' hds h
    | box name aliases items e =>
      unfold parseDecls at h
      split at h
      · simp at h
      · split at h
        · simp at h
        · exact ih _ _ hP' hds h
      · rename_i d hd
        have hd' := hP name aliases items e List.mem_cons_self ds ps d hd
        have hall : ∀ x ∈ ds ++ [d], P x := by
          intro x hx
          rcases List.mem_append.1 hx with hx | hx
          · exact hds x hx
          · simp at hx; subst hx; exact hd'
        split at h
        · simp only [Res.ok.injEq, Prod.mk.injEq] at h
          obtain ⟨rfl, -, -⟩ := h
          exact hall
        · exact ih _ _ hP' hall h

theorem parseConfig_decls {env : ParseEnv} {decls : List Decl} {ps : List Bxs} {r : List DesignDef × List Bxs}
    (h : parseConfig env decls ps = .ok r) : ∃ early, parseDecls env decls [] ps = .ok (r.1, r.2, early) := by
  unfold parseConfig at h
  obtain ⟨⟨ds, ps', early⟩, h1, h⟩ := Res.bind_eq_ok.1 h
  simp only at h
  refine ⟨early, ?_⟩
  split at h
  · simp only [Res.ok.injEq] at h; subst h; exact h1
  · split at h
    · simp at h
    · simp only [Res.ok.injEq] at h; subst h; exact h1

/-- Every design of a file satisfies what every accepted design satisfies. -/
theorem parseConfig_all {Q : Bxs → Prop} {env : ParseEnv} (hQ : ∀ w, Q (fromAscii (nspaces w))) {decls : List Decl} {ps ps' : List Bxs}
    {ds : List DesignDef} (hq : ∀ t ∈ fileTexts decls, ∀ b, fromUnicode env.db t = some b → b.validInShape env.db = true → Q b)
    (h : parseConfig env decls ps = .ok (ds, ps')) :
    ∀ d ∈ ds, (∀ n, Plain Q (d.core.shape n)) ∧ Final d ∧ seCheck d.core.shape = true := by
  obtain ⟨early, h1⟩ := parseConfig_decls h
  refine parseDecls_all decls [] ps ?_ (by simp) h1
  intro name aliases items e hm ds ps d hd
  refine parseDesign_inv hQ ?_ hd
  intro t ht
  refine hq t ?_
  unfold fileTexts
  rw [List.mem_flatMap]
  exact ⟨_, hm, ht⟩

end Boxes
