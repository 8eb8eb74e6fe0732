import Verif.Model.Build
import Verif.Spec.Build
import Verif.Props.Main
import Verif.Props.Parse

/-!
# Property C67: the design defined on the command line
-/
namespace Boxes
open Spec ShapeName
set_option linter.unusedSimpArgs false

/-- the shapes that `build_design` makes -/
private def builtShape (w : Bxs) (n : ShapeName) : Shape :=
  if n = W then { name := W, lines := [w], height := 1, width := w.cols, elastic := true }
  else match builtSize w.cols n with
    | none => emptyShape
    | some (wd, el) => { name := n, lines := [fromAscii (nspaces wd)], height := 1, width := wd, elastic := el }

private theorem genShape_one {w : Nat} (h0 : 0 < w) (h1 : w ≤ lineMaxBytes) : genShape w 1 = some [fromAscii (nspaces w)] := by
  unfold genShape
  rw [if_neg]
  · rfl
  · simp only [Bool.or_eq_true, decide_eq_true_eq, not_or]
    refine ⟨⟨?_, ?_⟩, ?_⟩ <;> (try simp) <;> omega

private theorem buildLoop_ok (w : Bxs) (h0 : 0 < w.cols) (h1 : w.cols ≤ lineMaxBytes) :
    buildLoop w.cols allShapes
      (fun m => if m = W then { name := W, lines := [w], height := 1, width := w.cols, elastic := true } else emptyShape) =
      .ok (builtShape w) := by
  have e1 : genShape 1 1 = some [fromAscii (nspaces 1)] := genShape_one (by decide) (by decide)
  have e2 := genShape_one h0 h1
  simp only [buildLoop, allShapes, builtSize, e1, e2]
  congr 1
  funext n
  cases n <;> simp [builtShape, builtSize]

private theorem build_eq (db : CharDb) (cld : Str) :
    buildDesign db cld = match fromUnicode db cld with
      | none => .ub
      | some w =>
        if w.cols = 0 ∨ lineMaxBytes < w.cols then .fail 1
        else if w.cols < utf8Bytes cld then .ub
        else .ok { name := lit "<Command Line Definition>", aliases := [], sample := some (fromAscii (lit "n/a")),
                   tags := [lit "transient"], maxshapeheight := 1, core := { indentmode := 'b', padding := ⟨0, 0, 0, 1⟩, shape := builtShape w, minwidth := w.cols + 2, minheight := 3 } } := by
  unfold buildDesign
  cases hw : fromUnicode db cld with
  | none => rfl
  | some w =>
    simp only [Res.get_some, Res.ok_bind]
    by_cases h : w.cols = 0 ∨ lineMaxBytes < w.cols
    · have : genShape w.cols 1 = none := by
        unfold genShape
        rw [if_pos]
        simp only [Bool.or_eq_true, decide_eq_true_eq]
        rcases h with h | h
        · exact .inl (.inl h)
        · exact .inr h
      rw [this, if_pos h]
    · rw [genShape_one (by omega) (by omega), if_neg h]
      simp only
      by_cases hb : w.cols < utf8Bytes cld
      · rw [if_pos hb, if_pos hb]
      · rw [if_neg hb, if_neg hb, buildLoop_ok w (by omega) (by omega)]
        rfl

private theorem bytes_eq (s : Str) : utf8Bytes s = bytes s := rfl

private theorem blank_analysed {db : CharDb} (hs : Sane db) (w : Nat) :
    GoodLine db (fromAscii (nspaces w)) (spaces w) ∧ (fromAscii (nspaces w)).memory = spaces w ∧ (fromAscii (nspaces w)).cols = w :=
  ⟨goodLine_blank hs w, rfl, by simp [fromAscii, nspaces]⟩

/-- C67: what `-c` does with its argument (`v` is the visible text).  A control character: undefined behaviour.  No columns, or
more than 16382: an error.  More bytes than columns, which is the case with any character outside of ASCII and with escape
sequences: undefined behaviour.  Otherwise, the design has exactly the shapes of `marginShape` and the given attributes. -/
theorem C67_design (db : CharDb) (hdb : Sane db) {cld v : Str} (ht : Text cld v) :
    ((∃ c ∈ v, Forbidden db c) → buildDesign db cld = .ub) ∧
    ((∀ c ∈ v, ¬ Forbidden db c) → columns db v = 0 ∨ 16382 < columns db v → buildDesign db cld = .fail 1) ∧
    ((∀ c ∈ v, ¬ Forbidden db c) → 0 < columns db v → columns db v ≤ 16382 → columns db v < bytes cld →
      buildDesign db cld = .ub) ∧
    ((∀ c ∈ v, ¬ Forbidden db c) → 0 < columns db v → columns db v ≤ 16382 → bytes cld ≤ columns db v →
      ∃ dd, buildDesign db cld = .ok dd ∧ dd.name = lit "<Command Line Definition>" ∧ dd.aliases = [] ∧ dd.author = none ∧
        dd.designer = none ∧ dd.sample = some (fromAscii (lit "n/a")) ∧ dd.tags = [lit "transient"] ∧ dd.maxshapeheight = 1 ∧
        dd.reprules = [] ∧ dd.revrules = [] ∧
        dd.core.indentmode = 'b' ∧ dd.core.padding = { top := 0, right := 0, bottom := 0, left := 1 } ∧
        dd.core.minwidth = columns db v + 2 ∧ dd.core.minheight = 3 ∧
        (∀ n, marginShape cld (columns db v) n = none → ¬ Present (dd.core.shape n)) ∧
        ∀ n t e, marginShape cld (columns db v) n = some (t, e) →
          ∃ b u, dd.core.shape n = { name := n, lines := [b], height := 1, width := columns db u, elastic := e } ∧
            GoodLine db b u ∧ b.memory = t ∧ b.cols = columns db u ∧ Text t u) := by
  have hok : (∀ c ∈ v, ¬ Forbidden db c) → ∃ w, fromUnicode db cld = some w ∧ GoodLine db w v ∧ w.memory = cld := analyse ht
  refine ⟨?_, ?_, ?_, ?_⟩
  · intro h
    rw [build_eq, (C01_rejected_iff db ht).2 h]
  · intro h h1
    obtain ⟨w, e, g, -⟩ := hok h
    have hc := g.cols
    rw [build_eq, e]
    simp only
    rw [if_pos (by unfold lineMaxBytes; omega)]
  · intro h h0 h1 h2
    obtain ⟨w, e, g, -⟩ := hok h
    have hc := g.cols
    rw [build_eq, e]
    simp only
    rw [if_neg (by unfold lineMaxBytes; omega), if_pos (by rw [bytes_eq]; omega)]
  · intro h h0 h1 h2
    obtain ⟨w, e, g, gm⟩ := hok h
    have hc := g.cols
    have hsp : ∀ k, columns db (spaces k) = k := by
      intro k
      rw [← (blank_analysed hdb k).1.cols, (blank_analysed hdb k).2.2]
    rw [build_eq, e]
    simp only
    rw [if_neg (by unfold lineMaxBytes; omega), if_neg (by rw [bytes_eq]; omega)]
    refine ⟨_, rfl, rfl, rfl, rfl, rfl, rfl, rfl, rfl, rfl, rfl, rfl, rfl, by rw [hc], rfl, ?_, ?_⟩
    · intro n hn
      cases n <;> simp [marginShape] at hn <;> simp [builtShape, builtSize, Present, emptyShape]
    · intro n t e hn
      have hb : ∀ k, ∃ b u, ({ name := n, lines := [fromAscii (nspaces k)], height := 1, width := k, elastic := e } : Shape) =
            { name := n, lines := [b], height := 1, width := columns db u, elastic := e } ∧
            GoodLine db b u ∧ b.memory = spaces k ∧ b.cols = columns db u ∧ Text (spaces k) u := by
        intro k
        obtain ⟨b1, b2, b3⟩ := blank_analysed hdb k
        exact ⟨_, spaces k, by rw [hsp], b1, b2, b1.cols, b2 ▸ b1.text⟩
      cases n <;> simp only [marginShape, Option.some.injEq, Prod.mk.injEq, reduceCtorEq] at hn <;> obtain ⟨rfl, rfl⟩ := hn
      case W => exact ⟨w, v, by simp [builtShape, hc], g, gm, hc, ht⟩
      case NW => simpa [builtShape, builtSize, hc] using hb (columns db v)
      case SW => simpa [builtShape, builtSize, hc] using hb (columns db v)
      all_goals simpa [builtShape, builtSize] using hb 1

private theorem build_ok {db : CharDb} {cld v : Str} (ht : Text cld v) {dd : DesignDef} (h : buildDesign db cld = .ok dd) :
    ∃ w, fromUnicode db cld = some w ∧ GoodLine db w v ∧ w.memory = cld ∧ 0 < w.cols ∧
      dd.core = { indentmode := 'b', padding := ⟨0, 0, 0, 1⟩, shape := builtShape w, minwidth := w.cols + 2, minheight := 3 } := by
  rw [build_eq] at h
  cases hw : fromUnicode db cld with
  | none => rw [hw] at h; simp at h
  | some w =>
    rw [hw] at h
    simp only at h
    by_cases h1 : w.cols = 0 ∨ lineMaxBytes < w.cols
    · rw [if_pos h1] at h; simp at h
    · rw [if_neg h1] at h
      by_cases h2 : w.cols < utf8Bytes cld
      · rw [if_pos h2] at h; simp at h
      · rw [if_neg h2] at h
        obtain ⟨g1, g2⟩ := goodLine_of ht hw
        exact ⟨w, rfl, g1, g2, by omega, by rw [← Res.ok.inj h]⟩

/-- C67: the design is one that boxes can be drawn with (C16, C20). -/
theorem C67_good (db : CharDb) (hdb : Sane db) {cld v : Str} (ht : Text cld v) {dd : DesignDef}
    (h : buildDesign db cld = .ok dd) : GoodDesign db dd.core := by
  obtain ⟨w, -, g, -, h0, e⟩ := build_ok ht h
  rw [e]
  have hne : w.cols ≠ 0 := by omega
  have hsl : ∀ (size : Shape → Nat) n, slotOf size (builtShape w n) = if Present (builtShape w n) then some (size (builtShape w n), (builtShape w n).elastic) else none :=
    fun _ _ => rfl
  have pb : ∀ n, Present (builtShape w n) ↔ n ∈ [NW, N, NE, E, SE, S, SW, W] := by
    intro n
    cases n <;> simp [builtShape, builtSize, Present, emptyShape, h0]
  refine ⟨?_, ?_, ?_, ?_, ?_, ?_, ?_, ?_, ?_, ?_, ?_, ?_⟩
  · intro n hn
    show GoodShape db (builtShape w n)
    have hb : ∀ k e, GoodShape db { name := n, lines := [fromAscii (nspaces k)], height := 1, width := k, elastic := e } := by
      intro k e
      obtain ⟨b1, -, b3⟩ := blank_analysed hdb k
      refine ⟨rfl, ?_⟩
      intro b hb
      obtain rfl := List.mem_singleton.1 hb
      exact ⟨⟨_, b1⟩, b3⟩
    have hp := (pb n).1 hn
    cases n <;> simp at hp
    case W =>
      refine ⟨rfl, ?_⟩
      intro b hb
      obtain rfl := List.mem_singleton.1 hb
      exact ⟨⟨_, g⟩, rfl⟩
    all_goals exact hb _ _
  · intro n hn
    exact (pb n).2 (by revert n; decide)
  · intro n hn hp
    revert hp
    cases n <;> simp [builtShape, builtSize, Present, emptyShape] at hn ⊢
  · intro n hn hp
    revert hp
    cases n <;> simp [builtShape, builtSize, Present, emptyShape] at hn ⊢
  · intro n hn hp
    revert hp
    cases n <;> simp [builtShape, builtSize, Present, emptyShape] at hn ⊢
  · intro n hn hp
    revert hp
    cases n <;> simp [builtShape, builtSize, Present, emptyShape] at hn ⊢
  · simp only [slots, List.map_cons, List.map_nil, hsl, pb]
    exact .mid none 1 none (by decide) (by decide) (by decide) (by simp)
  · simp only [slots, List.map_cons, List.map_nil, hsl, pb]
    exact .mid none 1 none (by decide) (by decide) (by decide) (by simp)
  · simp only [slots, List.map_cons, List.map_nil, hsl, pb]
    exact .mid none 1 none (by decide) (by decide) (by decide) (by simp)
  · simp only [slots, List.map_cons, List.map_nil, hsl, pb]
    exact .mid none 1 none (by decide) (by decide) (by decide) (by simp)
  · simp [builtShape, builtSize]
  · simp [builtShape, builtSize]

/-- each side of the design has one elastic shape, one character in extent; nothing is cached -/
theorem built_sides {db : CharDb} {cld : Str} {dd : DesignDef} (h : buildDesign db cld = .ok dd) :
    (∀ n, (dd.core.shape n).blankLeft = none ∧ (dd.core.shape n).blankRight = none) ∧
    slots (·.width) dd.core [NNW, N, NNE] = [none, some (1, true), none] ∧ slots (·.width) dd.core [SSE, S, SSW] = [none, some (1, true), none] ∧
    slots (·.height) dd.core [WSW, W, WNW] = [none, some (1, true), none] ∧ slots (·.height) dd.core [ENE, E, ESE] = [none, some (1, true), none] := by
  rw [build_eq] at h
  cases hw : fromUnicode db cld with
  | none => rw [hw] at h; simp at h
  | some w =>
    rw [hw] at h
    simp only at h
    by_cases h1 : w.cols = 0 ∨ lineMaxBytes < w.cols
    · rw [if_pos h1] at h; simp at h
    rw [if_neg h1] at h
    split at h
    · simp at h
    simp only [Res.ok.injEq] at h
    subst h
    have h0 : 0 < w.cols := by omega
    have hsl : ∀ (size : Shape → Nat) n, slotOf size (builtShape w n) = if Present (builtShape w n) then some (size (builtShape w n), (builtShape w n).elastic) else none :=
      fun _ _ => rfl
    have pb : ∀ n, Present (builtShape w n) ↔ n ∈ [NW, N, NE, E, SE, S, SW, W] := by
      intro n
      cases n <;> simp [builtShape, builtSize, Present, emptyShape, h0]
    refine ⟨?_, ?_, ?_, ?_, ?_⟩
    · intro n
      cases n <;> exact ⟨rfl, rfl⟩
    all_goals
      simp only [slots, List.map_cons, List.map_nil, hsl, pb]
      rfl

/-- the design after `main` has prepared it and the sizes are adjusted, no size and no padding being requested -/
private theorem adjusted {opt : Opt} {w : Bxs} (hw : opt.reqwidth = 0) (hh : opt.reqheight = 0) (hp : opt.padding = ⟨-1, -1, -1, -1⟩)
    (d : Design)
    (e : d = { indentmode := 'b', padding := ⟨0, 0, 0, 1⟩, shape := builtShape w, minwidth := w.cols + 2, minheight := 3 })
    (j : Input) :
    (prepareDesign opt d).shape = d.shape ∧
    (prepareDesign opt d).indentmode = (if opt.indentmode = '\x00' then 'b' else opt.indentmode) ∧
    adjustSizeAndPadding opt (prepareDesign opt d) j =
      { prepareDesign opt d with padding := ⟨0, 0, 0, 1⟩, minwidth := j.maxline + w.cols + 2, minheight := 3 } := by
  have h1 : applyExpectedSize opt d = d := by
    subst e
    simp [applyExpectedSize, hw, hh]
    omega
  have h2 : prepareDesign opt d = if opt.indentmode ≠ '\x00' then { d with indentmode := opt.indentmode } else d := by
    unfold prepareDesign; rw [h1]
  have h3 : (prepareDesign opt d).shape = builtShape w ∧ (prepareDesign opt d).padding = ⟨0, 0, 0, 1⟩ ∧
      (prepareDesign opt d).minwidth = w.cols + 2 ∧ (prepareDesign opt d).minheight = 3 := by
    rw [h2, e]; split <;> exact ⟨rfl, rfl, rfl, rfl⟩
  refine ⟨?_, ?_, ?_⟩
  · rw [h3.1, e]
  · rw [h2]
    by_cases h0 : opt.indentmode = '\x00'
    · simp [h0, e]
    · simp [h0]
  · have c1 : (builtShape w NW).width = w.cols := by simp [builtShape, builtSize]
    have c2 : (builtShape w NE).width = 1 := by simp [builtShape, builtSize]
    unfold adjustSizeAndPadding
    simp only [h3.1, h3.2.1, h3.2.2.1, h3.2.2.2, hp, effectivePadding, hw, hh, c1, c2]
    have f1 : fitPadding 0 (j.lines.length + ((builtShape w NW).height + (builtShape w SW).height)) 3 0 0 = (0, 0, 3) := by
      simp [fitPadding]
    have f2 : fitPadding 0 (j.maxline + (w.cols + 1)) (w.cols + 2) 1 0 = (1, 0, j.maxline + w.cols + 2) := by
      unfold fitPadding
      rw [if_pos (by omega)]
      by_cases hc : 1 + 0 + (j.maxline + (w.cols + 1)) > w.cols + 2
      · simp only [if_pos hc, ne_eq, not_true_eq_false, if_false]
        congr 2; omega
      · simp only [if_neg hc]
        congr 2; omega
    simp only [show ¬ ((-1 : Int) > -1) by decide, if_false, f1, f2]

/-- the four sides -/
private theorem box_sides {db : CharDb} {w : Bxs} {d' : Design} (hd : GoodDesign db d')
    (hs : d'.shape = builtShape w) (h0 : 0 < w.cols) {j : Input} (hw : d'.minwidth = j.maxline + w.cols + 2) (hh : d'.minheight = 3)
    (hj : 1 ≤ j.lines.length) {fuel : Nat} {box : Sides Shape} (h : generateBox db d' j fuel = some (.ok box)) :
    box.top.width = j.maxline + 1 ∧ box.top.height = 1 ∧ box.bottom.height = 1 ∧ box.right.height = j.lines.length + 2 ∧
      ∀ y, y < j.lines.length → lineText box.left (1 + y) = w.memory ∧ lineText box.right (1 + y) = spaces 1 := by
  have sh : ∀ (size : Shape → Nat) a b c, slots size d' [a, b, c] =
      [slotOf size (builtShape w a), slotOf size (builtShape w b), slotOf size (builtShape w c)] := by
    intro size a b c; simp [slots, hs]
  have so : ∀ (size : Shape → Nat) n, slotOf size (builtShape w n) =
      if n ∈ [NW, N, NE, E, SE, S, SW, W] then some (size (builtShape w n), (builtShape w n).elastic) else none := by
    intro size n
    have pb : Present (builtShape w n) ↔ n ∈ [NW, N, NE, E, SE, S, SW, W] := by
      cases n <;> simp [builtShape, builtSize, Present, emptyShape, h0]
    simp only [slotOf, pb]
  have hf : ∀ m, 1 ≤ m → Fills [none, some (1, true), none] [0 * 0, m * 1, 0 * 0] :=
    fun m hm => Fills.one none (some (1, true)) none 0 m 0 (by simp [Slot.Elastic]) rfl hm rfl
  have c1 : (d'.shape NW).width = w.cols := by rw [hs]; simp [builtShape, builtSize]
  have c2 : (d'.shape NE).width = 1 := by rw [hs]; simp [builtShape, builtSize]
  have c3 : (d'.shape NW).height = 1 := by rw [hs]; simp [builtShape, builtSize]
  have c4 : (d'.shape SW).height = 1 := by rw [hs]; simp [builtShape, builtSize]
  unfold generateBox at h
  cases hq : horizGenerate db d' j.maxline fuel with
  | none => rw [hq] at h; simp at h
  | some q =>
    obtain ⟨top, bottom, wd, i1, i2, i3, k1, k2, k3, rfl, -, -, -, -, -, t1, t2, t3, t4, t5, t6, t7, t8, t9, t10, t11⟩ :=
      C13_top_bottom db d' hd j.maxline fuel hq
    rw [hq] at h
    simp only [Option.map_eq_some_iff] at h
    obtain ⟨q, hq', h⟩ := h
    obtain ⟨left, right, hgt, i1, i2, i3, k1, k2, k3, rfl, -, -, u1, -, u2, u3, u4, u5, u6, u7, u8, u9, u10, u11, -⟩ :=
      C14_left_right db d' hd j.lines.length fuel hq'
    rw [Res.ok_bind] at h
    simp only [Res.ok.injEq] at h
    subst h
    rw [c1, c2] at t2 t3
    rw [c3, c4] at u4 u5 u8
    have hw' : wd = j.maxline + 1 := by
      have : wd ≤ j.maxline + 1 := by
        apply t3
        refine ⟨by omega, ?_, ?_⟩
        · rw [sh]; simp only [so]
          exact ⟨_, hf (j.maxline + 1) (by omega), by simp⟩
        · rw [sh]; simp only [so]
          exact ⟨_, hf (j.maxline + 1) (by omega), by simp⟩
      omega
    have hh' : hgt = j.lines.length := by
      have : hgt ≤ j.lines.length := by
        apply u5
        refine ⟨by omega, ?_, ?_⟩
        · rw [sh]; simp only [so]
          exact ⟨_, hf j.lines.length hj, by simp⟩
        · rw [sh]; simp only [so]
          exact ⟨_, hf j.lines.length hj, by simp⟩
      omega
    have z : ∀ n, n ∈ [WNW, WSW, ENE, ESE] → (d'.shape n).height = 0 ∧ (d'.shape n).lines = [] := by
      intro n hn; rw [hs]; revert n; simp [builtShape, builtSize, emptyShape]
    have eW : (d'.shape W).lines = [w] ∧ (d'.shape W).height = 1 := by rw [hs]; simp [builtShape]
    have eE : (d'.shape E).lines = [fromAscii (nspaces 1)] ∧ (d'.shape E).height = 1 := by rw [hs]; simp [builtShape, builtSize]
    have eNW : (d'.shape NW).lines.length = 1 := by rw [hs]; simp [builtShape, builtSize]
    have eNE : (d'.shape NE).lines.length = 1 := by rw [hs]; simp [builtShape, builtSize]
    have tn : ∀ k, times k ([] : List Bxs) = [] := by intro k; simp [times]
    have t1' : ∀ k (b : Bxs), times k [b] = List.replicate k b := by
      intro k b; induction k with
      | zero => rfl
      | succ k ih => simp only [times, List.replicate_succ, List.flatten_cons] at ih ⊢; rw [ih]; rfl
    rw [(z WNW (by decide)).1, (z WSW (by decide)).1, eW.2] at u1
    rw [(z ENE (by decide)).1, (z ESE (by decide)).1, eE.2] at u2
    rw [(z WNW (by decide)).2, (z WSW (by decide)).2, eW.1, tn, tn, t1'] at u10
    rw [(z ENE (by decide)).2, (z ESE (by decide)).2, eE.1, tn, tn, t1'] at u11
    refine ⟨by show top.width = _; omega, by show top.height = _; omega, by show bottom.height = _; omega, by show right.height = _; omega, ?_⟩
    intro y hy
    show lineText left (1 + y) = _ ∧ lineText right (1 + y) = _
    have hi2 : i2 = j.lines.length := by omega
    have hk2 : k2 = j.lines.length := by omega
    have key : ∀ (a c : List Bxs) (b : Bxs) n, a.length = 1 → y < n →
        (a ++ ([] ++ List.replicate n b ++ []) ++ c)[1 + y]? = some b := by
      intro a c b n ha hn
      rw [List.append_assoc, List.getElem?_append_right (by omega), ha, show 1 + y - 1 = y by omega,
        List.getElem?_append_left (by simpa using hn)]
      simp [hn]
    constructor
    · unfold lineText
      rw [u10, key _ _ _ _ eNW (by omega)]; rfl
    · unfold lineText
      rw [u11, key _ _ _ _ eNE (by omega)]; rfl

private theorem dropTrailing_spaces {db : CharDb} (hdb : Sane db) (a : Str) (n : Nat) : dropTrailing db (a ++ spaces n) = dropTrailing db a := by
  unfold dropTrailing
  have hs : Blank db 0x20 := .inr hdb.space_blank
  rw [List.reverse_append]
  congr 1
  unfold spaces
  rw [List.reverse_replicate]
  induction n with
  | zero => rfl
  | succ n ih => rw [List.replicate_succ, List.cons_append, List.dropWhile_cons_of_pos (by simpa using hs), ih]

/-- C67: the effect of `-c`, from the input to the output, when neither size nor padding nor justification are requested: the
output has exactly one line per input line; line `i` is the common indentation `n` (if the box is to be indented, which is the
default), the argument of `-c`, a space, and the input line `u` (without trailing white space, tabs expanded) without the
common indentation; trailing blanks are removed.  `w` is what the line shows. -/
theorem C67_output (db : CharDb) (hdb : Sane db) (opt : Opt) (hr : opt.r = false) (hts : 1 ≤ opt.tabstop)
    (hk : opt.tabexp ≠ 'k') (hu : opt.tabexp ≠ 'u')
    (hj : opt.justify ∉ ['l', 'c', 'r']) (hw : opt.reqwidth = 0) (hh : opt.reqheight = 0) (hpd : opt.padding = ⟨-1, -1, -1, -1⟩)
    {cld v : Str} (ht : Text cld v) (hv : ∃ c ∈ v, ¬ Blank db c ∧ width db c ≠ 0) {dd : DesignDef} (hb : buildDesign db cld = .ok dd)
    (junk : Nat) (pieces : List Str) (hp : ∀ s ∈ pieces, Readable db opt.tabstop s) (hne : pieces ≠ [])
    (fuel : Nat) {r : Res (List (Bxs × Str))} (h : drawOnce db opt (prepareDesign opt dd.core) [] junk pieces fuel = some r) :
    ∃ (out : List (Bxs × Str)) (us : List (Str × Str)) (mode : Char) (n : Nat), r = .ok out ∧ out.length = pieces.length ∧
      us.length = pieces.length ∧ LeastIndent db (us.map Prod.snd) n ∧
      mode = (if opt.indentmode = '\x00' then 'b' else opt.indentmode) ∧
      ∀ (i : Nat) s, pieces[i]? = some s → ∃ (u p : Str × Str) (q z y t ind : Str) (x : Nat) (b : Bxs), us[i]? = some u ∧
        s = q ++ z ∧ Text z y ∧ (∀ c ∈ y, db.white c = true) ∧ EndsVisibly db q z ∧ Expand opt.tabstop 0 q u.1 ∧ Text u.1 u.2 ∧
        Unindented db (if mode = 't' then 0 else n) u p ∧
        t <:+ p.1 ∧ (p.2 ≠ [] → t = p.1) ∧
        ind = (if mode = 'b' then spaces n else []) ∧
        b.memory <+: ind ++ cld ++ spaces 1 ++ t ++ spaces x ∧
        Text b.memory (dropTrailing db (ind ++ v ++ spaces 1 ++ p.2)) ∧
        ∃ e, out[i]? = some (b, e) ∧ (i + 1 = pieces.length ∧ ¬ EndsInBreak pieces → e = []) ∧
          (i + 1 ≠ pieces.length ∨ EndsInBreak pieces → e = opt.eol) := by
  have hgd := C67_good db hdb ht hb
  obtain ⟨w, w1, w2, w3, w4, w5⟩ := build_ok ht hb
  have hgp := (C20_adjusted_design db opt dd.core hgd {}).1
  obtain ⟨j, d', box, us, ls, out, above, below, lp, rp, s, e, rfl, rfl, a3, a4, a5, a6, a7, a8, a9, a10, a11, a12, a13, a14, a15,
    a16, a17, a18⟩ := C16_drawing db hdb opt hr hts _ hgp junk pieces hp hne fuel h
  obtain ⟨p1, p2, p3⟩ := adjusted hw hh hpd dd.core w5 j
  have hgj := (C20_adjusted_design db opt _ hgp j).2
  have hnp : 1 ≤ pieces.length := List.length_pos_iff.2 hne
  have hsh : (adjustSizeAndPadding opt (prepareDesign opt dd.core) j).shape = builtShape w := by
    rw [p3]; show (prepareDesign opt dd.core).shape = _; rw [p1, w5]
  obtain ⟨b1, b2, b3, b4, b5⟩ := box_sides hgj hsh w4 (by rw [p3]) (by rw [p3]) (by omega) a3
  have hshape : (prepareDesign opt dd.core).shape = builtShape w := by rw [p1, w5]
  -- blank sides
  have hblank : ∀ k n e, BlankShape db { name := n, lines := [fromAscii (nspaces k)], height := 1, width := k, elastic := e } := by
    intro k n e _ b hb u hu c hc
    obtain rfl := List.mem_singleton.1 hb
    have hm : c ∈ nspaces k := by rw [(text_nspaces k).unique hu]; exact hc
    rw [nspaces, List.mem_replicate] at hm
    left; right; rw [hm.2]; exact hdb.space_blank
  have hN : BlankSide db (prepareDesign opt dd.core) [NW, NNW, N, NNE, NE] := by
    intro n hn
    rw [hshape]
    simp only [List.mem_cons, List.not_mem_nil, or_false] at hn
    rcases hn with rfl | rfl | rfl | rfl | rfl
    · exact hblank _ _ _
    · intro h; simp [builtShape, builtSize, Present, emptyShape] at h
    · exact hblank _ _ _
    · intro h; simp [builtShape, builtSize, Present, emptyShape] at h
    · exact hblank _ _ _
  have hS : BlankSide db (prepareDesign opt dd.core) [SE, SSE, S, SSW, SW] := by
    intro n hn
    rw [hshape]
    simp only [List.mem_cons, List.not_mem_nil, or_false] at hn
    rcases hn with rfl | rfl | rfl | rfl | rfl
    · exact hblank _ _ _
    · intro h; simp [builtShape, builtSize, Present, emptyShape] at h
    · exact hblank _ _ _
    · intro h; simp [builtShape, builtSize, Present, emptyShape] at h
    · exact hblank _ _ _
  have hW : ¬ BlankSide db (prepareDesign opt dd.core) [SW, WSW, W, WNW, NW] := by
    intro hh'
    have h1 := hh' W (by simp)
    rw [hshape] at h1
    obtain ⟨c, hc, hc1, hc2⟩ := hv
    rcases h1 (by simp [builtShape, Present, w4]) w (by simp [builtShape]) v (by rw [w3]; exact ht) c hc with h2 | h2
    · exact hc1 h2
    · exact hc2 h2
  have hs := a15.1 hN
  have he := a16.1 hS
  have habove : above = 0 := by
    rw [a11]; unfold linesAbove shareAbove; rw [p3]
    simp only
    rw [b2, b3, b4, a5, a6]
    split
    · omega
    · split <;> omega
  have hlp : lp = 1 := by
    rw [a13]; unfold columnsLeft shareLeft; rw [p3]
    simp only
    rw [b1]
    split
    · rfl
    · split
      · omega
      · split <;> omega
  have hrp : rp = 0 := by omega
  have hlen : out.length = pieces.length := by omega
  refine ⟨out, us, _, j.indent, rfl, hlen, a4, a7, rfl, ?_⟩
  intro i s' hs'
  have hi : i < pieces.length := (List.getElem?_eq_some_iff.1 hs').1
  obtain ⟨u, p, q, z, y, g1, g2, g3, g4, g5, g6, g6', g7, g8⟩ := a10 i s' hs'
  rw [p2] at g8
  obtain ⟨row, i', m, r', c1, c2, c3, c4, c5, c6, -⟩ := a18 i (by omega)
  obtain ⟨rfl, p', k, f1, f2, f3⟩ := rowAt_text (y := i) c1 (by omega) (by omega)
  rw [g2] at f1
  obtain rfl := Option.some.inj f1
  have hk0 := f2.unjustified hj
  subst hk0
  obtain ⟨t, t1, t2, -, t3, t4⟩ := f3.row
  obtain ⟨ind, left, d1, -, d3, d4⟩ := c2.parts
  have hleft := d3 hW
  rw [hs, b2] at hleft d4
  obtain ⟨l1, l2⟩ := b5 i' (by omega)
  rw [l1, w3] at hleft
  rw [l2, hleft, t4, hlp, hrp] at d4
  have hmode : (adjustSizeAndPadding opt (prepareDesign opt dd.core) j).indentmode =
      if opt.indentmode = '\x00' then 'b' else opt.indentmode := by rw [p3]; exact p2
  have hind : ind = if (if opt.indentmode = '\x00' then 'b' else opt.indentmode) = 'b' then spaces j.indent else [] := by
    rw [← hmode]
    by_cases hm : (adjustSizeAndPadding opt (prepareDesign opt dd.core) j).indentmode = 'b'
    · rw [if_pos hm]; exact d1.expanded hm hu hk
    · rw [if_neg hm]; exact d1.off hm
  have tsp : ∀ k, Text (spaces k) (spaces k) := text_nspaces
  have tind : Text ind ind := by
    rw [hind]
    by_cases hm : (if opt.indentmode = '\x00' then 'b' else opt.indentmode) = 'b'
    · rw [if_pos hm]; exact tsp _
    · rw [if_neg hm]; exact Text.nil
  have hrow' : row.memory = ind ++ cld ++ spaces 1 ++ t ++ spaces (j.maxline - columns db p.2 + 1) := by
    rw [d4, show (0 + ((j.maxline : Int) - columns db p.2 - 0).toNat) = j.maxline - columns db p.2 by omega]
    simp [spaces, List.replicate_succ']
  have hrow : Text row.memory (ind ++ v ++ spaces 1 ++ p.2 ++ spaces (j.maxline - columns db p.2 + 1)) := by
    rw [hrow']
    exact (((tind.append ht).append (tsp 1)).append (by simpa using t3)).append (tsp _)
  obtain ⟨c, hc, hc1, -⟩ := hv
  obtain ⟨r2, e1, -, e3, e4⟩ := C04_rtrim db hrow c3 ⟨c, by simp [hc], hc1⟩
  rw [c4] at e1
  obtain rfl := Option.some.inj e1
  rw [dropTrailing_spaces hdb] at e4
  rw [hrow'] at e3
  refine ⟨u, p, q, z, y, t, ind, _, r', g1, g3, g4, g5, g6, g6', g7, g8, t1, t2 (Int.le_refl 0), hind, e3, e4, _, c5, ?_, ?_⟩
  · rintro ⟨h1, h2⟩
    rw [if_neg]
    rintro (h3 | h3)
    · exact h2 (c6.1 h3)
    · omega
  · intro h1
    rw [if_pos]
    rcases h1 with h1 | h1
    · right; omega
    · left; exact c6.2 h1

/-- C67: an argument of one visible character, outside of ASCII, no control character: `strcpy` writes behind the buffer. -/
theorem C67_overflow_disagrees :
    ∃ cld : Str, Text cld cld ∧ (∀ c ∈ cld, ¬ Forbidden sampleDb c) ∧ columns sampleDb cld = 1 ∧ buildDesign sampleDb cld = .ub :=
  ⟨[0x2503], Spec.Text.plain (by decide), by decide, by decide, by
    refine (C67_design sampleDb sampleDb_sane (Spec.Text.plain (v := [0x2503]) (by decide))).2.2.1 ?_ ?_ ?_ ?_ <;> decide⟩

/-- the parts of a design that can be compared -/
private def cldSummary (dd : DesignDef) : List Str :=
  [dd.name, [dd.core.minwidth, dd.core.minheight, dd.core.padding.left]] ++
  allShapes.flatMap (fun n => (dd.core.shape n).lines.map (·.memory))

example : Text (lit "//") (lit "//") ∧ (∀ c ∈ lit "//", ¬ Forbidden sampleDb c) ∧ columns sampleDb (lit "//") = 2 ∧
    bytes (lit "//") = 2 ∧ (∃ c ∈ lit "//", ¬ Blank sampleDb c ∧ width sampleDb c ≠ 0) :=
  ⟨Spec.Text.plain (by decide), by decide, by decide, by decide, by decide⟩

example : (buildDesign sampleDb (lit "//")).bind (fun dd => .ok (cldSummary dd)) =
    .ok [lit "<Command Line Definition>", [4, 3, 1], lit "  ", lit " ", lit " ", lit " ", lit " ", lit " ", lit "  ", lit "//"] := by
  decide +kernel

example : ∃ s ∈ [lit "    if x\n"], Readable sampleDb 8 s :=
  ⟨_, List.mem_singleton.2 rfl, lit "    if x\n", lit "    if x\n", Spec.Text.plain (by decide),
    ⟨by decide, by unfold NarrowBlanks; decide⟩,
    by repeat first | exact Expand.nil _ | refine Expand.char _ (by decide) ?_, by decide⟩

example : ((buildDesign sampleDb (lit "//")).bind (fun dd =>
    match drawOnce sampleDb {} (prepareDesign {} dd.core) [] 0 [lit "    if x\n", lit "\n", lit "      y\n"] 20 with
    | some r => r.bind (fun out => renderBox true out)
    | none => .ub)) = .ok (lit "    // if x\n    //\n    //   y\n") := by
  decide +kernel

end Boxes
