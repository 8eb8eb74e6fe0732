import Verif.Lemmas.RemoveLine
import Verif.Lemmas.TextPos
import Verif.Lemmas.BxsOps
import Verif.Spec.Sample
import Verif.Spec.Remove

/-!
# Properties of box removal: C22, C23, C24
-/
namespace Boxes
open Spec ShapeName
set_option linter.unusedSimpArgs false

/-- C23: for every input and design, each remaining line is a contiguous piece of a line of the input, with at most the
indentation of the input in front of it; the lines are in their original order. -/
theorem C23_pieces (db : CharDb) (opt : Opt) (d : Design) (i j : Input) (h : removeBox db opt d i = .ok j) :
    TakenFrom i.indent i.lines j.lines ∧ j.finalNewline = i.finalNewline := by
  unfold removeBox at h
  simp only [Res.bind_eq_ok] at h
  obtain ⟨q, _, h⟩ := h
  cases q with
  | none =>
    simp only [Res.ok.injEq] at h
    subst h
    exact ⟨TakenFrom.refl _ _, rfl⟩
  | some ctx =>
    refine ⟨applyResults_taken h, ?_⟩
    obtain ⟨ls, ls1, ls2, m, ctx', _, _, _, _, _, h5⟩ := applyResults_spec h
    split at h5
    · rw [removeDefaultPadding_final h5]
    · subst h5
      rfl

/-- C23: the whole result, if the top part ends before the bottom part begins.  Lines above and below the box are blank and stay
as they are.  Top and bottom part go, no higher than the shapes of the design.  From each line of the body the sides are taken;
blank body lines are dropped at both ends (C24); if the left side is open, its padding is taken from the front. -/
theorem C23_structure (db : CharDb) (opt : Opt) (d : Design) (i j : Input) (ctx : RemoveCtx)
    (hf : findBox db d i = .ok (some ctx)) (hno : ctx.topEnd ≤ ctx.bottomStart) (h : removeBox db opt d i = .ok j) :
    (∀ (k : Nat) l, k < ctx.topStart ∨ ctx.bottomEnd ≤ k → i.lines[k]? = some l → textIsBlank db l.text = true) ∧
    (∃ l, i.lines[ctx.topStart]? = some l ∧ textIsBlank db l.text = false) ∧
    (∃ l, i.lines[ctx.bottomEnd - 1]? = some l ∧ textIsBlank db l.text = false) ∧
    ctx.topStart ≤ ctx.topEnd ∧ ctx.bottomStart ≤ ctx.bottomEnd ∧ ctx.bottomEnd ≤ i.lines.length ∧
    ctx.topEnd ≤ ctx.topStart + (if (determineEmptySides d).top then 0 else (d.shape NE).height) ∧
    ctx.bottomEnd ≤ ctx.bottomStart + (if (determineEmptySides d).bottom then 0 else (d.shape SE).height) ∧
    ∃ (body mid mid' : List Line) (k k' n : Nat),
      body.length = ctx.bottomStart - ctx.topEnd ∧ ctx.body.length = body.length ∧
      (∀ (x : Nat) l c y, i.lines[ctx.topEnd + x]? = some l → ctx.body[x]? = some c → body[x]? = some y →
        removeVerticalLine db opt d i.indent ctx.compType l c = .ok y) ∧
      k + k' ≤ body.length ∧ mid = (body.take (body.length - k')).drop k ∧
      (if opt.killblank ≠ 0 ∨ opt.mend ≠ 0 then
        BlanksDropped db (maxRemovable opt d.padding.top) body k ∧
        BlanksDropped db (maxRemovable opt d.padding.bottom) (body.drop k).reverse k'
       else k = 0 ∧ k' = 0) ∧
      Outdented (determineEmptySides d).left d.padding.left (i.lines.take ctx.topStart ++ mid ++ i.lines.drop ctx.bottomEnd) n ∧
      mid'.length = mid.length ∧
      (∀ (x : Nat) l l', mid[x]? = some l → mid'[x]? = some l' →
        (n = 0 → l' = l) ∧ (0 < n → ∃ t, l.text = some t ∧ l' = { l with text := t.cutFront db n })) ∧
      j.lines = i.lines.take ctx.topStart ++ mid' ++ i.lines.drop ctx.bottomEnd ∧
      j.finalNewline = i.finalNewline ∧
      Measured (i.lines.take ctx.topStart ++ mid ++ i.lines.drop ctx.bottomEnd) (j.maxline + n) (j.indent + n) := by
  obtain ⟨a1, a2, a3, a4, a5, a6, a7, a8, a9, a10, a11⟩ := findBox_spec hf
  obtain ⟨l1, l2, l3, l4⟩ := findLastLine_spec db i.lines a1
  obtain ⟨f1, f2⟩ := findFirstLine_spec db i.lines
  unfold removeBox at h
  rw [hf] at h
  simp only [Res.ok_bind] at h
  obtain ⟨body, k, k', n, mid, mid', b1, b2, b3, b4, b5, b6, b7, b8, b9, b10⟩ :=
    applyResults_structure h a4 hno a6 (by omega) a9 a10
  refine ⟨?_, by rw [a2]; exact f2 a1, by rw [a3]; exact l4, a4, a6, by omega, a7, a8, body, mid, mid', k, k', n, b1, by omega, b2, b4,
    b5, b3, by rw [← a11]; exact b6, ?_, ?_, b9, b10⟩
  · intro x l hx hl
    rcases hx with hx | hx
    · exact f1 x l (by omega) hl
    · exact l3 x l (by omega) hl
  · by_cases hn : n = 0
    · rw [b7 hn]
    · exact (cutLines_spec _ _ (b8 (by omega))).1
  · intro x l l' hl hl'
    constructor
    · intro hn
      rw [b7 hn, hl] at hl'
      exact (Option.some.inj hl').symm
    · intro hn
      exact (cutLines_spec _ _ (b8 hn)).2 x l l' hl hl'

/-- C24: only blank lines next to the removed top and bottom part are dropped, up to the first line that is not blank; while
killing of blank lines is off, no more than the padding of the design. -/
theorem C24_killed (db : CharDb) (opt : Opt) (d : Design) (i j : Input) (ctx : RemoveCtx)
    (hf : findBox db d i = .ok (some ctx)) (hno : ctx.topEnd ≤ ctx.bottomStart) (h : removeBox db opt d i = .ok j) :
    ∃ (body : List Line) (k k' : Nat), body.length = ctx.bottomStart - ctx.topEnd ∧ k + k' ≤ body.length ∧
      (∀ (x : Nat) l c y, i.lines[ctx.topEnd + x]? = some l → ctx.body[x]? = some c → body[x]? = some y →
        removeVerticalLine db opt d i.indent ctx.compType l c = .ok y) ∧
      j.lines.length = ctx.topStart + (body.length - k - k') + (i.lines.length - ctx.bottomEnd) ∧
      (opt.killblank ≠ 0 → BlanksDropped db none body k ∧ BlanksDropped db none (body.drop k).reverse k') ∧
      (opt.killblank = 0 → opt.mend ≠ 0 → BlanksDropped db (some d.padding.top) body k ∧
        BlanksDropped db (some d.padding.bottom) (body.drop k).reverse k') ∧
      (opt.killblank = 0 → opt.mend = 0 → k = 0 ∧ k' = 0) := by
  obtain ⟨_, _, _, c4, c5, c6, _, _, body, mid, mid', k, k', n, b1, b2, b3, b4, b5, b6, b7, b8, b9, b10, b11⟩ :=
    C23_structure db opt d i j ctx hf hno h
  refine ⟨body, k, k', b1, b4, b3, ?_, ?_, ?_, ?_⟩
  · rw [b10]
    simp only [List.length_append, List.length_take, List.length_drop, b8, b5]
    omega
  · intro hk
    rw [if_pos (Or.inl hk)] at b6
    have : ∀ p, maxRemovable opt p = none := by intro p; simp [maxRemovable, hk]
    rw [this, this] at b6
    exact b6
  · intro hk hm
    rw [if_pos (Or.inr hm)] at b6
    have : ∀ p, maxRemovable opt p = some p := by intro p; simp [maxRemovable, hk, hm]
    rw [this, this] at b6
    exact b6
  · intro hk hm
    simpa [hk, hm] using b6

/-- C24: if nothing was said about blank lines, they are killed exactly if the design has a top or a bottom part. -/
theorem C24_default (db : CharDb) (opt : Opt) (d : Design) (rules : List Subst) (i : Input) (hk : opt.killblank = -1) :
    handleRemoveBox db opt d rules i =
      handleRemoveBox db
        { opt with killblank := if (determineEmptySides d).top ∧ (determineEmptySides d).bottom then 0 else 1 } d rules i := by
  unfold handleRemoveBox determineEmptySides
  simp only [hk, if_true]
  split <;> simp

/-- C23: what remains of a body line that is compared with its escape sequences, exactly: the characters from the end of the left
side and its padding up to the right side, behind the indentation. -/
theorem C23_line_literal (db : CharDb) (opt : Opt) (d : Design) (n : Nat) (c : CompType) (hc : c.skipsInput = false)
    (line y : Line) (l : LineCtx) (s : Str) (b t : Bxs) (hb : fromUnicode db s = some b) (hl : line.text = some b)
    (hs : ∀ x ∈ s, ¬ Forbidden db x)
    (h : removeVerticalLine db opt d n c line l = .ok y) (ht : y.text = some t) :
    t.memory = spaces (restored opt n) ++ (s.take (keepTo l s)).drop (keepFrom db d l s) := by
  obtain ⟨p, q, hp, hq, h⟩ := removeVerticalLine_steps hl h
  have hm := fromUnicode_memory hb
  have hn := fromUnicode_numChars hb
  subst hm
  rw [calculateStartIdx_eq (v := b.memory) (by rw [maxChars_literal hc, hn]) (fun x y => orgIsNotBlank_literal hc x y), hc] at hp
  rw [calculateEndIdx_eq (v := b.memory) (by rw [maxChars_literal hc, hn]), hc] at hq
  simp only [Bool.false_eq_true, if_false, Res.ok.injEq] at hp hq
  subst hp hq
  refine newLine_memory hn (fromUnicode_allowed db ?_) h ht
  intro x hx
  exact hs x (List.mem_of_mem_take (List.mem_of_mem_drop hx))

/-- C23: what remains of a body line whose escape sequences are ignored, exactly: the same in terms of visible characters.  The escape sequence
directly in front of the first character that remains, and the one directly in front of the right side, belong to what follows them unless they are
resets (`From`). -/
theorem C23_line_visible (db : CharDb) (opt : Opt) (d : Design) (n : Nat) (c : CompType) (hc : c.skipsInput = true)
    (line y : Line) (l : LineCtx) (s v : Str) (b t : Bxs) (hs : Text s v) (hb : fromUnicode db s = some b) (hl : line.text = some b)
    (h : removeVerticalLine db opt d n c line l = .ok y) (ht : y.text = some t) :
    ∃ p, t.memory = spaces (restored opt n) ++ p ∧ p <:+: s ∧ Text p ((v.take (keepTo l v)).drop (keepFrom db d l v)) ∧
      (keepFrom db d l v ≤ keepTo l v → ∃ z, From (keepFrom db d l v) s v (p ++ z) ∧ From (keepTo l v) s v z) ∧
      (keepTo l v < keepFrom db d l v → p = []) := by
  have hfrom := firstChar_from db hs hb
  obtain ⟨ts, h1, h2, h3, h4, rfl⟩ := fromUnicode_text_some db hs hb
  subst h2 h3
  obtain ⟨p, q, hp, hq, h⟩ := removeVerticalLine_steps hl h
  rw [calculateStartIdx_eq (v := visOf ts) (maxChars_visible hc) (fun x y => orgIsNotBlank_visible hc x y), hc] at hp
  rw [calculateEndIdx_eq (v := visOf ts) (maxChars_visible hc), hc] at hq
  simp only [if_true] at hp hq
  have hfl : (bxsOf db ts).firstChar.length = (visOf ts).length + 1 := by
    simp [bxsOf, firstPos_length]
  have hget : ∀ (x y : Nat), Res.get (bxsOf db ts).firstChar[x]? = .ok y → (bxsOf db ts).firstChar[x]? = some y ∧ x ≤ (visOf ts).length := by
    intro x y hx
    cases hg : (bxsOf db ts).firstChar[x]? with
    | none => rw [hg] at hx; simp at hx
    | some z =>
      rw [hg] at hx
      simp only [Res.get_some, Res.ok.injEq] at hx
      subst hx
      have := (List.getElem?_eq_some_iff.1 hg).1
      exact ⟨rfl, by omega⟩
  obtain ⟨hp1, hp2⟩ := hget _ _ hp
  obtain ⟨hq1, hq2⟩ := hget _ _ hq
  have hn : (bxsOf db ts).numChars = (bxsOf db ts).memory.length := rfl
  rcases Nat.le_total (keepFrom db d l (visOf ts)) (keepTo l (visOf ts)) with hle | hle
  · obtain ⟨p', q', t', e1, e2, e3, e4, e5, e6⟩ := cut_between db ts h1 hle hq2
    rw [hp1] at e1
    rw [hq1] at e2
    obtain rfl := Option.some.inj e1
    obtain rfl := Option.some.inj e2
    have hok : fromUnicode db (((bxsOf db ts).memory.take q).drop p) ≠ none := by
      show fromUnicode db (((flat ts).take q).drop p) ≠ none
      rw [e5, fromUnicode_ok db t' e4 (all_allowed_sub h4 (by
        rw [e6]; intro x hx; exact List.mem_of_mem_take (List.mem_of_mem_drop hx)))]
      simp
    have hm := newLine_memory hn hok h ht
    refine ⟨_, hm, ((List.drop_suffix _ _).isInfix).trans (List.take_prefix _ _).isInfix, ?_, ?_, fun h => by omega⟩
    · show Text (((flat ts).take q).drop p) _
      rw [e5, ← e6]
      exact text_of_toks e4
    · intro _
      have hvis : (bxsOf db ts).vis = (visOf ts).length := rfl
      have key : ∀ (n k : Nat), (bxsOf db ts).firstChar[n]? = some k → n ≤ (visOf ts).length → From n (flat ts) (visOf ts) ((flat ts).drop k) := by
        intro n k h1 h2
        obtain ⟨k', g1, g2, -⟩ := hfrom n
        rw [hvis, show (if n ≥ (visOf ts).length then (visOf ts).length else n) = n by split <;> omega, h1] at g1
        obtain rfl := Option.some.inj g1
        exact g2
      refine ⟨(flat ts).drop q, ?_, key _ _ hq1 hq2⟩
      have : ((bxsOf db ts).memory.take q).drop p ++ (flat ts).drop q = (flat ts).drop p := by
        show ((flat ts).take q).drop p ++ (flat ts).drop q = (flat ts).drop p
        have hlt : ((flat ts).take q).length = q ∨ (flat ts).drop q = [] := by
          rw [List.length_take]
          by_cases hh : q ≤ (flat ts).length
          · left; omega
          · right; exact List.drop_of_length_le (by omega)
        rcases hlt with h | h
        · rw [← List.drop_append_of_le_length (by omega), List.take_append_drop]
        · have : (flat ts).length ≤ q := by simpa using h
          rw [h, List.append_nil, List.take_of_length_le this]
      rw [this]
      exact key _ _ hp1 hp2
  · obtain ⟨p', q', t', e1, e2, e3, e4, e5, e6⟩ := cut_between db ts h1 hle hp2
    rw [hp1] at e2
    rw [hq1] at e1
    obtain rfl := Option.some.inj e1
    obtain rfl := Option.some.inj e2
    have hnil : ((bxsOf db ts).memory.take q).drop p = [] := List.drop_of_length_le (by simp; omega)
    have hok : fromUnicode db (((bxsOf db ts).memory.take q).drop p) ≠ none := by
      rw [hnil, fromUnicode_nil]; simp
    have hm := newLine_memory hn hok h ht
    rw [hnil] at hm
    refine ⟨[], hm, List.nil_infix, ?_, ?_, fun _ => rfl⟩
    · rw [List.drop_of_length_le (by simp; omega)]
      exact Text.nil
    · intro hle'
      have heq : keepFrom db d l (visOf ts) = keepTo l (visOf ts) := by omega
      rw [heq] at hp1 ⊢
      obtain ⟨k', -, g2, -⟩ := hfrom (keepTo l (visOf ts))
      exact ⟨_, by simpa using g2, g2⟩

/-- C22: every line printed after removal of a box is followed by the line terminator, the last one exactly if the input ended with a
line break; one printed line for every remaining line. -/
theorem C22_removed_line_ends (db : CharDb) (opt : Opt) (i j : Input) (out : List (Str × Str))
    (hn : ∀ l ∈ i.lines, l.text ≠ none) (h : outputInput db opt false i = .ok (j, out)) :
    out.length = i.lines.length ∧
      ∀ (k : Nat) p, out[k]? = some p → p.2 = if k + 1 = out.length ∧ i.finalNewline = false then [] else opt.eol := by
  unfold outputInput at h
  simp only [Res.bind_eq_ok, Bool.false_eq_true, if_false, Res.ok.injEq, Prod.mk.injEq] at h
  obtain ⟨ls, hls, out', ho, rfl, rfl⟩ := h
  obtain ⟨r1, r2⟩ := rtrimLines_spec _ _ hls
  have hn' : ∀ l ∈ ls, l.text ≠ none := by
    intro l hl
    obtain ⟨k, hk⟩ := List.getElem?_of_mem hl
    have hlt := (List.getElem?_eq_some_iff.1 hk).1
    have hg : i.lines[k]? = some i.lines[k] := List.getElem?_eq_getElem (by omega)
    obtain ⟨_, _, e⟩ := r2 k _ _ hg hk
    cases ht : (i.lines[k]).text with
    | none => exact absurd ht (hn _ (List.getElem_mem _))
    | some t =>
      obtain ⟨t', _, e2⟩ := e t ht
      rw [e2]; simp
  obtain ⟨o1, o2⟩ := outputLines_spec _ _ ho hn'
  refine ⟨by omega, ?_⟩
  intro k p hp
  have hlt := (List.getElem?_eq_some_iff.1 hp).1
  obtain ⟨t, _, _, e⟩ := o2 k ls[k] p (List.getElem?_eq_getElem (by omega)) hp
  rw [e, o1]

/-- C23: end to end: what is printed for an input from which a box is removed, tabs being expanded, is one piece of an input line
per line, in order. -/
theorem C23_printed (db : CharDb) (opt : Opt) (d : Design) (i j k : Input) (out : List (Str × Str))
    (hu : opt.tabexp ≠ 'u') (hk : opt.tabexp ≠ 'k') (h : removeBox db opt d i = .ok j) (hn : ∀ l ∈ j.lines, l.text ≠ none)
    (ho : outputInput db opt false j = .ok (k, out)) :
    ∃ f : Nat → Nat, (∀ x y, x < y → y < out.length → f x < f y) ∧
      ∀ (x : Nat) p, out[x]? = some p → ∃ l b, i.lines[f x]? = some l ∧ l.text = some b ∧ Piece i.indent b.memory p.1 := by
  obtain ⟨⟨f, f1, f2⟩, _⟩ := C23_pieces db opt d i j h
  unfold outputInput at ho
  simp only [Res.bind_eq_ok, Bool.false_eq_true, if_false, Res.ok.injEq, Prod.mk.injEq] at ho
  obtain ⟨ls, hls, out', ho, rfl, rfl⟩ := ho
  obtain ⟨r1, r2⟩ := rtrimLines_spec _ _ hls
  have hn' : ∀ l ∈ ls, l.text ≠ none := by
    intro l hl
    obtain ⟨k, hk⟩ := List.getElem?_of_mem hl
    have hlt := (List.getElem?_eq_some_iff.1 hk).1
    have hg : j.lines[k]? = some j.lines[k] := List.getElem?_eq_getElem (by omega)
    obtain ⟨_, _, e⟩ := r2 k _ _ hg hk
    cases ht : (j.lines[k]).text with
    | none => exact absurd ht (hn _ (List.getElem_mem _))
    | some t =>
      obtain ⟨t', _, e2⟩ := e t ht
      rw [e2]; simp
  obtain ⟨o1, o2⟩ := outputLines_spec _ _ ho hn'
  refine ⟨f, fun x y hx hy => f1 x y hx (by omega), ?_⟩
  intro x p hp
  have hlt := (List.getElem?_eq_some_iff.1 hp).1
  obtain ⟨t, ht, hp', _⟩ := o2 x ls[x] p (List.getElem?_eq_getElem (by omega)) hp
  have hg : j.lines[x]? = some j.lines[x] := List.getElem?_eq_getElem (by omega)
  obtain ⟨l, hl, _, hpc⟩ := f2 x _ hg
  obtain ⟨_, _, e⟩ := r2 x _ ls[x] hg (List.getElem?_eq_getElem (by omega))
  cases htx : (j.lines[x]).text with
  | none => exact absurd htx (hn _ (List.getElem_mem _))
  | some u =>
    obtain ⟨u', hu1, hu2⟩ := e u htx
    rw [ht] at hu2
    obtain rfl := Option.some.inj hu2
    obtain ⟨b, hb, hbp⟩ := hpc u htx
    exact ⟨l, b, hl, hb, outputLine_plain hu hk hp' (rtrim_piece hbp hu1)⟩

/-- C51: in the default mode, what is left of a line whose left side was found begins with the indentation of the input, followed by
the text behind the left side and its padding. -/
theorem C51_indentation_partial (db : CharDb) (opt : Opt) (d : Design) (n : Nat) (c : CompType) (hc : c.skipsInput = false)
    (hi : opt.indentmode = 'b' ∨ opt.indentmode = '\x00')
    (line y : Line) (l : LineCtx) (hw : 0 < l.westQuality) (s : Str) (b t : Bxs) (hb : fromUnicode db s = some b)
    (hl : line.text = some b) (hs : ∀ x ∈ s, ¬ Forbidden db x)
    (h : removeVerticalLine db opt d n c line l = .ok y) (ht : y.text = some t) :
    t.memory = spaces n ++
      (s.take (keepTo l s)).drop (l.westEnd + leadingBlanks db ((s.drop l.westEnd).take d.padding.left)) := by
  have := C23_line_literal db opt d n c hc line y l s b t hb hl hs h ht
  rw [this]
  unfold restored keepFrom
  rw [if_pos hi, if_pos hw]

/-! ## examples and counterexamples -/

/-- the text of the remaining lines -/
def texts (r : Res Input) : Res (List (Option Str)) := do
  let j ← r
  .ok (j.lines.map (fun l => l.text.map (·.memory)))

/-- a box with blank lines around it, indented by two columns -/
def boxed : Input :=
  mkInput ["", "  ..-=<>=-.", "  O|      )", "  || ab   (", "  ||cd    )", "  ||      (", "  `'######'", ""] 2

example : texts (removeBox sampleDb { killblank := 1 } sampleDesign boxed) =
    .ok [some [], some (lit "  ab   "), some (lit "  cd    "), some []] := by decide +kernel

/-- the hypotheses of `C23_structure` and `C24_killed` are met by a box -/
example : ∃ ctx j, findBox sampleDb sampleDesign boxed = .ok (some ctx) ∧ ctx.topEnd ≤ ctx.bottomStart ∧
    removeBox sampleDb { killblank := 1 } sampleDesign boxed = .ok j ∧ ctx.topStart = 1 ∧ ctx.topEnd = 2 ∧ ctx.bottomStart = 6 ∧
    ctx.bottomEnd = 7 ∧ j.lines.length = 4 ∧ ctx.body.map (fun l => (l.westEnd, l.eastStart)) = [(4, 10), (4, 10), (4, 10), (4, 10)] := by
  have h : ((match findBox sampleDb sampleDesign boxed, removeBox sampleDb { killblank := 1 } sampleDesign boxed with
    | .ok (some ctx), .ok j => decide (ctx.topEnd ≤ ctx.bottomStart ∧ ctx.topStart = 1 ∧ ctx.topEnd = 2 ∧ ctx.bottomStart = 6 ∧
        ctx.bottomEnd = 7 ∧ j.lines.length = 4 ∧
        ctx.body.map (fun l => (l.westEnd, l.eastStart)) = [(4, 10), (4, 10), (4, 10), (4, 10)])
    | _, _ => false) = true) := by decide +kernel
  split at h
  · rename_i ctx j h1 h2
    have := of_decide_eq_true h
    exact ⟨ctx, j, h1, this.1, h2, this.2⟩
  · simp at h

/-- printing -/
example : (do
      let j ← removeBox sampleDb { killblank := 1 } sampleDesign boxed
      let q ← outputInput sampleDb {} false j
      .ok q.2 : Res (List (Str × Str))) =
    .ok [([], lit "\n"), (lit "  ab", lit "\n"), (lit "  cd", lit "\n"), ([], lit "\n")] := by decide +kernel

/-- C23 fails without the condition that the top part ends before the bottom part begins: a single line that matches both makes
the number of lines to be moved wrap around (src/remove.c:972). -/
theorem C23_overlap_disagrees :
    (∃ ctx, findBox sampleDb starDesign (mkInput ["*****"]) = .ok (some ctx) ∧ ¬ ctx.topEnd ≤ ctx.bottomStart) ∧
    removeBox sampleDb { killblank := 1 } starDesign (mkInput ["*****"]) = .ub := by
  constructor
  · have h : ((match findBox sampleDb starDesign (mkInput ["*****"]) with
      | .ok (some ctx) => decide (¬ ctx.topEnd ≤ ctx.bottomStart)
      | _ => false) = true) := by decide +kernel
    split at h
    · rename_i ctx h1
      exact ⟨ctx, h1, of_decide_eq_true h⟩
    · simp at h
  · decide +kernel

/-- C23: a body line in which one character is taken for both the left and the right side leaves a NULL pointer, which is
dereferenced (src/remove.c:1087). -/
theorem C23_shared_side_disagrees :
    removeBox sampleDb { killblank := 1 } starDesign (mkInput ["*****", "*a  *", "*", "*b  *", "*****"]) = .ub := by decide +kernel

/-- C51: if the left side is open, the indentation is kept in the text and added once more (src/remove.c:1026-1031). -/
theorem C51_open_side_disagrees :
    texts (removeBox sampleDb { killblank := 1 } rulesDesign (mkInput ["     ====", "    ab", "     ===="] 4)) =
      .ok [some (lit "        ab")] := by decide +kernel

end Boxes
