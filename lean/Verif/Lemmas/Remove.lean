import Verif.Model.Remove
import Verif.Spec.Remove
import Verif.Lemmas.Output

/-!
Helper lemmas: removing a box.
-/
namespace Boxes
open Spec ShapeName
set_option linter.unusedSimpArgs false

/-! ## pieces -/

theorem Spec.Piece.refl (n : Nat) (s : Str) : Piece n s s := ⟨0, 0, s.length, Nat.zero_le _, by simp [spaces]⟩

theorem Spec.Piece.nil (n : Nat) (s : Str) : Piece n s [] := ⟨0, 0, 0, Nat.zero_le _, by simp [spaces]⟩

theorem Spec.Piece.drop {n : Nat} {s t : Str} (h : Piece n s t) (q : Nat) : Piece n s (t.drop q) := by
  obtain ⟨k, p, m, h1, rfl⟩ := h
  refine ⟨k - q, p + (q - k), m - (q - k), by omega, ?_⟩
  rw [List.drop_append]
  simp only [spaces, List.drop_replicate, List.length_replicate, List.drop_take, List.drop_drop]

theorem Spec.Piece.take {n : Nat} {s t : Str} (h : Piece n s t) (q : Nat) : Piece n s (t.take q) := by
  obtain ⟨k, p, m, h1, rfl⟩ := h
  refine ⟨min q k, p, min (q - k) m, by omega, ?_⟩
  rw [List.take_append]
  simp only [spaces, List.take_replicate, List.length_replicate, List.take_take]

theorem fromUnicode_memory {db : CharDb} {s : Str} {b : Bxs} (h : fromUnicode db s = some b) : b.memory = s := by
  unfold fromUnicode at h
  rw [Option.map_eq_some_iff] at h
  obtain ⟨st, _, rfl⟩ := h
  rfl

theorem fromUnicode_numChars {db : CharDb} {s : Str} {b : Bxs} (h : fromUnicode db s = some b) : b.numChars = s.length := by
  unfold fromUnicode at h
  rw [Option.map_eq_some_iff] at h
  obtain ⟨st, _, rfl⟩ := h
  rfl

theorem Spec.LinePiece.refl (n : Nat) (l : Line) : LinePiece n l l := ⟨rfl, fun b h => ⟨b, h, Piece.refl n _⟩⟩

theorem Spec.TakenFrom.refl (n : Nat) (ls : List Line) : TakenFrom n ls ls :=
  ⟨id, fun _ _ h _ => h, fun _ l h => ⟨l, h, LinePiece.refl n l⟩⟩

/-- leaving out lines `a`, ..., `b - 1` -/
theorem Spec.TakenFrom.cut {n : Nat} {src out : List Line} (h : TakenFrom n src out) {a b : Nat} (hab : a ≤ b) :
    TakenFrom n src (out.take a ++ out.drop b) := by
  obtain ⟨f, h1, h2⟩ := h
  by_cases ha : a ≤ out.length
  · refine ⟨fun k => f (if k < a then k else k - a + b), ?_, ?_⟩
    · intro k k' hk hl
      simp only [List.length_append, List.length_take, List.length_drop] at hl
      apply h1
      · split <;> split <;> omega
      · split <;> omega
    · intro k l' hk
      apply h2
      by_cases hka : k < a
      · rw [if_pos hka]
        rw [List.getElem?_append_left (by simp; omega), List.getElem?_take_of_lt hka] at hk
        exact hk
      · rw [if_neg hka]
        rw [List.getElem?_append_right (by simp; omega), List.getElem?_drop, List.length_take] at hk
        rw [show k - a + b = b + (k - min a out.length) by omega]
        exact hk
  · rw [List.take_of_length_le (by omega), List.drop_of_length_le (by omega), List.append_nil]
    exact ⟨f, h1, h2⟩

/-- lines replaced one by one -/
theorem Spec.TakenFrom.map {n : Nat} {src out out' : List Line} (h : TakenFrom n src out) (hl : out'.length = out.length)
    (hp : ∀ (k : Nat) l l' x, out[k]? = some l → out'[k]? = some l' → LinePiece n x l → LinePiece n x l') : TakenFrom n src out' := by
  obtain ⟨f, h1, h2⟩ := h
  refine ⟨f, fun k k' hk hl' => h1 k k' hk (by omega), ?_⟩
  intro k l' hk
  have hlt : k < out.length := by rw [← hl]; exact (List.getElem?_eq_some_iff.1 hk).1
  obtain ⟨x, hx1, hx2⟩ := h2 k _ (List.getElem?_eq_getElem hlt)
  exact ⟨x, hx1, hp k _ _ x (List.getElem?_eq_getElem hlt) hk hx2⟩

/-! ## the steps of `applyResults` -/

theorem substr_eq {db : CharDb} {b t : Bxs} {s e : Nat} (h : b.substr db s e = some t) :
    ∃ s' e', fromUnicode db ((b.memory.take e').drop s') = some t := by
  unfold Bxs.substr at h
  dsimp only at h
  generalize (if e > b.numChars then b.numChars else e) = e' at h
  generalize (if s > b.numChars then b.numChars else s) = s' at h
  split at h
  · simp at h
  · exact ⟨s', e', h⟩

theorem substr_piece {db : CharDb} {b t : Bxs} {s e : Nat} (n : Nat) (h : b.substr db s e = some t) : Piece n b.memory t.memory := by
  obtain ⟨s', e', h⟩ := substr_eq h
  rw [fromUnicode_memory h]
  exact ((Piece.refl n _).take _).drop _

theorem Spec.Piece.prepend {k : Nat} {s t : Str} (h : Piece 0 s t) (n : Nat) (hk : k ≤ n) : Piece n s (spaces k ++ t) := by
  obtain ⟨k', p, m, h1, rfl⟩ := h
  obtain rfl : k' = 0 := by omega
  exact ⟨k, p, m, hk, by simp [spaces]⟩

theorem prependSpacesOpt_piece {db : CharDb} {b t' : Bxs} {t : Option Bxs} {n : Nat}
    (ht : ∀ t0, t = some t0 → Piece 0 b.memory t0.memory ∧ t0.numChars = t0.memory.length)
    (h : prependSpacesOpt db t n = some t') : Piece n b.memory t'.memory := by
  unfold prependSpacesOpt at h
  cases t with
  | some t0 =>
    obtain ⟨ht1, ht2⟩ := ht t0 rfl
    simp only [Option.some.injEq] at h
    subst h
    unfold Bxs.prependSpaces
    split
    · rename_i h0
      subst h0
      exact ht1
    · rw [ht2, List.take_length]
      exact ht1.prepend n (Nat.le_refl n)
  | none =>
    simp only at h
    split at h
    · simp at h
    · rw [fromUnicode_memory h]
      have := (Piece.nil 0 b.memory).prepend n (Nat.le_refl n)
      rwa [List.append_nil] at this

theorem substr_numChars {db : CharDb} {b t : Bxs} {s e : Nat} (h : b.substr db s e = some t) : t.numChars = t.memory.length := by
  obtain ⟨s', e', h⟩ := substr_eq h
  rw [fromUnicode_memory h, fromUnicode_numChars h]

theorem removeVerticalLine_piece {db : CharDb} {opt : Opt} {d : Design} {n : Nat} {c : CompType} {line x : Line} {l : LineCtx}
    (h : removeVerticalLine db opt d n c line l = .ok x) : LinePiece n line x := by
  unfold removeVerticalLine at h
  simp only [Res.bind_eq_ok] at h
  obtain ⟨b, hb, s, hs, e, he, hx⟩ := h
  have hb' : line.text = some b := by
    cases hl : line.text with
    | none => rw [hl] at hb; simp at hb
    | some y => rw [hl] at hb; simpa using hb
  split at hx
  · simp only [Res.ok.injEq] at hx
    subst hx
    exact ⟨rfl, fun b' hb2 => ⟨b, hb', prependSpacesOpt_piece (fun t0 ht0 => ⟨substr_piece 0 ht0, substr_numChars ht0⟩) hb2⟩⟩
  · simp only [Res.ok.injEq] at hx
    subst hx
    exact ⟨rfl, fun b' hb2 => ⟨b, hb', substr_piece n hb2⟩⟩

theorem removeVerticalLines_spec {db : CharDb} {opt : Opt} {d : Design} {n : Nat} {c : CompType} :
    ∀ (ctxs : List LineCtx) (lines out : List Line), removeVerticalLines db opt d n c ctxs lines = .ok out →
      out.length = lines.length ∧ ctxs.length ≤ lines.length ∧
      (∀ (k : Nat) l x y, ctxs[k]? = some l → lines[k]? = some x → out[k]? = some y →
        removeVerticalLine db opt d n c x l = .ok y) ∧
      ∀ k : Nat, ctxs.length ≤ k → out[k]? = lines[k]?
  | [], lines, out, h => by
    simp only [removeVerticalLines, Res.ok.injEq] at h
    subst h
    exact ⟨rfl, by simp, by intro k l x y h; simp at h, fun _ _ => rfl⟩
  | l :: ls, [], out, h => by simp [removeVerticalLines] at h
  | l :: ls, line :: rest, out, h => by
    simp only [removeVerticalLines, Res.bind_eq_ok, Res.ok.injEq] at h
    obtain ⟨x, hx, more, hm, rfl⟩ := h
    obtain ⟨h1, h2, h3, h4⟩ := removeVerticalLines_spec ls rest more hm
    refine ⟨by simp [h1], by simp; exact h2, ?_, ?_⟩
    · intro k l' x' y hl hx' hy
      cases k with
      | zero =>
        simp only [List.getElem?_cons_zero, Option.some.injEq] at hl hx' hy
        subst hl hx' hy
        exact hx
      | succ k =>
        simp only [List.getElem?_cons_succ] at hl hx' hy
        exact h3 k l' x' y hl hx' hy
    · intro k hk
      cases k with
      | zero => simp at hk
      | succ k =>
        simp only [List.getElem?_cons_succ]
        exact h4 k (by simpa using hk)

theorem removeVertical_spec {db : CharDb} {opt : Opt} {d : Design} {i : Input} {ctx : RemoveCtx} {ls : List Line}
    (h : removeVertical db opt d i ctx = .ok ls) :
    ls.length = i.lines.length ∧
    (∀ (k : Nat) l x y, k < ctx.bodyNum → ctx.body[k]? = some l → i.lines[ctx.topEnd + k]? = some x → ls[ctx.topEnd + k]? = some y →
      removeVerticalLine db opt d i.indent ctx.compType x l = .ok y) ∧
    (∀ k : Nat, k < ctx.topEnd ∨ ctx.topEnd + min ctx.bodyNum ctx.body.length ≤ k → ls[k]? = i.lines[k]?) := by
  unfold removeVertical at h
  simp only [Res.bind_eq_ok, Res.ok.injEq] at h
  obtain ⟨out, ho, rfl⟩ := h
  obtain ⟨h1, h2, h3, h4⟩ := removeVerticalLines_spec _ _ _ ho
  simp only [List.length_take, List.length_drop] at h1 h2 h4
  have hlen : (i.lines.take ctx.topEnd ++ out).length = i.lines.length := by
    simp only [List.length_append, List.length_take, h1]; omega
  refine ⟨hlen, ?_, ?_⟩
  · intro k l x y hk hl hx hy
    have hlt := (List.getElem?_eq_some_iff.1 hx).1
    apply h3 k l x y
    · rw [List.getElem?_take_of_lt hk]; exact hl
    · rw [List.getElem?_drop]; exact hx
    · rw [List.getElem?_append_right (by simp; omega)] at hy
      simp only [List.length_take] at hy
      rw [show ctx.topEnd + k - min ctx.topEnd i.lines.length = k by omega] at hy
      exact hy
  · intro k hk
    rcases hk with hk | hk
    · by_cases hkl : k < i.lines.length
      · rw [List.getElem?_append_left (by simp; omega), List.getElem?_take_of_lt hk]
      · rw [List.getElem?_eq_none (by rw [hlen]; omega), List.getElem?_eq_none (by omega)]
    · by_cases hkl : k < i.lines.length
      · rw [List.getElem?_append_right (by simp; omega)]
        simp only [List.length_take]
        rw [h4 _ (by omega), List.getElem?_drop]
        congr 1
        omega
      · rw [List.getElem?_eq_none (by rw [hlen]; omega), List.getElem?_eq_none (by omega)]

theorem removeVertical_linePiece {db : CharDb} {opt : Opt} {d : Design} {i : Input} {ctx : RemoveCtx} {ls : List Line}
    (h : removeVertical db opt d i ctx = .ok ls) {k : Nat} {l' : Line} (hl' : ls[k]? = some l') :
    ∃ l, i.lines[k]? = some l ∧ LinePiece i.indent l l' := by
  obtain ⟨h1, h2, h3⟩ := removeVertical_spec h
  have hkl := (List.getElem?_eq_some_iff.1 hl').1
  have hl : i.lines[k]? = some i.lines[k] := List.getElem?_eq_getElem (by omega)
  refine ⟨i.lines[k], hl, ?_⟩
  by_cases hk : k < ctx.topEnd ∨ ctx.topEnd + min ctx.bodyNum ctx.body.length ≤ k
  · rw [h3 k hk, hl] at hl'
    obtain rfl := Option.some.inj hl'
    exact LinePiece.refl _ _
  · obtain ⟨c, hc⟩ : ∃ c, ctx.body[k - ctx.topEnd]? = some c := ⟨_, List.getElem?_eq_getElem (by omega)⟩
    have e : ctx.topEnd + (k - ctx.topEnd) = k := by omega
    exact removeVerticalLine_piece (h2 (k - ctx.topEnd) c _ l' (by omega) hc (by rw [e]; exact hl) (by rw [e]; exact hl'))

theorem removeVertical_taken {db : CharDb} {opt : Opt} {d : Design} {i : Input} {ctx : RemoveCtx} {ls : List Line}
    (h : removeVertical db opt d i ctx = .ok ls) : TakenFrom i.indent i.lines ls :=
  ⟨id, fun _ _ hk _ => hk, fun _ _ hl' => removeVertical_linePiece h hl'⟩

theorem removeBottom_taken {n : Nat} {src ls out : List Line} {ctx : RemoveCtx} (hs : TakenFrom n src ls)
    (h : removeBottom ls ctx = .ok out) : TakenFrom n src out := by
  unfold removeBottom at h
  split at h
  · split at h
    · simp only [Res.ok.injEq] at h
      subst h
      exact hs.cut (by omega)
    · simp at h
  · simp only [Res.ok.injEq] at h
    subst h
    exact hs

theorem removeTop_taken {n : Nat} {src ls out : List Line} {ctx : RemoveCtx} (hs : TakenFrom n src ls)
    (h : removeTop ls ctx = .ok out) : TakenFrom n src out := by
  unfold removeTop at h
  split at h
  · split at h
    · simp only [Res.ok.injEq] at h
      subst h
      exact hs.cut (by omega)
    · simp at h
  · simp only [Res.ok.injEq] at h
    subst h
    exact hs

theorem cutLines_spec {db : CharDb} {n : Nat} : ∀ (ls out : List Line), cutLines db n ls = .ok out →
    out.length = ls.length ∧ ∀ (k : Nat) l l', ls[k]? = some l → out[k]? = some l' →
      ∃ t, l.text = some t ∧ l' = { l with text := t.cutFront db n }
  | [], out, h => by
    simp only [cutLines, Res.ok.injEq] at h
    subst h
    exact ⟨rfl, by intro k l l' hl; simp at hl⟩
  | l :: r, out, h => by
    simp only [cutLines, Res.bind_eq_ok, Res.ok.injEq] at h
    obtain ⟨t, ht, more, hm, rfl⟩ := h
    obtain ⟨h1, h2⟩ := cutLines_spec r more hm
    refine ⟨by simp [h1], ?_⟩
    intro k x x' hx hx'
    cases k with
    | zero =>
      simp only [List.getElem?_cons_zero, Option.some.injEq] at hx hx'
      subst hx hx'
      cases hl : l.text with
      | none => rw [hl] at ht; simp at ht
      | some y =>
        rw [hl] at ht
        simp only [Res.get, Res.ok.injEq] at ht
        subst ht
        exact ⟨_, rfl, rfl⟩
    | succ k =>
      simp only [List.getElem?_cons_succ] at hx hx'
      exact h2 k x x' hx hx'

theorem cutFront_piece {db : CharDb} {s : Str} {t t' : Bxs} {m n : Nat} (h : Piece m s t.memory) (hc : t.cutFront db n = some t') :
    Piece m s t'.memory := by
  unfold Bxs.cutFront at hc
  split at hc
  · simp only [Option.some.injEq] at hc
    subst hc
    exact Piece.nil m s
  · split at hc
    · simp only [Option.some.injEq] at hc
      subst hc
      exact h
    · simp only [Option.bind_eq_bind, Option.bind_eq_some_iff] at hc
      obtain ⟨p, _, hp⟩ := hc
      rw [fromUnicode_memory hp]
      exact h.drop p

theorem cutLine_piece {db : CharDb} {n m : Nat} {x l : Line} {t : Bxs} (ht : l.text = some t) (h : LinePiece m x l) :
    LinePiece m x { l with text := t.cutFront db n } := by
  refine ⟨h.1, ?_⟩
  intro b' hb'
  obtain ⟨b, hb, hp⟩ := h.2 t ht
  exact ⟨b, hb, cutFront_piece hp hb'⟩

theorem removeDefaultPadding_taken {db : CharDb} {m n : Nat} {src : List Line} {i j : Input} {ctx : RemoveCtx}
    (hs : TakenFrom m src i.lines) (h : removeDefaultPadding db i ctx n = .ok j) : TakenFrom m src j.lines := by
  unfold removeDefaultPadding at h
  split at h
  · split at h
    · rename_i hle
      simp only [Res.bind_eq_ok, Res.ok.injEq] at h
      obtain ⟨ls, hls, ind, hind, mx, hmx, rfl⟩ := h
      obtain ⟨h1, h2⟩ := cutLines_spec _ _ hls
      simp only [List.length_take, List.length_drop] at h1
      apply hs.map
      · simp only [List.length_append, List.length_take, List.length_drop, h1]; omega
      · intro k l l' x hl hl' hx
        dsimp only at hl'
        by_cases hk1 : k < ctx.topStart
        · rw [List.append_assoc, List.getElem?_append_left (by simp; omega), List.getElem?_take_of_lt hk1, hl] at hl'
          obtain rfl := Option.some.inj hl'
          exact hx
        · rw [List.append_assoc, List.getElem?_append_right (by simp; omega)] at hl'
          simp only [List.length_take] at hl'
          by_cases hk2 : k < ctx.topStart + ctx.bodyNum
          · rw [List.getElem?_append_left (by omega)] at hl'
            obtain ⟨t, ht, rfl⟩ := h2 _ l l' (by
              rw [List.getElem?_take_of_lt (by omega), List.getElem?_drop, ← hl]; congr 1; omega) hl'
            exact cutLine_piece ht hx
          · rw [List.getElem?_append_right (by omega), List.getElem?_drop] at hl'
            rw [show ctx.topStart + ctx.bodyNum + (k - min ctx.topStart i.lines.length - ls.length) = k by omega, hl] at hl'
            obtain rfl := Option.some.inj hl'
            exact hx
    · simp at h
  · simp only [Res.ok.injEq] at h
    subst h
    exact hs

/-- the steps of `applyResults` -/
theorem applyResults_spec {db : CharDb} {opt : Opt} {d : Design} {i j : Input} {ctx : RemoveCtx}
    (h : applyResults db opt d i ctx = .ok j) :
    ∃ ls ls1 ls2 m ctx', removeVertical db opt d i ctx = .ok ls ∧
      ctx' = (if opt.killblank ≠ 0 ∨ opt.mend ≠ 0 then killBlank db opt d ls ctx else ctx) ∧
      removeBottom ls ctx' = .ok ls1 ∧ removeTop ls1 ctx' = .ok ls2 ∧ measureLines ls2 = .ok m ∧
      (if ctx.emptySide.left then
        removeDefaultPadding db { i with lines := ls2, maxline := m.1, indent := m.2.getD sizeMax } ctx' (match m.2 with
          | some ind => min ind d.padding.left
          | none => 0) = .ok j
       else j = { i with lines := ls2, maxline := m.1, indent := m.2.getD sizeMax }) := by
  unfold applyResults at h
  simp only [Res.bind_eq_ok] at h
  obtain ⟨ls, h1, ls1, h2, ls2, h3, m, h4, h5⟩ := h
  refine ⟨ls, ls1, ls2, m, _, h1, rfl, h2, h3, h4, ?_⟩
  have he : (if opt.killblank ≠ 0 ∨ opt.mend ≠ 0 then killBlank db opt d ls ctx else ctx).emptySide = ctx.emptySide := by
    split <;> rfl
  rw [he] at h5
  split at h5
  · rename_i hl
    rw [if_pos hl]
    exact h5
  · rename_i hl
    rw [if_neg hl]
    simpa using h5.symm

theorem applyResults_taken {db : CharDb} {opt : Opt} {d : Design} {i j : Input} {ctx : RemoveCtx}
    (h : applyResults db opt d i ctx = .ok j) : TakenFrom i.indent i.lines j.lines := by
  obtain ⟨ls, ls1, ls2, m, ctx', h1, _, h2, h3, h4, h5⟩ := applyResults_spec h
  have t2 := removeTop_taken (removeBottom_taken (removeVertical_taken h1) h2) h3
  split at h5
  · exact removeDefaultPadding_taken (i := { i with lines := ls2, maxline := m.1, indent := m.2.getD sizeMax }) t2 h5
  · subst h5
    exact t2

/-! ## `killBlank` -/

theorem killCount_le (db : CharDb) (limit : Option Nat) : ∀ (ls : List Line) (n : Nat), killCount db limit n ls ≤ n + ls.length
  | [], n => by simp [killCount]
  | l :: r, n => by
    unfold killCount
    split
    · have := killCount_le db limit r (n + 1)
      simp only [List.length_cons]
      omega
    · simp only [List.length_cons]; omega

theorem killCount_ge (db : CharDb) (limit : Option Nat) : ∀ (ls : List Line) (n : Nat), n ≤ killCount db limit n ls
  | [], n => by simp [killCount]
  | l :: r, n => by
    unfold killCount
    split
    · have := killCount_ge db limit r (n + 1)
      omega
    · omega

theorem killCount_blank (db : CharDb) (limit : Option Nat) : ∀ (ls : List Line) (n j : Nat) (l : Line),
    n + j < killCount db limit n ls → ls[j]? = some l → textIsBlank db l.text = true
  | [], n, j, l, _, hl => by simp at hl
  | x :: r, n, j, l, h, hl => by
    unfold killCount at h
    split at h
    · rename_i hc
      simp only [Bool.and_eq_true] at hc
      cases j with
      | zero =>
        simp only [List.getElem?_cons_zero, Option.some.injEq] at hl
        subst hl
        exact hc.2
      | succ j =>
        simp only [List.getElem?_cons_succ] at hl
        exact killCount_blank db limit r (n + 1) j l (by omega) hl
    · omega

theorem killCount_limit (db : CharDb) (m : Nat) : ∀ (ls : List Line) (n : Nat), n ≤ m → killCount db (some m) n ls ≤ m
  | [], n, h => by simpa [killCount] using h
  | x :: r, n, h => by
    unfold killCount
    split
    · rename_i hc
      simp only [limitReached, Bool.and_eq_true, Bool.not_eq_true', decide_eq_false_iff_not] at hc
      exact killCount_limit db m r (n + 1) (by omega)
    · exact h

theorem killCount_stop (db : CharDb) (limit : Option Nat) : ∀ (ls : List Line) (n : Nat),
    (∀ m, limit = some m → n ≤ m) → killCount db limit n ls < n + ls.length →
    limit = some (killCount db limit n ls) ∨ ∃ l, ls[killCount db limit n ls - n]? = some l ∧ textIsBlank db l.text = false
  | [], n, _, h => by simp [killCount] at h
  | x :: r, n, hm, h => by
    unfold killCount at h ⊢
    split
    · rename_i hc
      rw [if_pos hc] at h
      have hge := killCount_ge db limit r (n + 1)
      have hm' : ∀ m, limit = some m → n + 1 ≤ m := by
        intro m hl
        subst hl
        simp only [limitReached, Bool.and_eq_true, Bool.not_eq_true', decide_eq_false_iff_not] at hc
        omega
      rcases killCount_stop db limit r (n + 1) hm' (by simp only [List.length_cons] at h; omega) with h1 | ⟨l, h1, h2⟩
      · exact Or.inl h1
      · refine Or.inr ⟨l, ?_, h2⟩
        rw [show killCount db limit (n + 1) r - n = (killCount db limit (n + 1) r - (n + 1)) + 1 by omega,
          List.getElem?_cons_succ]
        exact h1
    · rename_i hc
      rw [Nat.sub_self]
      cases hb : textIsBlank db x.text with
      | false => exact Or.inr ⟨x, rfl, hb⟩
      | true =>
        left
        rw [hb, Bool.and_true] at hc
        cases limit with
        | none => simp [limitReached] at hc
        | some m =>
          have := hm m rfl
          simp only [limitReached, Bool.not_eq_true', decide_eq_false_iff_not, Decidable.not_not] at hc
          congr 1
          omega

/-! ## the result of the search -/

/-- `c` agrees with `ctx` but for the comparison type -/
def SameBut (ctx c : RemoveCtx) : Prop := ∃ t, c = { ctx with compType := t }

theorem SameBut.refl (ctx : RemoveCtx) : SameBut ctx ctx := ⟨ctx.compType, rfl⟩

theorem SameBut.trans {a b c : RemoveCtx} (h1 : SameBut a b) (h2 : SameBut b c) : SameBut a c := by
  obtain ⟨t, rfl⟩ := h1
  obtain ⟨u, rfl⟩ := h2
  exact ⟨u, rfl⟩

theorem matchHorizLine_same {db : CharDb} {d : Design} {lines : List Line} {ctx : RemoveCtx} {top : Bool} {a b : Nat}
    {q : Bool × RemoveCtx} (h : matchHorizLine db d lines ctx top a b = .ok q) : SameBut ctx q.2 := by
  unfold matchHorizLine at h
  simp only [Res.bind_eq_ok, Res.ok.injEq] at h
  obtain ⟨x, _, rfl⟩ := h
  exact ⟨x.2, rfl⟩

theorem matchAnyShapeLine_same {db : CharDb} {d : Design} {lines : List Line} {top : Bool} {a : Nat} :
    ∀ (l : List Nat) (ctx : RemoveCtx) (q : Bool × RemoveCtx), matchAnyShapeLine db d lines top a l ctx = .ok q → SameBut ctx q.2
  | [], ctx, q, h => by
    simp only [matchAnyShapeLine, Res.ok.injEq] at h
    subst h
    exact SameBut.refl _
  | i :: r, ctx, q, h => by
    unfold matchAnyShapeLine at h
    simp only [Res.bind_eq_ok] at h
    obtain ⟨x, hx, h⟩ := h
    have h1 := matchHorizLine_same hx
    split at h
    · simp only [Res.ok.injEq] at h
      subst h
      exact h1
    · exact h1.trans (matchAnyShapeLine_same r _ q h)

theorem topLoop_spec {db : CharDb} {d : Design} {lines : List Line} : ∀ (n k : Nat) (ctx : RemoveCtx) (q : Nat × RemoveCtx),
    topLoop db d lines n k ctx = .ok q → ctx.topStart + k ≤ lines.length →
    SameBut ctx q.2 ∧ k ≤ q.1 ∧ q.1 ≤ k + n ∧ ctx.topStart + q.1 ≤ lines.length
  | 0, k, ctx, q, h, hk => by
    simp only [topLoop, Res.ok.injEq] at h
    subst h
    exact ⟨SameBut.refl _, Nat.le_refl _, Nat.le_refl _, hk⟩
  | n + 1, k, ctx, q, h, hk => by
    unfold topLoop at h
    split at h
    · simp only [Res.bind_eq_ok] at h
      obtain ⟨x, hx, h⟩ := h
      have h1 := matchAnyShapeLine_same _ _ _ hx
      split at h
      · obtain ⟨t, ht⟩ := h1
        have hs : x.2.topStart = ctx.topStart := by rw [ht]
        obtain ⟨h2, h3, h4, h5⟩ := topLoop_spec n (k + 1) x.2 q h (by omega)
        rw [hs] at h5
        exact ⟨SameBut.trans ⟨t, ht⟩ h2, by omega, by omega, h5⟩
      · simp only [Res.ok.injEq] at h
        subst h
        exact ⟨h1, Nat.le_refl _, by simp, hk⟩
    · simp only [Res.ok.injEq] at h
      subst h
      exact ⟨SameBut.refl _, Nat.le_refl _, by simp, hk⟩

theorem bottomLoop_spec {db : CharDb} {d : Design} {lines : List Line} : ∀ (n k : Nat) (ctx : RemoveCtx) (q : Nat × RemoveCtx),
    bottomLoop db d lines n k ctx = .ok q → k ≤ ctx.bottomEnd →
    SameBut ctx q.2 ∧ k ≤ q.1 ∧ q.1 ≤ k + n ∧ q.1 ≤ ctx.bottomEnd
  | 0, k, ctx, q, h, hk => by
    simp only [bottomLoop, Res.ok.injEq] at h
    subst h
    exact ⟨SameBut.refl _, Nat.le_refl _, Nat.le_refl _, hk⟩
  | n + 1, k, ctx, q, h, hk => by
    unfold bottomLoop at h
    split at h
    · simp only [Res.bind_eq_ok] at h
      obtain ⟨x, hx, h⟩ := h
      have h1 := matchAnyShapeLine_same _ _ _ hx
      split at h
      · obtain ⟨t, ht⟩ := h1
        have hs : x.2.bottomEnd = ctx.bottomEnd := by rw [ht]
        obtain ⟨h2, h3, h4, h5⟩ := bottomLoop_spec n (k + 1) x.2 q h (by omega)
        rw [hs] at h5
        exact ⟨SameBut.trans ⟨t, ht⟩ h2, by omega, by omega, h5⟩
      · simp only [Res.ok.injEq] at h
        subst h
        exact ⟨h1, Nat.le_refl _, by simp, hk⟩
    · simp only [Res.ok.injEq] at h
      subst h
      exact ⟨SameBut.refl _, Nat.le_refl _, by simp, hk⟩

theorem vertLines_length {db : CharDb} {lines : List Line} {ctx : RemoveCtx} {c : CompType} {west east : List ShapeLine} :
    ∀ (n i : Nat) (out : List LineCtx), vertLines db lines ctx c west east n i = .ok out → out.length = n
  | 0, i, out, h => by
    simp only [vertLines, Res.ok.injEq] at h
    subst h
    rfl
  | n + 1, i, out, h => by
    unfold vertLines at h
    simp only [Res.bind_eq_ok, Res.ok.injEq] at h
    obtain ⟨_, _, _, _, _, _, _, _, more, hm, rfl⟩ := h
    simp [vertLines_length n (i + 1) more hm]

theorem vertRounds_length {db : CharDb} {d : Design} {lines : List Line} {ctx : RemoveCtx} : ∀ (cs : List CompType) (c : CompType)
    (body : List LineCtx) (q : CompType × List LineCtx), vertRounds db d lines ctx cs c body = .ok q →
    body.length = ctx.bottomStart - ctx.topEnd → q.2.length = ctx.bottomStart - ctx.topEnd
  | [], c, body, q, h, hb => by
    simp only [vertRounds, Res.ok.injEq] at h
    subst h
    exact hb
  | c' :: r, c, body, q, h, hb => by
    unfold vertRounds at h
    split at h
    · exact vertRounds_length r c body q h hb
    · simp only [Res.bind_eq_ok] at h
      obtain ⟨w, _, e, _, b', hb', h⟩ := h
      have hl := vertLines_length _ _ _ hb'
      split at h
      · simp only [Res.ok.injEq] at h
        subst h
        exact hl
      · exact vertRounds_length r c' b' q h hl

theorem findFirstLine_spec (db : CharDb) (lines : List Line) :
    (∀ (k : Nat) l, k < findFirstLine db lines → lines[k]? = some l → textIsBlank db l.text = true) ∧
    (findFirstLine db lines < lines.length →
      ∃ l, lines[findFirstLine db lines]? = some l ∧ textIsBlank db l.text = false) := by
  unfold findFirstLine
  constructor
  · intro k l hk hl
    obtain ⟨hlt, rfl⟩ := List.getElem?_eq_some_iff.1 hl
    simpa using List.not_of_lt_findIdx hk
  · intro h
    refine ⟨_, List.getElem?_eq_getElem h, ?_⟩
    simpa using List.findIdx_getElem (w := h)

theorem findLastLine_spec (db : CharDb) (lines : List Line) (h : findFirstLine db lines < lines.length) :
    findFirstLine db lines ≤ findLastLine db lines ∧ findLastLine db lines < lines.length ∧
    (∀ (k : Nat) l, findLastLine db lines < k → lines[k]? = some l → textIsBlank db l.text = true) ∧
    ∃ l, lines[findLastLine db lines]? = some l ∧ textIsBlank db l.text = false := by
  obtain ⟨a, ha, hb⟩ := (findFirstLine_spec db lines).2 h
  have hlen : 0 < lines.length := by omega
  have hlt : lines.reverse.findIdx (fun l => !textIsBlank db l.text) < lines.reverse.length := by
    apply List.findIdx_lt_length_of_exists
    exact ⟨a, by simpa using List.mem_of_getElem? ha, by simp [hb]⟩
  have hget := List.findIdx_getElem (w := hlt)
  rw [List.getElem_reverse] at hget
  simp only [List.length_reverse] at hlt
  have hbl : ∀ (k : Nat) l, findLastLine db lines < k → lines[k]? = some l → textIsBlank db l.text = true := by
    intro k l hk hl
    obtain ⟨hlt', rfl⟩ := List.getElem?_eq_some_iff.1 hl
    unfold findLastLine at hk
    have hx : lines.length - 1 - k < lines.reverse.findIdx (fun l => !textIsBlank db l.text) := by omega
    have := List.not_of_lt_findIdx hx
    rw [List.getElem_reverse] at this
    simp only [show lines.length - 1 - (lines.length - 1 - k) = k by omega] at this
    simpa using this
  refine ⟨?_, by unfold findLastLine; omega, hbl, ⟨lines[findLastLine db lines]'(by unfold findLastLine; omega), List.getElem?_eq_getElem _, ?_⟩⟩
  · rcases Nat.lt_or_ge (findLastLine db lines) (findFirstLine db lines) with hc | hc
    · have := hbl _ a hc ha
      rw [hb] at this
      simp at this
    · exact hc
  · simpa [findLastLine] using hget

/-- what the search for a box guarantees -/
theorem findBox_spec {db : CharDb} {d : Design} {i : Input} {ctx : RemoveCtx} (h : findBox db d i = .ok (some ctx)) :
    findFirstLine db i.lines < i.lines.length ∧ ctx.topStart = findFirstLine db i.lines ∧
    ctx.bottomEnd = findLastLine db i.lines + 1 ∧
    ctx.topStart ≤ ctx.topEnd ∧ ctx.topEnd ≤ i.lines.length ∧ ctx.bottomStart ≤ ctx.bottomEnd ∧
    ctx.topEnd ≤ ctx.topStart + (if (determineEmptySides d).top then 0 else (d.shape NE).height) ∧
    ctx.bottomEnd ≤ ctx.bottomStart + (if (determineEmptySides d).bottom then 0 else (d.shape SE).height) ∧
    ctx.bodyNum = ctx.bottomStart - ctx.topEnd ∧ ctx.body.length = ctx.bodyNum ∧ ctx.emptySide = determineEmptySides d := by
  unfold findBox at h
  simp only [Res.bind_eq_ok] at h
  obtain ⟨dm, _, im, _, h⟩ := h
  split at h
  · simp at h
  · rename_i hf
    have hf' : findFirstLine db i.lines < i.lines.length := by omega
    obtain ⟨l1, l2, l3, l4⟩ := findLastLine_spec db i.lines hf'
    simp only [Res.bind_eq_ok] at h
    obtain ⟨q, hq, q', hq', h⟩ := h
    obtain ⟨⟨t, ht⟩, hq1, hq2⟩ : SameBut { emptySide := determineEmptySides d, designMono := dm, inputMono := im, topStart := findFirstLine db i.lines } q.2 ∧
        q.1 ≤ (if (determineEmptySides d).top then 0 else (d.shape NE).height) ∧ findFirstLine db i.lines + q.1 ≤ i.lines.length := by
      split at hq
      · rename_i he
        simp only [Res.ok.injEq] at hq
        subst hq
        exact ⟨SameBut.refl _, by simp, by simp; omega⟩
      · rename_i he
        obtain ⟨a1, a2, a3, a4⟩ := topLoop_spec _ _ _ _ hq (by simp; omega)
        refine ⟨a1, ?_, a4⟩
        have he' : ¬ (determineEmptySides d).top = true := he
        rw [if_neg he']
        omega
    have hes : q.2.emptySide = determineEmptySides d := by rw [ht]
    have hts : q.2.topStart = findFirstLine db i.lines := by rw [ht]
    obtain ⟨⟨u, hu⟩, hq3, hq4⟩ : SameBut { q.2 with topEnd := findFirstLine db i.lines + q.1, bottomEnd := findLastLine db i.lines + 1 } q'.2 ∧
        q'.1 ≤ (if (determineEmptySides d).bottom then 0 else (d.shape SE).height) ∧ q'.1 ≤ findLastLine db i.lines + 1 := by
      split at hq'
      · rename_i he
        simp only [Res.ok.injEq] at hq'
        subst hq'
        exact ⟨SameBut.refl _, by simp, by simp⟩
      · rename_i he
        obtain ⟨a1, a2, a3, a4⟩ := bottomLoop_spec _ _ _ _ hq' (by simp)
        refine ⟨a1, ?_, a4⟩
        have he' : ¬ (determineEmptySides d).bottom = true := by rw [← hes]; exact he
        rw [if_neg he']
        omega
    obtain ⟨c, hc, hctx⟩ : ∃ c : RemoveCtx, (c.topStart = findFirstLine db i.lines ∧ c.topEnd = findFirstLine db i.lines + q.1 ∧
        c.bottomEnd = findLastLine db i.lines + 1 ∧ c.bottomStart = findLastLine db i.lines + 1 - q'.1 ∧
        c.bodyNum = c.bottomStart - c.topEnd ∧ c.body.length = c.bodyNum ∧ c.emptySide = determineEmptySides d) ∧ c = ctx := by
      have hn : ∀ a b : Nat, (if a > b then a - b else 0) = a - b := by intro a b; split <;> omega
      simp only [hn] at h
      by_cases hpos : findLastLine db i.lines + 1 - q'.fst - (findFirstLine db i.lines + q.fst) > 0
      · rw [if_pos hpos] at h
        simp only [Res.bind_eq_ok, Res.ok.injEq, Option.some.injEq] at h
        obtain ⟨c', h, rfl⟩ := h
        unfold findVerticalShapes at h
        split at h
        · simp only [Res.ok.injEq] at h
          subst h
          refine ⟨_, ⟨?_, ?_, ?_, rfl, ?_, ?_, ?_⟩, rfl⟩
          · rw [hu]; exact hts
          · rw [hu]
          · rw [hu]
          · rw [hu]
          · simp
          · rw [hu]; exact hes
        · simp only [Res.bind_eq_ok, Res.ok.injEq] at h
          obtain ⟨x, hx, rfl⟩ := h
          have hl := vertRounds_length _ _ _ _ hx (by
            simp only [List.length_replicate]
            rw [hu])
          rw [hu] at hl
          dsimp only at hl
          refine ⟨_, ⟨?_, ?_, ?_, rfl, ?_, ?_, ?_⟩, rfl⟩
          · rw [hu]; exact hts
          · rw [hu]
          · rw [hu]
          · rw [hu]
          · exact hl
          · rw [hu]; exact hes
      · rw [if_neg hpos] at h
        simp only [Res.ok.injEq, Option.some.injEq] at h
        subst h
        refine ⟨_, ⟨?_, ?_, ?_, rfl, ?_, ?_, ?_⟩, rfl⟩
        · rw [hu]; exact hts
        · rw [hu]
        · rw [hu]
        · rw [hu]
        · simp
        · rw [hu]; exact hes
    subst hctx
    obtain ⟨c1, c2, c3, c4, c5, c6, c7⟩ := hc
    rw [c1, c2, c3, c4]
    refine ⟨hf', rfl, rfl, by omega, hq2, by omega, by omega, by omega, ?_, c6, c7⟩
    rw [c5, c2, c4]

/-! ## the result of the removal -/

theorem killCount_dropped (db : CharDb) (limit : Option Nat) (ls : List Line) :
    BlanksDropped db limit ls (killCount db limit 0 ls) where
  inside := by simpa using killCount_le db limit ls 0
  blank := fun j l hj hl => killCount_blank db limit ls 0 j l (by omega) hl
  atMost := by
    intro m hm
    subst hm
    exact killCount_limit db m ls 0 (Nat.zero_le _)
  most := by
    intro h
    simpa using killCount_stop db limit ls 0 (fun _ _ => Nat.zero_le _) (by omega)

theorem measureLines_spec : ∀ (ls : List Line) (m : Nat × Option Nat), measureLines ls = .ok m →
    (∀ l ∈ ls, ∃ t, l.text = some t ∧ t.cols ≤ m.1 ∧ ∃ n, m.2 = some n ∧ n ≤ t.indent) ∧
    (ls ≠ [] → ∃ l ∈ ls, ∃ t, l.text = some t ∧ m.2 = some t.indent) ∧
    (ls ≠ [] → ∃ l ∈ ls, ∃ t, l.text = some t ∧ m.1 = t.cols) ∧ (ls = [] → m = (0, none))
  | [], m, h => by
    simp only [measureLines, Res.ok.injEq] at h
    subst h
    simp
  | l :: r, m, h => by
    simp only [measureLines, Res.bind_eq_ok, Res.ok.injEq] at h
    obtain ⟨t, ht, m', hm', rfl⟩ := h
    have htx : l.text = some t := by
      cases hl : l.text with
      | none => rw [hl] at ht; simp at ht
      | some y => rw [hl] at ht; simpa using ht
    obtain ⟨h1, h2, h3, h4⟩ := measureLines_spec r m' hm'
    refine ⟨?_, ?_, ?_, by simp⟩
    · intro x hx
      simp only [List.mem_cons] at hx
      rcases hx with rfl | hx
      · refine ⟨t, htx, Nat.le_max_left _ _, _, rfl, ?_⟩
        split <;> omega
      · obtain ⟨u, hu, hc, n, hn, hnu⟩ := h1 x hx
        refine ⟨u, hu, Nat.le_trans hc (Nat.le_max_right _ _), _, rfl, ?_⟩
        rw [hn]
        dsimp only
        omega
    · intro _
      cases hm : m'.2 with
      | none => exact ⟨l, by simp, t, htx, rfl⟩
      | some n =>
        by_cases hle : t.indent ≤ n
        · exact ⟨l, by simp, t, htx, by dsimp only; congr 1; omega⟩
        · have hr : r ≠ [] := by
            intro hr
            rw [h4 hr] at hm
            simp at hm
          obtain ⟨x, hx, u, hu, hmu⟩ := h2 hr
          rw [hm] at hmu
          simp only [Option.some.injEq] at hmu
          exact ⟨x, by simp [hx], u, hu, by dsimp only; congr 1; omega⟩
    · intro _
      by_cases hle : m'.1 ≤ t.cols
      · exact ⟨l, by simp, t, htx, by dsimp only; omega⟩
      · have hr : r ≠ [] := by
          intro hr
          rw [h4 hr] at hle
          simp at hle
        obtain ⟨x, hx, u, hu, hmu⟩ := h3 hr
        exact ⟨x, by simp [hx], u, hu, by dsimp only; omega⟩

theorem Res.sub_eq_ok {a b c : Nat} : Res.sub a b = .ok c ↔ b ≤ a ∧ c = a - b := by
  unfold Res.sub
  split
  · simp; omega
  · simp; omega

theorem measureLines_measured {ls : List Line} {m : Nat × Option Nat} (h : measureLines ls = .ok m) :
    Measured ls m.1 (m.2.getD sizeMax) := by
  obtain ⟨h1, h2, h3, h4⟩ := measureLines_spec ls m h
  refine ⟨?_, ?_, ?_, ?_⟩
  · intro l hl
    obtain ⟨t, ht, hc, n, hn, hnt⟩ := h1 l hl
    exact ⟨t, ht, hc, by rw [hn]; exact hnt⟩
  · intro hne
    obtain ⟨l, hl, t, ht, hm⟩ := h3 hne
    exact ⟨l, hl, t, ht, hm.symm⟩
  · intro hne
    obtain ⟨l, hl, t, ht, hm⟩ := h2 hne
    exact ⟨l, hl, t, ht, by rw [hm]; rfl⟩
  · intro hnil
    rw [h4 hnil]
    exact ⟨rfl, rfl⟩

/-- take/drop arithmetic: cutting out the bottom and the top part -/
theorem cut_both {α} (l : List α) {s a b e : Nat} (h1 : s ≤ a) (h2 : a ≤ b) (h3 : b ≤ e) (h4 : e ≤ l.length) :
    ((l.take b ++ l.drop e).take s ++ (l.take b ++ l.drop e).drop a) = l.take s ++ ((l.take b).drop a ++ l.drop e) := by
  rw [List.take_append_of_le_length (by simp; omega), List.take_take, Nat.min_eq_left (by omega),
    List.drop_append_of_le_length (by simp; omega)]

theorem removeBottom_eq {ls out : List Line} {ctx : RemoveCtx} (h : removeBottom ls ctx = .ok out)
    (h1 : ctx.bottomStart ≤ ctx.bottomEnd) (h2 : ctx.bottomEnd ≤ ls.length) :
    out = ls.take ctx.bottomStart ++ ls.drop ctx.bottomEnd := by
  unfold removeBottom at h
  split at h
  · simpa using h.symm
  · rw [show ctx.bottomStart = ctx.bottomEnd by omega, List.take_append_drop]
    simpa using h.symm

theorem removeTop_eq {ls out : List Line} {ctx : RemoveCtx} (h : removeTop ls ctx = .ok out)
    (h1 : ctx.topStart ≤ ctx.topEnd) (h2 : ctx.topEnd ≤ ls.length) :
    out = ls.take ctx.topStart ++ ls.drop ctx.topEnd := by
  unfold removeTop at h
  split at h
  · simpa using h.symm
  · rw [show ctx.topStart = ctx.topEnd by omega, List.take_append_drop]
    simpa using h.symm

/-- Result of `applyResults` for a box whose top part ends before its bottom part begins -/
theorem applyResults_structure {db : CharDb} {opt : Opt} {d : Design} {i j : Input} {ctx : RemoveCtx}
    (h : applyResults db opt d i ctx = .ok j) (h1 : ctx.topStart ≤ ctx.topEnd) (h2 : ctx.topEnd ≤ ctx.bottomStart)
    (h3 : ctx.bottomStart ≤ ctx.bottomEnd) (h4 : ctx.bottomEnd ≤ i.lines.length)
    (h5 : ctx.bodyNum = ctx.bottomStart - ctx.topEnd) (h6 : ctx.body.length = ctx.bodyNum) :
    ∃ (body : List Line) (k k' n : Nat) (mid mid' : List Line),
      body.length = ctx.bottomStart - ctx.topEnd ∧
      (∀ (x : Nat) l c y, i.lines[ctx.topEnd + x]? = some l → ctx.body[x]? = some c → body[x]? = some y →
        removeVerticalLine db opt d i.indent ctx.compType l c = .ok y) ∧
      (if opt.killblank ≠ 0 ∨ opt.mend ≠ 0 then
        BlanksDropped db (maxRemovable opt d.padding.top) body k ∧
        BlanksDropped db (maxRemovable opt d.padding.bottom) (body.drop k).reverse k'
       else k = 0 ∧ k' = 0) ∧
      k + k' ≤ body.length ∧ mid = (body.take (body.length - k')).drop k ∧
      Outdented ctx.emptySide.left d.padding.left (i.lines.take ctx.topStart ++ mid ++ i.lines.drop ctx.bottomEnd) n ∧
      (n = 0 → mid' = mid) ∧ (0 < n → cutLines db n mid = .ok mid') ∧
      j.lines = i.lines.take ctx.topStart ++ mid' ++ i.lines.drop ctx.bottomEnd ∧
      j.finalNewline = i.finalNewline ∧
      Measured (i.lines.take ctx.topStart ++ mid ++ i.lines.drop ctx.bottomEnd) (j.maxline + n) (j.indent + n) := by
  obtain ⟨ls, ls1, ls2, m, ctx', g1, g2, g3, g4, g5, g6⟩ := applyResults_spec h
  obtain ⟨v1, v2, v3⟩ := removeVertical_spec g1
  have hpre : ls.take ctx.topEnd = i.lines.take ctx.topEnd := by
    apply List.ext_getElem?
    intro k
    by_cases hk : k < ctx.topEnd
    · rw [List.getElem?_take_of_lt hk, List.getElem?_take_of_lt hk]
      exact v3 k (Or.inl hk)
    · rw [List.getElem?_eq_none (by simp; omega), List.getElem?_eq_none (by simp; omega)]
  have hpost : ls.drop ctx.bottomStart = i.lines.drop ctx.bottomStart := by
    apply List.ext_getElem?
    intro k
    rw [List.getElem?_drop, List.getElem?_drop]
    exact v3 _ (Or.inr (by omega))
  generalize hbody : (ls.take ctx.bottomStart).drop ctx.topEnd = body
  have hblen : body.length = ctx.bottomStart - ctx.topEnd := by
    rw [← hbody]; simp only [List.length_drop, List.length_take]; omega
  have hline : ∀ (x : Nat) l c y, i.lines[ctx.topEnd + x]? = some l → ctx.body[x]? = some c → body[x]? = some y →
        removeVerticalLine db opt d i.indent ctx.compType l c = .ok y := by
    intro x l c y hl hc hy
    have hx := (List.getElem?_eq_some_iff.1 hc).1
    rw [← hbody, List.getElem?_drop, List.getElem?_take_of_lt (by omega)] at hy
    exact v2 x c l y (by omega) hc hl hy
  obtain ⟨k, k', hkk, hk1, hctx'⟩ : ∃ k k', (if opt.killblank ≠ 0 ∨ opt.mend ≠ 0 then
        BlanksDropped db (maxRemovable opt d.padding.top) body k ∧
        BlanksDropped db (maxRemovable opt d.padding.bottom) (body.drop k).reverse k'
       else k = 0 ∧ k' = 0) ∧ k + k' ≤ body.length ∧
       ctx' = { ctx with topEnd := ctx.topEnd + k, bottomStart := ctx.bottomStart - k', bodyNum := ctx.bodyNum - k - k' } := by
    split at g2
    · rename_i hc
      unfold killBlank at g2
      rw [hbody] at g2
      have e1 := killCount_dropped db (maxRemovable opt d.padding.top) body
      have e2 := killCount_dropped db (maxRemovable opt d.padding.bottom) (body.drop (killCount db (maxRemovable opt d.padding.top) 0 body)).reverse
      refine ⟨_, _, by rw [if_pos hc]; exact ⟨e1, e2⟩, ?_, g2⟩
      have := e1.inside
      have := e2.inside
      simp only [List.length_reverse, List.length_drop] at this
      omega
    · rename_i hc
      refine ⟨0, 0, by rw [if_neg hc]; exact ⟨rfl, rfl⟩, by omega, ?_⟩
      rw [g2]
      simp
  have b1 : ctx'.topEnd = ctx.topEnd + k := by rw [hctx']
  have b2 : ctx'.bottomStart = ctx.bottomStart - k' := by rw [hctx']
  have b3 : ctx'.bottomEnd = ctx.bottomEnd := by rw [hctx']
  have b4 : ctx'.topStart = ctx.topStart := by rw [hctx']
  have b5 : ctx'.bodyNum = ctx.bodyNum - k - k' := by rw [hctx']
  have hls1 := removeBottom_eq g3 (by omega) (by omega)
  have hls2 := removeTop_eq g4 (by omega) (by rw [hls1]; simp only [List.length_append, List.length_take, List.length_drop]; omega)
  rw [hls1, b1, b2, b3, b4, cut_both ls (by omega) (by omega) (by omega) (by omega)] at hls2
  have hmid : (ls.take (ctx.bottomStart - k')).drop (ctx.topEnd + k) = (body.take (body.length - k')).drop k := by
    rw [← hbody]
    apply List.ext_getElem?
    intro x
    simp only [List.getElem?_drop, List.getElem?_take, List.length_drop, List.length_take]
    by_cases hx : ctx.topEnd + k + x < ctx.bottomStart - k'
    · rw [if_pos hx, if_pos (by omega), if_pos (by omega)]
      congr 1
      omega
    · rw [if_neg hx, if_neg (by omega)]
  have hp : ls.take ctx.topStart = i.lines.take ctx.topStart := by
    have := congrArg (List.take ctx.topStart) hpre
    rwa [List.take_take, List.take_take, Nat.min_eq_left h1] at this
  have hq : ls.drop ctx.bottomEnd = i.lines.drop ctx.bottomEnd := by
    have := congrArg (List.drop (ctx.bottomEnd - ctx.bottomStart)) hpost
    rwa [List.drop_drop, List.drop_drop, show ctx.bottomStart + (ctx.bottomEnd - ctx.bottomStart) = ctx.bottomEnd by omega] at this
  rw [hmid, hp, hq] at hls2
  generalize hmd : (body.take (body.length - k')).drop k = mid at hls2
  have hmlen : mid.length = ctx'.bodyNum := by
    rw [← hmd]; simp only [List.length_drop, List.length_take]; omega
  obtain ⟨m1, m2, m3, m4⟩ := measureLines_spec _ _ g5
  have hms := measureLines_measured g5
  rw [← List.append_assoc] at hls2
  split at g6
  · rename_i hel
    have hout : Outdented ctx.emptySide.left d.padding.left ls2 (match m.2 with
          | some ind => min ind d.padding.left
          | none => 0) := by
      refine ⟨by rw [hel]; simp, ?_, ?_, ?_⟩
      · split <;> omega
      · intro l hl
        obtain ⟨t, ht, _, n, hn, hnt⟩ := m1 l hl
        refine ⟨t, ht, ?_⟩
        rw [hn]
        dsimp only
        omega
      · intro _ hne
        obtain ⟨l, hl, t, ht, hmt⟩ := m2 hne
        rw [hmt]
        dsimp only
        by_cases hle : d.padding.left ≤ t.indent
        · exact Or.inl (by omega)
        · exact Or.inr ⟨l, hl, t, ht, by omega⟩
    generalize hn : (match m.2 with
          | some ind => min ind d.padding.left
          | none => 0) = n at g6 hout
    unfold removeDefaultPadding at g6
    by_cases hn0 : n > 0
    · rw [if_pos hn0] at g6
      split at g6
      · simp only [Res.bind_eq_ok, Res.ok.injEq] at g6
        obtain ⟨cl, hcl, ind, hind, mx, hmx, rfl⟩ := g6
        have hdm : (ls2.drop ctx'.topStart).take ctx'.bodyNum = mid := by
          rw [hls2, List.append_assoc, List.drop_append_of_le_length (by simp; omega),
            List.drop_of_length_le (by simp; omega), List.nil_append, ← hmlen, List.take_left]
        refine ⟨body, k, k', n, mid, cl, hblen, hline, hkk, hk1, hmd.symm, ?_, fun h0 => by omega, fun _ => ?_, ?_, rfl, ?_⟩
        · rw [hls2] at hout
          exact hout
        · rw [← hdm]; exact hcl
        · dsimp only
          congr 1
          · rw [hls2, b4, List.append_assoc, List.take_append_of_le_length (by simp; omega), List.take_take, Nat.min_self]
          · rw [hls2, b4, ← hmlen]
            have : (i.lines.take ctx.topStart ++ mid).length = ctx.topStart + mid.length := by
              simp only [List.length_append, List.length_take]; omega
            rw [← this, List.drop_left]
        · rw [← hls2]
          obtain ⟨i1, rfl⟩ := Res.sub_eq_ok.1 hind
          obtain ⟨i2, rfl⟩ := Res.sub_eq_ok.1 hmx
          dsimp only at i1 i2 ⊢
          rw [Nat.sub_add_cancel i1, Nat.sub_add_cancel i2]
          exact hms
      · simp at g6
    · rw [if_neg hn0] at g6
      simp only [Res.ok.injEq] at g6
      subst g6
      rw [hls2] at hout
      obtain rfl : n = 0 := by omega
      exact ⟨body, k, k', 0, mid, mid, hblen, hline, hkk, hk1, hmd.symm, hout, fun _ => rfl, fun h0 => absurd h0 hn0, hls2, rfl,
        by rw [← hls2]; exact hms⟩
  · rename_i hel
    subst g6
    refine ⟨body, k, k', 0, mid, mid, hblen, hline, hkk, hk1, hmd.symm, ⟨fun _ => rfl, Nat.zero_le _, ?_, fun h0 => absurd h0 hel⟩,
      fun _ => rfl, fun h0 => by omega, hls2, rfl, by rw [← hls2]; exact hms⟩
    intro l hl
    rw [← hls2] at hl
    obtain ⟨t, ht, _⟩ := m1 l hl
    exact ⟨t, ht, Nat.zero_le _⟩

end Boxes
