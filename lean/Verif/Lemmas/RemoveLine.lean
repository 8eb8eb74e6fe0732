import Verif.Lemmas.Remove
import Verif.Lemmas.TextPos
import Verif.Lemmas.BxsOps

/-!
Helper lemmas: what remains of one line of the body of a box.
-/
namespace Boxes
open Spec ShapeName
set_option linter.unusedSimpArgs false

theorem removeDefaultPadding_final {db : CharDb} {i j : Input} {ctx : RemoveCtx} {n : Nat}
    (h : removeDefaultPadding db i ctx n = .ok j) : j.finalNewline = i.finalNewline := by
  unfold removeDefaultPadding at h
  split at h
  · split at h
    · simp only [Res.bind_eq_ok, Res.ok.injEq] at h
      obtain ⟨_, _, _, _, _, _, rfl⟩ := h
      rfl
    · simp at h
  · simp only [Res.ok.injEq] at h
    subst h
    rfl

/-! ## one line of the body -/

/-- the blanks that `confirmedPadding` counts among the characters `l` -/
theorem paddingLoop_count (db : CharDb) (b : Bxs) (c : CompType) (l : Str) : ∀ (n i : Nat),
    i + n ≤ l.length → (∀ (x : Nat) y, l[x]? = some y → orgIsNotBlank db b c x = .ok (!isBlank db y)) →
    paddingLoop db b c n i = .ok (((l.drop i).take n).takeWhile (isBlank db)).length
  | 0, i, _, _ => by simp [paddingLoop]
  | n + 1, i, h, hx => by
    have hi : i < l.length := by omega
    have e : l.drop i = l[i] :: l.drop (i + 1) := List.drop_eq_getElem_cons hi
    rw [paddingLoop, hx i _ (List.getElem?_eq_getElem hi), e, List.take_succ_cons, List.takeWhile_cons]
    simp only [Res.ok_bind]
    cases hb : isBlank db l[i] with
    | false => simp
    | true => simp [paddingLoop_count db b c l n (i + 1) (by omega) hx]

theorem confirmedPadding_count (db : CharDb) (b : Bxs) (c : CompType) (l : Str) (hl : maxCharsLine b c = l.length)
    (hx : ∀ (x : Nat) y, l[x]? = some y → orgIsNotBlank db b c x = .ok (!isBlank db y)) (start num : Nat) :
    confirmedPadding db b c start num = .ok (((l.drop start).take num).takeWhile (isBlank db)).length := by
  unfold confirmedPadding
  rw [hl]
  by_cases hs : start ≤ l.length
  · rw [paddingLoop_count db b c l _ start (by omega) hx]
    congr 3
    rw [← List.take_length (l := l.drop start), List.take_take, List.take_take]
    simp only [List.length_drop]
    congr 1
    omega
  · rw [show min l.length (start + num) - start = 0 by omega, List.drop_of_length_le (by omega)]
    simp [paddingLoop]

theorem clamp_take {α} (l : List α) (e : Nat) : l.take (if e > l.length then l.length else e) = l.take e := by
  split
  · rw [List.take_length, List.take_of_length_le (by omega)]
  · rfl

theorem clamp_drop {α} (l : List α) (e s : Nat) : (l.take e).drop (if s > l.length then l.length else s) = (l.take e).drop s := by
  split
  · rw [List.drop_of_length_le (by simp; omega), List.drop_of_length_le (by simp; omega)]
  · rfl

theorem substr_cases {db : CharDb} {b : Bxs} {s e : Nat} (hn : b.numChars = b.memory.length) :
    b.substr db s e = fromUnicode db ((b.memory.take e).drop s) ∨ (b.substr db s e = none ∧ (b.memory.take e).drop s = []) := by
  unfold Bxs.substr
  dsimp only
  rw [hn, clamp_take, clamp_drop]
  by_cases hlt : (if e > b.memory.length then b.memory.length else e) < (if s > b.memory.length then b.memory.length else s)
  · right
    rw [if_pos hlt]
    refine ⟨rfl, List.drop_of_length_le ?_⟩
    rw [List.length_take]
    revert hlt
    split <;> split <;> omega
  · left
    rw [if_neg hlt]

theorem substr_memory {db : CharDb} {b t : Bxs} {s e : Nat} (hn : b.numChars = b.memory.length) (h : b.substr db s e = some t) :
    t.memory = (b.memory.take e).drop s := by
  rcases substr_cases (db := db) (s := s) (e := e) hn with h1 | ⟨h1, _⟩
  · rw [h1] at h
    exact fromUnicode_memory h
  · rw [h1] at h
    simp at h

theorem substr_none {db : CharDb} {b : Bxs} {s e : Nat} (hn : b.numChars = b.memory.length)
    (hok : fromUnicode db ((b.memory.take e).drop s) ≠ none) (h : b.substr db s e = none) : (b.memory.take e).drop s = [] := by
  rcases substr_cases (db := db) (s := s) (e := e) hn with h1 | ⟨_, h1⟩
  · rw [h1] at h
    exact absurd h hok
  · exact h1

/-- common part: the text of the new line -/
theorem newLine_memory {db : CharDb} {opt : Opt} {indent : Nat} {b t : Bxs} {s e : Nat} {line y : Line}
    (hn : b.numChars = b.memory.length) (hok : fromUnicode db ((b.memory.take e).drop s) ≠ none)
    (hy : (if opt.indentmode = 'b' ∨ opt.indentmode = '\x00' then
      (Res.ok { line with text := prependSpacesOpt db (b.substr db s e) indent } : Res Line)
      else .ok { line with text := b.substr db s e }) = .ok y) (ht : y.text = some t) :
    t.memory = spaces (restored opt indent) ++ (b.memory.take e).drop s := by
  unfold restored
  split at hy
  · rename_i hm
    rw [if_pos hm]
    simp only [Res.ok.injEq] at hy
    subst hy
    dsimp only at ht
    unfold prependSpacesOpt at ht
    cases hs : b.substr db s e with
    | some t0 =>
      rw [hs] at ht
      simp only [Option.some.injEq] at ht
      subst ht
      have hm0 := substr_memory hn hs
      have hn0 := substr_numChars hs
      unfold Bxs.prependSpaces
      split
      · rename_i h0
        subst h0
        simpa [spaces] using hm0
      · rw [hn0, List.take_length, hm0]
        rfl
    | none =>
      rw [hs] at ht
      dsimp only at ht
      rw [substr_none hn hok hs]
      split at ht
      · simp at ht
      · rw [fromUnicode_memory ht]
        simp [spaces, nspaces]
  · rename_i hm
    rw [if_neg hm]
    simp only [Res.ok.injEq] at hy
    subst hy
    dsimp only at ht
    simpa [spaces] using substr_memory hn ht

theorem leadingBlanks_eq (db : CharDb) (v : Str) : (v.takeWhile (isBlank db)).length = leadingBlanks db v := by
  unfold leadingBlanks
  rw [isBlank_fun]

theorem removeVerticalLine_steps {db : CharDb} {opt : Opt} {d : Design} {n : Nat} {c : CompType} {line y : Line} {l : LineCtx} {b : Bxs}
    (hb : line.text = some b) (h : removeVerticalLine db opt d n c line l = .ok y) :
    ∃ s e, calculateStartIdx db d c b l = .ok s ∧ calculateEndIdx c b l = .ok e ∧
      (if opt.indentmode = 'b' ∨ opt.indentmode = '\x00' then
        (Res.ok { line with text := prependSpacesOpt db (b.substr db s e) n } : Res Line)
        else .ok { line with text := b.substr db s e }) = .ok y := by
  unfold removeVerticalLine at h
  rw [hb] at h
  simp only [Res.get_some, Res.ok_bind, Res.bind_eq_ok] at h
  obtain ⟨s, hs, e, he, h⟩ := h
  exact ⟨s, e, hs, he, h⟩

theorem orgIsNotBlank_literal {db : CharDb} {b : Bxs} {c : CompType} (hc : c.skipsInput = false) (x y : Nat) (hx : b.memory[x]? = some y) :
    orgIsNotBlank db b c x = .ok (!isBlank db y) := by
  unfold orgIsNotBlank
  have : c = .literal ∨ c = .ignoreShape := by cases c <;> simp [CompType.skipsInput] at hc ⊢
  rw [if_pos this, hx]
  rfl

theorem maxChars_literal {b : Bxs} {c : CompType} (hc : c.skipsInput = false) : maxCharsLine b c = b.numChars := by
  have : c = .literal ∨ c = .ignoreShape := by cases c <;> simp [CompType.skipsInput] at hc ⊢
  simp [maxCharsLine, this]

theorem orgIsNotBlank_visible {db : CharDb} {ts : List Tok} {c : CompType} (hc : c.skipsInput = true) (x y : Nat)
    (hx : (visOf ts)[x]? = some y) : orgIsNotBlank db (bxsOf db ts) c x = .ok (!isBlank db y) := by
  unfold orgIsNotBlank
  have : ¬ (c = .literal ∨ c = .ignoreShape) := by cases c <;> simp [CompType.skipsInput] at hc ⊢
  obtain ⟨hlt, rfl⟩ := List.getElem?_eq_some_iff.1 hx
  obtain ⟨p, h1, h2, _⟩ := visChar_eq_some db ts x hlt
  rw [if_neg this, h1]
  simp only [Res.get_some, Res.ok_bind, h2]

theorem maxChars_visible {db : CharDb} {ts : List Tok} {c : CompType} (hc : c.skipsInput = true) :
    maxCharsLine (bxsOf db ts) c = (visOf ts).length := by
  have : ¬ (c = .literal ∨ c = .ignoreShape) := by cases c <;> simp [CompType.skipsInput] at hc ⊢
  simp [maxCharsLine, this, bxsOf]

theorem calculateStartIdx_eq {db : CharDb} {d : Design} {c : CompType} {b : Bxs} {l : LineCtx} {v : Str}
    (hl : maxCharsLine b c = v.length)
    (hx : ∀ (x : Nat) y, v[x]? = some y → orgIsNotBlank db b c x = .ok (!isBlank db y)) :
    calculateStartIdx db d c b l =
      if c.skipsInput then Res.get b.firstChar[keepFrom db d l v]? else .ok (keepFrom db d l v) := by
  unfold calculateStartIdx keepFrom
  by_cases hw : l.westQuality > 0
  · rw [if_pos hw, if_pos hw, confirmedPadding_count db b c v hl hx, leadingBlanks_eq]
    rfl
  · rw [if_neg hw, if_neg hw]
    rfl

theorem calculateEndIdx_eq {c : CompType} {b : Bxs} {l : LineCtx} {v : Str} (hl : maxCharsLine b c = v.length) :
    calculateEndIdx c b l = if c.skipsInput then Res.get b.firstChar[keepTo l v]? else .ok (keepTo l v) := by
  unfold calculateEndIdx keepTo
  rw [hl]

/-! ## analysis of any string of allowed characters -/

theorem fuLoop_allowed (db : CharDb) : ∀ (n : Nat) (s : Str) (st : FuState), s.length ≤ n → (∀ x ∈ s, ¬ Forbidden db x) →
    fuLoop db n st s ≠ none
  | n, [], st, _, _ => by unfold fuLoop; cases n <;> simp
  | 0, c :: s, st, h, _ => by simp at h
  | n + 1, c :: s, st, h, ha => by
    unfold fuLoop
    have hc : isAllowedAnywhere db c = true := by
      rw [← Bool.not_eq_false]
      exact fun hf => ha c (by simp) ((allowed_iff db c).1 hf)
    have hlen := advanceNext_length c s
    obtain ⟨pre, hsuf⟩ := advLoop_suffix (c :: s) 0 0
    rw [hc]
    simp only [Bool.not_true, Bool.false_eq_true, if_false]
    apply fuLoop_allowed db n
    · simp only [List.length_cons] at h hlen; omega
    · intro x hx
      exact ha x (by rw [hsuf]; exact List.mem_append_right _ hx)

theorem fromUnicode_allowed (db : CharDb) {s : Str} (h : ∀ x ∈ s, ¬ Forbidden db x) : fromUnicode db s ≠ none := by
  unfold fromUnicode
  intro hn
  rw [Option.map_eq_none_iff] at hn
  exact fuLoop_allowed db _ s _ (Nat.le_refl _) h hn

/-! ## printing -/

theorem rtrim_piece {db : CharDb} {n : Nat} {s : Str} {t t' : Bxs} (h : Piece n s t.memory) (ht : t.rtrim db = some t') :
    Piece n s t'.memory := by
  unfold Bxs.rtrim at ht
  split at ht
  · simp only [Option.some.injEq] at ht
    subst ht
    exact h
  · split at ht
    · simp at ht
    · simp only [Option.bind_eq_bind, Option.bind_eq_some_iff] at ht
      obtain ⟨p, _, hp⟩ := ht
      rw [fromUnicode_memory hp]
      exact h.take p

theorem rtrimLines_spec {db : CharDb} : ∀ (ls out : List Line), rtrimLines db ls = .ok out →
    out.length = ls.length ∧ ∀ (k : Nat) l l', ls[k]? = some l → out[k]? = some l' →
      l'.tabpos = l.tabpos ∧ (l.text = none → l'.text = none) ∧
      ∀ t, l.text = some t → ∃ t', t.rtrim db = some t' ∧ l'.text = some t'
  | [], out, h => by
    simp only [rtrimLines, Res.ok.injEq] at h
    subst h
    exact ⟨rfl, by intro k l l' hl; simp at hl⟩
  | l :: r, out, h => by
    unfold rtrimLines at h
    simp only [Res.bind_eq_ok] at h
    obtain ⟨more, hm, h⟩ := h
    obtain ⟨h1, h2⟩ := rtrimLines_spec r more hm
    cases hl : l.text with
    | none =>
      rw [hl] at h
      simp only [Res.ok.injEq] at h
      subst h
      refine ⟨by simp [h1], ?_⟩
      intro k x x' hx hx'
      cases k with
      | zero =>
        simp only [List.getElem?_cons_zero, Option.some.injEq] at hx hx'
        subst hx hx'
        rw [hl]
        simp
      | succ k => exact h2 k x x' hx hx'
    | some t =>
      rw [hl] at h
      simp only [Res.bind_eq_ok, Res.ok.injEq] at h
      obtain ⟨t', ht', rfl⟩ := h
      refine ⟨by simp [h1], ?_⟩
      intro k x x' hx hx'
      cases k with
      | zero =>
        simp only [List.getElem?_cons_zero, Option.some.injEq] at hx hx'
        subst hx hx'
        rw [hl]
        refine ⟨rfl, by simp, ?_⟩
        intro u hu
        simp only [Option.some.injEq] at hu
        subst hu
        cases hr : t.rtrim db with
        | none => rw [hr] at ht'; simp at ht'
        | some z => rw [hr] at ht'; simp at ht'; exact ⟨z, rfl, by rw [ht']⟩
      | succ k => exact h2 k x x' hx hx'

theorem outputLines_spec {opt : Opt} {fin : Bool} {ind : Nat} : ∀ (ls : List Line) (out : List (Str × Str)),
    outputLines opt fin ind ls = .ok out → (∀ l ∈ ls, l.text ≠ none) →
    out.length = ls.length ∧ ∀ (k : Nat) l p, ls[k]? = some l → out[k]? = some p →
      ∃ t, l.text = some t ∧ outputLine opt ind l t = .ok p.1 ∧
        p.2 = if k + 1 = ls.length ∧ fin = false then [] else opt.eol
  | [], out, h, _ => by
    simp only [outputLines, Res.ok.injEq] at h
    subst h
    exact ⟨rfl, by intro k l p hl; simp at hl⟩
  | l :: r, out, h, hn => by
    unfold outputLines at h
    simp only [Res.bind_eq_ok] at h
    obtain ⟨more, hm, h⟩ := h
    obtain ⟨h1, h2⟩ := outputLines_spec r more hm (fun x hx => hn x (by simp [hx]))
    cases hl : l.text with
    | none => exact absurd hl (hn l (by simp))
    | some t =>
      rw [hl] at h
      simp only [Res.bind_eq_ok, Res.ok.injEq] at h
      obtain ⟨s, hs, rfl⟩ := h
      refine ⟨by simp [h1], ?_⟩
      intro k x p hx hp
      cases k with
      | zero =>
        simp only [List.getElem?_cons_zero, Option.some.injEq] at hx hp
        subst hx hp
        refine ⟨t, hl, hs, ?_⟩
        cases r with
        | nil => cases fin <;> simp
        | cons a r => cases fin <;> simp
      | succ k =>
        simp only [List.getElem?_cons_succ] at hx hp
        obtain ⟨t, e1, e2, e3⟩ := h2 k x p hx hp
        refine ⟨t, e1, e2, ?_⟩
        rw [e3]
        simp

theorem outputLine_plain {opt : Opt} {n ind : Nat} {l : Line} {t : Bxs} {s p : Str} (hu : opt.tabexp ≠ 'u') (hk : opt.tabexp ≠ 'k')
    (h : outputLine opt ind l t = .ok p) (ht : Piece n s t.memory) : Piece n s p := by
  unfold outputLine at h
  rw [if_neg hu, if_neg hk] at h
  simp only [Res.bind_eq_ok, Res.ok.injEq] at h
  obtain ⟨x, hx, rfl⟩ := h
  unfold Bxs.fromChar at hx
  simp only [Res.bind_eq_ok, Res.ok.injEq] at hx
  obtain ⟨q, _, rfl⟩ := hx
  exact ht.drop q

end Boxes
