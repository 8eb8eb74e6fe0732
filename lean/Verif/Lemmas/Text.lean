import Verif.Model.Bxs
import Verif.Spec.Text

/-!
Helper lemmas: scanning of text with escape sequences (`advance_next32`, `is_csi_reset`, `bxs_from_unicode`).
-/
namespace Boxes

set_option linter.unusedSimpArgs false

open Spec

theorem width_eq (db : CharDb) (c : Nat) : charCols db c = Spec.width db c := by
  unfold charCols Spec.width isAsciiPrintable CharDb.cols
  by_cases h1 : 0x20 ≤ c ∧ c < 0x7f
  · simp [h1]
  · by_cases h2 : c = 9
    · subst h2; simp
    · simp only [chTab, h2, if_false, or_false, h1]
      have : (decide (32 ≤ c) && decide (c < 127)) = false := by
        simp only [Bool.and_eq_false_iff, decide_eq_false_iff_not]; omega
      simp only [this]
      simp only [Bool.false_eq_true, if_false]
      omega

theorem isBlank_iff (db : CharDb) (c : Nat) : isBlank db c = decide (Blank db c) := by
  unfold isBlank Blank
  by_cases h : c = 9 <;> simp [h]

theorem allowed_iff (db : CharDb) (c : Nat) : isAllowedAnywhere db c = false ↔ Forbidden db c := by
  unfold isAllowedAnywhere Forbidden
  simp only [Bool.or_eq_false_iff, Bool.not_eq_false', beq_eq_false_iff_ne, ne_eq, chTab, chCr, chNl, chEsc]
  constructor
  · rintro ⟨⟨⟨⟨a, b⟩, c⟩, d⟩, e⟩; exact ⟨a, b, c, d, e⟩
  · rintro ⟨a, b, c, d, e⟩; exact ⟨⟨⟨⟨a, b⟩, c⟩, d⟩, e⟩

/-! ## advance_next32 -/

theorem advanceNext_vis {c : Nat} (h : c ≠ 0x1b) (s : Str) : advanceNext (c :: s) = (s, 0) := by
  unfold advanceNext advLoop
  simp [h]

theorem advLoop_params (params : Str) (f : Nat) (s : Str) (k : Nat)
    (hp : ∀ p ∈ params, ¬ (0x40 ≤ p ∧ p ≤ 0x7e)) (h1 : 0x40 ≤ f) (h2 : f ≤ 0x7e) :
    advLoop 2 k (params ++ f :: s) = (s, k + params.length + 1) := by
  induction params generalizing k with
  | nil => simp [advLoop, h1, h2]
  | cons p ps ih =>
    have hp' : ¬ (0x40 ≤ p ∧ p ≤ 0x7e) := hp p (by simp)
    have := ih (k + 1) (fun q hq => hp q (by simp [hq]))
    rw [List.cons_append, advLoop]
    rw [if_neg (by omega), if_neg (by omega), if_neg (by omega), if_pos rfl, if_neg hp', this]
    simp only [List.length_cons, Prod.mk.injEq, true_and]
    omega

theorem advanceNext_esc {e : Str} (h : EscSeq e) (s : Str) : advanceNext (e ++ s) = (s, e.length) := by
  cases h with
  | two c h1 h2 h3 =>
    have h4 : c ≠ 0x28 := by omega
    have h5 : c ≠ 0x5b := h3
    simp [advanceNext, advLoop, h1, h2, h4, h5]
  | csi o params f ho hp h1 h2 =>
    have := advLoop_params params f s 2 hp h1 h2
    simp only [advanceNext, List.cons_append, List.append_assoc, List.nil_append]
    rw [advLoop]
    simp only [chEsc, and_self, if_true]
    rw [advLoop]
    simp only [Nat.one_ne_zero, false_and, if_false, true_and, ho, if_true]
    rw [this]
    simp only [List.length_cons, List.length_append, List.length_nil]
    simp only [Prod.mk.injEq, true_and]
    omega

theorem Spec.EscSeq.ne_nil {e : Str} (h : EscSeq e) : e ≠ [] := by cases h <;> simp
theorem Spec.EscSeq.length_pos {e : Str} (h : EscSeq e) : 0 < e.length := List.length_pos_iff.2 h.ne_nil
theorem Spec.EscSeq.head {e : Str} (h : EscSeq e) : ∃ r, e = 0x1b :: r := by cases h <;> simp

theorem advLoop_length (pos k : Nat) (s : Str) : (advLoop pos k s).1.length ≤ s.length := by
  induction s generalizing pos k with
  | nil => simp [advLoop]
  | cons c s ih =>
    rw [advLoop]
    have h1 := ih 1 (k+1); have h2 := ih 2 (k+1)
    split
    · simp; omega
    · split
      · simp; omega
      · split
        · simp
        · split
          · split
            · simp
            · simp; omega
          · simp

theorem advanceNext_length (c : Nat) (s : Str) : (advanceNext (c :: s)).1.length < (c :: s).length := by
  unfold advanceNext
  rw [advLoop]
  have h1 := advLoop_length 1 1 s
  simp only [List.length_cons]
  split
  · simpa using Nat.lt_succ_of_le h1
  · simp

/-! ## is_csi_reset -/

theorem csiResetEnd_append {f : Nat} (h1 : 0x40 ≤ f) (h2 : f ≤ 0x7e) (s : Str) : csiResetEnd (f :: s) = true := by
  simp [csiResetEnd, isFinalByte, h1, h2]

theorem isCsiReset_iff {e : Str} (h : EscSeq e) (s : Str) : isCsiReset (e ++ s) = true ↔ ResetSeq e := by
  cases h with
  | two c h1 h2 h3 =>
    have h4 : c ≠ 0x28 := by omega
    constructor
    · intro hh
      cases s with
      | nil => simp [isCsiReset] at hh
      | cons a s =>
        simp [isCsiReset, h3, h4] at hh
    · intro hh
      generalize hx : ([0x1b, c] : Str) = x at hh
      cases hh with
      | mk o params f ho _ _ _ =>
        simp only [List.cons.injEq, true_and] at hx
        exfalso
        have := hx.2
        simp at this
  | csi o params f ho hp h1 h2 =>
    have hnf : ∀ p ∈ params, isFinalByte p = false := by
      intro p hpm
      have := hp p hpm
      simp only [isFinalByte, Bool.and_eq_false_iff, decide_eq_false_iff_not]
      omega
    have hf : isFinalByte f = true := by simp [isFinalByte, h1, h2]
    have ho' : ¬ (o ≠ 0x5b ∧ o ≠ 0x28) := by omega
    have key : ResetSeq (0x1b :: o :: (params ++ [f])) ↔
        params ∈ [[], [0x30], [0x31, 0x30], [0x33, 0x39], [0x34, 0x39], [0x35, 0x39], [0x37, 0x35]] := by
      constructor
      · intro hh
        generalize hx : (0x1b :: o :: (params ++ [f]) : Str) = x at hh
        cases hh with
        | mk o2 params2 f2 _ hm _ _ =>
          simp only [List.cons.injEq, true_and] at hx
          have := List.append_inj_left' hx.2 (by simp)
          rw [this]; exact hm
      · intro hh; exact ResetSeq.mk o params f ho hh h1 h2
    rw [key]
    simp only [List.cons_append, List.append_assoc, List.nil_append]
    match params, hnf with
    | [], _ =>
      have : f ≠ 0x30 := by omega
      simp [isCsiReset, ho', hf, this]
    | [p], hnf =>
      have hpf := hnf p (by simp)
      have hf39 : f ≠ 0x39 := by omega
      have hf30 : f ≠ 0x30 := by omega
      have hf35 : f ≠ 0x35 := by omega
      simp only [List.cons_append, List.nil_append, isCsiReset, ho', hpf]
      by_cases hp0 : p = 0x30
      · simp [hp0, csiResetEnd, hf]
      · simp [hp0, hf30, hf39, hf35]
    | [p, q], hnf =>
      have hpf := hnf p (by simp)
      have hqf := hnf q (by simp)
      simp only [List.cons_append, List.nil_append, isCsiReset, ho', hpf]
      by_cases hp0 : p = 0x30
      · simp [hp0, csiResetEnd, hqf]
      · simp only [ne_eq, chEsc, not_true_eq_false, if_false, hp0, Bool.false_eq_true, csiResetEnd, hf,
          if_true_right]
        simp [hp0]
    | p :: q :: r :: params, hnf =>
      have hpf := hnf p (by simp)
      have hqf := hnf q (by simp)
      have hrf := hnf r (by simp)
      simp only [List.cons_append, List.nil_append, isCsiReset, ho', hpf]
      by_cases hp0 : p = 0x30
      · simp [hp0, csiResetEnd, hqf]
      · simp [hp0, csiResetEnd, hrf]

/-! ## Token lists

A `Text` derivation as a list of tokens: `inl c` is a visible character, `inr e` an escape sequence. -/

abbrev Tok := Nat ⊕ Str

def Tok.chars : Tok → Str
  | .inl c => [c]
  | .inr e => e

def Tok.ok : Tok → Prop
  | .inl c => c ≠ 0x1b
  | .inr e => EscSeq e

def flat (ts : List Tok) : Str := ts.flatMap Tok.chars
def visOf (ts : List Tok) : Str := ts.filterMap (fun t => match t with | .inl c => some c | .inr _ => none)

@[simp] theorem flat_nil : flat [] = [] := rfl
@[simp] theorem flat_vis (c ts) : flat (.inl c :: ts) = c :: flat ts := rfl
@[simp] theorem flat_esc (e ts) : flat (.inr e :: ts) = e ++ flat ts := rfl
@[simp] theorem visOf_nil : visOf [] = [] := rfl
@[simp] theorem visOf_vis (c ts) : visOf (.inl c :: ts) = c :: visOf ts := rfl
@[simp] theorem visOf_esc (e ts) : visOf (.inr e :: ts) = visOf ts := rfl
@[simp] theorem flat_append (a b) : flat (a ++ b) = flat a ++ flat b := by simp [flat]
@[simp] theorem visOf_append (a b) : visOf (a ++ b) = visOf a ++ visOf b := by simp [visOf]

def Oks (ts : List Tok) : Prop := ∀ t ∈ ts, t.ok

theorem Oks.nil : Oks [] := by intro t h; cases h
theorem Oks.tail {t ts} (h : Oks (t :: ts)) : Oks ts := fun x hx => h x (by simp [hx])
theorem Oks.hd {t ts} (h : Oks (t :: ts)) : t.ok := h t (by simp)
theorem Oks.cons {t ts} (h : t.ok) (h2 : Oks ts) : Oks (t :: ts) := by
  intro x hx; rcases List.mem_cons.1 hx with rfl | hx
  · exact h
  · exact h2 x hx
theorem Oks.append_left {a b} (h : Oks (a ++ b)) : Oks a := fun x hx => h x (by simp [hx])
theorem Oks.append_right {a b} (h : Oks (a ++ b)) : Oks b := fun x hx => h x (by simp [hx])

theorem Spec.Text.toks {s v : Str} (h : Text s v) : ∃ ts, Oks ts ∧ flat ts = s ∧ visOf ts = v := by
  induction h with
  | nil => exact ⟨[], Oks.nil, rfl, rfl⟩
  | vis c hc _ ih =>
    obtain ⟨ts, h1, h2, h3⟩ := ih
    exact ⟨.inl c :: ts, Oks.cons hc h1, by simp [h2], by simp [h3]⟩
  | esc e he _ ih =>
    obtain ⟨ts, h1, h2, h3⟩ := ih
    exact ⟨.inr e :: ts, Oks.cons he h1, by simp [h2], by simp [h3]⟩

theorem text_of_toks {ts : List Tok} (h : Oks ts) : Text (flat ts) (visOf ts) := by
  induction ts with
  | nil => exact Text.nil
  | cons t ts ih =>
    cases t with
    | inl c => exact Text.vis c h.hd (ih h.tail)
    | inr e => exact Text.esc e h.hd (ih h.tail)

theorem Spec.Text.append {s v t w : Str} (h1 : Text s v) (h2 : Text t w) : Text (s ++ t) (v ++ w) := by
  induction h1 with
  | nil => exact h2
  | vis c hc _ ih => exact Text.vis c hc ih
  | esc e he _ ih => rw [List.append_assoc]; exact Text.esc e he ih

theorem Spec.Text.plain {v : Str} (h : ∀ c ∈ v, c ≠ 0x1b) : Text v v := by
  induction v with
  | nil => exact Text.nil
  | cons c v ih => exact Text.vis c (h c (by simp)) (ih fun x hx => h x (by simp [hx]))

theorem text_nspaces (n : Nat) : Text (nspaces n) (nspaces n) :=
  Text.plain (by intro c hc; rw [nspaces, List.mem_replicate] at hc; have := hc.2; simp [chSpace] at this; omega)

/-! ## The loop of bxs_from_unicode over a token list -/

/-- is the escape sequence a reset? -/
def isReset (e : Str) : Bool := isCsiReset e

theorem isReset_iff {e : Str} (h : EscSeq e) : isReset e = true ↔ ResetSeq e := by
  have := isCsiReset_iff h []
  simpa [isReset] using this

theorem isCsiReset_append {e : Str} (h : EscSeq e) (s : Str) : isCsiReset (e ++ s) = isReset e := by
  rw [Bool.eq_iff_iff, isCsiReset_iff h, isReset_iff h]

/-- effect of one visible character on the state -/
def visStep (db : CharDb) (st : FuState) (c : Nat) : FuState :=
  { ascii := st.ascii ++ charAscii db c
    indent := if isBlank db c && st.indentActive then st.indent + charCols db c else st.indent
    streak := if isBlank db c then st.streak + 1 else 0
    cols := st.cols + charCols db c
    visChar := st.visChar ++ [st.idx]
    firstChar := st.firstChar ++ [st.firstCand.getD st.idx]
    firstCand := none
    vis := st.vis + 1
    invis := st.invis
    indentActive := st.indentActive && isBlank db c
    nonBlank := st.nonBlank || !isBlank db c
    idx := st.idx + 1 }

/-- effect of one escape sequence on the state -/
def escStep (st : FuState) (e : Str) : FuState :=
  { st with
    firstCand := if isReset e then none else some st.idx
    invis := st.invis + e.length
    idx := st.idx + e.length }

def tokStep (db : CharDb) (st : FuState) : Tok → FuState
  | .inl c => visStep db st c
  | .inr e => escStep st e

theorem allowed_esc (db : CharDb) : isAllowedAnywhere db 0x1b = true := by
  simp [isAllowedAnywhere]

theorem fuLoop_vis (db : CharDb) (fuel : Nat) (st : FuState) {c : Nat} (s : Str) (hc : c ≠ 0x1b)
    (ha : isAllowedAnywhere db c = true) :
    fuLoop db (fuel + 1) st (c :: s) = fuLoop db fuel (visStep db st c) s := by
  rw [fuLoop]
  simp only [ha, Bool.not_true, Bool.false_eq_true, if_false, advanceNext_vis hc]
  congr 1
  unfold fuStep fuBlank fuChar visStep
  have hc' : (c != chEsc) = true := by simp [hc]
  by_cases hb : isBlank db c = true
  · simp [hb, hc]
  · simp only [Bool.not_eq_true] at hb
    simp [hb, hc]

theorem fuLoop_esc (db : CharDb) (fuel : Nat) (st : FuState) {e : Str} (s : Str) (he : EscSeq e) :
    fuLoop db (fuel + 1) st (e ++ s) = fuLoop db fuel (escStep st e) s := by
  obtain ⟨r, rfl⟩ := he.head
  rw [List.cons_append, fuLoop]
  have h1 := advanceNext_esc he s
  rw [List.cons_append] at h1
  have h2 := isCsiReset_append he s
  rw [List.cons_append] at h2
  simp only [allowed_esc, Bool.not_true, Bool.false_eq_true, if_false, h1]
  congr 1
  unfold fuStep fuBlank fuChar escStep
  simp only [chEsc, if_true, h2, bne_self_eq_false, Bool.and_false, Bool.false_eq_true, if_false,
    List.length_cons]
  simp

theorem fuLoop_toks (db : CharDb) (ts : List Tok) (hok : Oks ts) (st : FuState) (fuel : Nat)
    (hf : (flat ts).length ≤ fuel) :
    fuLoop db fuel st (flat ts) =
      if (visOf ts).all (isAllowedAnywhere db) then some (ts.foldl (tokStep db) st) else none := by
  induction ts generalizing st fuel with
  | nil => cases fuel <;> simp [fuLoop]
  | cons t ts ih =>
    cases t with
    | inl c =>
      simp only [flat_vis, List.length_cons] at hf
      obtain ⟨fuel, rfl⟩ : ∃ k, fuel = k + 1 := ⟨fuel - 1, by omega⟩
      by_cases ha : isAllowedAnywhere db c = true
      · rw [flat_vis, fuLoop_vis db fuel st _ hok.hd ha, ih hok.tail _ _ (by omega)]
        simp [ha, tokStep]
      · simp only [Bool.not_eq_true] at ha
        rw [flat_vis, fuLoop]
        simp [ha]
    | inr e =>
      have hl := EscSeq.length_pos hok.hd
      simp only [flat_esc, List.length_append] at hf
      obtain ⟨fuel, rfl⟩ : ∃ k, fuel = k + 1 := ⟨fuel - 1, by omega⟩
      rw [flat_esc, fuLoop_esc db fuel st _ hok.hd, ih hok.tail _ _ (by omega)]
      simp [tokStep]

/-! ### Fields of the final state -/

/-- positions of the visible characters; `off`: index of the first token -/
def visPos : Nat → List Tok → List Nat
  | _, [] => []
  | off, .inl _ :: ts => off :: visPos (off + 1) ts
  | off, .inr e :: ts => visPos (off + e.length) ts

/-- positions of the visible characters including an escape sequence in front; `cand`: position of that sequence -/
def firstPos : Nat → Option Nat → List Tok → List Nat
  | _, _, [] => []
  | off, cand, .inl _ :: ts => cand.getD off :: firstPos (off + 1) none ts
  | off, _, .inr e :: ts => firstPos (off + e.length) (if isReset e then none else some off) ts

theorem fold_idx (db : CharDb) (ts : List Tok) (st : FuState) :
    (ts.foldl (tokStep db) st).idx = st.idx + (flat ts).length := by
  induction ts generalizing st with
  | nil => simp
  | cons t ts ih => cases t <;> simp [ih, tokStep, visStep, escStep] <;> omega

theorem fold_visChar (db : CharDb) (ts : List Tok) (st : FuState) :
    (ts.foldl (tokStep db) st).visChar = st.visChar ++ visPos st.idx ts := by
  induction ts generalizing st with
  | nil => simp [visPos]
  | cons t ts ih => cases t <;> simp [ih, tokStep, visStep, escStep, visPos]

theorem fold_firstChar (db : CharDb) (ts : List Tok) (st : FuState) :
    (ts.foldl (tokStep db) st).firstChar = st.firstChar ++ firstPos st.idx st.firstCand ts := by
  induction ts generalizing st with
  | nil => simp [firstPos]
  | cons t ts ih => cases t <;> simp [ih, tokStep, visStep, escStep, firstPos]

theorem fold_vis (db : CharDb) (ts : List Tok) (st : FuState) :
    (ts.foldl (tokStep db) st).vis = st.vis + (visOf ts).length := by
  induction ts generalizing st with
  | nil => simp
  | cons t ts ih => cases t <;> simp [ih, tokStep, visStep, escStep] <;> omega

theorem fold_invis (db : CharDb) (ts : List Tok) (st : FuState) :
    (ts.foldl (tokStep db) st).invis + (visOf ts).length = st.invis + (flat ts).length := by
  induction ts generalizing st with
  | nil => simp
  | cons t ts ih =>
    cases t with
    | inl c => have := ih (visStep db st c); simp [tokStep, visStep] at *; omega
    | inr e => have := ih (escStep st e); simp [tokStep, escStep] at *; omega

theorem fold_cols (db : CharDb) (ts : List Tok) (st : FuState) :
    (ts.foldl (tokStep db) st).cols = st.cols + columns db (visOf ts) := by
  induction ts generalizing st with
  | nil => simp [columns]
  | cons t ts ih => cases t <;> simp [ih, tokStep, visStep, escStep, columns, width_eq] <;> omega

theorem fold_ascii (db : CharDb) (ts : List Tok) (st : FuState) :
    (ts.foldl (tokStep db) st).ascii = st.ascii ++ (visOf ts).flatMap (charAscii db) := by
  induction ts generalizing st with
  | nil => simp
  | cons t ts ih => cases t <;> simp [ih, tokStep, visStep, escStep]

theorem fold_indent (db : CharDb) (ts : List Tok) (st : FuState) :
    (ts.foldl (tokStep db) st).indent =
      st.indent + if st.indentActive then columns db ((visOf ts).takeWhile (isBlank db)) else 0 := by
  induction ts generalizing st with
  | nil => simp [columns]
  | cons t ts ih =>
    cases t with
    | inl c =>
      simp only [List.foldl_cons, tokStep, ih]
      by_cases ha : st.indentActive = true <;> by_cases hb : isBlank db c = true <;>
        simp [visStep, ha, hb, columns, width_eq, List.takeWhile_cons] <;> omega
    | inr e => simp [ih, tokStep, escStep]

theorem fold_nonBlank (db : CharDb) (ts : List Tok) (st : FuState) :
    (ts.foldl (tokStep db) st).nonBlank = (st.nonBlank || (visOf ts).any (fun c => !isBlank db c)) := by
  induction ts generalizing st with
  | nil => simp
  | cons t ts ih => cases t <;> simp [ih, tokStep, visStep, escStep, Bool.or_assoc]

theorem fold_streak (db : CharDb) (ts : List Tok) (st : FuState) :
    (ts.foldl (tokStep db) st).streak =
      if (visOf ts).all (isBlank db) then st.streak + (visOf ts).length
      else ((visOf ts).reverse.takeWhile (isBlank db)).length := by
  induction ts generalizing st with
  | nil => simp
  | cons t ts ih =>
    cases t with
    | inr e => simp [ih, tokStep, escStep]
    | inl c =>
      simp only [List.foldl_cons, tokStep, ih, visOf_vis, List.all_cons, List.reverse_cons,
        List.length_cons]
      by_cases hb : isBlank db c = true
      · by_cases ht : (visOf ts).all (isBlank db) = true
        · simp [hb, ht, visStep]; omega
        · simp only [hb, ht, Bool.and_false, Bool.false_eq_true, if_false, Bool.true_and]
          rw [List.takeWhile_append]
          have : ((visOf ts).reverse.takeWhile (isBlank db)).length ≠ (visOf ts).reverse.length := by
            intro hl
            apply ht
            have := List.Sublist.eq_of_length (List.takeWhile_sublist (p := isBlank db) (l := (visOf ts).reverse)) hl
            rw [List.all_eq_true]
            intro x hx
            have hx' : x ∈ (visOf ts).reverse.takeWhile (isBlank db) := by rw [this]; simpa using hx
            have := List.all_takeWhile (p := isBlank db) (l := (visOf ts).reverse)
            exact List.all_eq_true.1 this x hx'
          rw [if_neg this]
      · simp only [Bool.not_eq_true] at hb
        by_cases ht : (visOf ts).all (isBlank db) = true
        · simp only [ht, if_true, hb, visStep, Bool.false_and, Bool.false_eq_true, if_false, Nat.zero_add]
          rw [List.takeWhile_append_of_pos]
          · simp [hb]
          · intro a ha
            exact List.all_eq_true.1 ht a (by simpa using ha)
        · simp only [hb, ht, Bool.false_and, Bool.false_eq_true, if_false]
          rw [List.takeWhile_append]
          split
          · simp [hb, *]
          · rfl

/-- the analysis result for a token list -/
def bxsOf (db : CharDb) (ts : List Tok) : Bxs :=
  { memory := flat ts
    ascii := (visOf ts).flatMap (charAscii db)
    indent := columns db ((visOf ts).takeWhile (isBlank db))
    cols := columns db (visOf ts)
    numChars := (flat ts).length
    vis := (visOf ts).length
    invis := (flat ts).length - (visOf ts).length
    trailing := if (visOf ts).all (isBlank db) then 0 else ((visOf ts).reverse.takeWhile (isBlank db)).length
    firstChar := firstPos 0 none ts ++ [(flat ts).length]
    visChar := visPos 0 ts ++ [(flat ts).length] }

theorem fromUnicode_toks (db : CharDb) (ts : List Tok) (hok : Oks ts) :
    fromUnicode db (flat ts) =
      if (visOf ts).all (isAllowedAnywhere db) then some (bxsOf db ts) else none := by
  unfold fromUnicode
  rw [fuLoop_toks db ts hok _ _ (Nat.le_refl _)]
  split
  · have hinv := fold_invis db ts FuState.init
    simp only [FuState.init] at hinv
    simp only [Option.map_some, Option.some.injEq, bxsOf, fold_idx, fold_visChar, fold_firstChar, fold_vis, fold_cols,
      fold_ascii, fold_indent, fold_nonBlank, fold_streak, FuState.init, Bxs.mk.injEq, List.nil_append, Nat.zero_add,
      if_true, and_true, true_and, Bool.false_or]
    refine ⟨by omega, ?_⟩
    by_cases h : (visOf ts).all (isBlank db) = true
    · have : (visOf ts).any (fun c => !isBlank db c) = false := by
        rw [List.any_eq_false]; intro x hx; simp [List.all_eq_true.1 h x hx]
      simp [this, h]
    · have : (visOf ts).any (fun c => !isBlank db c) = true := by
        simpa [List.all_eq_true] using h
      simp only [this, h, if_true, if_false]
      simp
  · simp

end Boxes
