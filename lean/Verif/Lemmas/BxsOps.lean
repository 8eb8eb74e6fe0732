import Verif.Lemmas.TextPos
import Verif.Spec.Db

/-!
Helper lemmas: bxstring operations on analysed token lists.
-/
namespace Boxes
open Spec
set_option linter.unusedSimpArgs false

theorem fromUnicode_nil (db : CharDb) : fromUnicode db [] = some emptyBxs := by
  simp [fromUnicode, fuLoop, emptyBxs, FuState.init]

theorem Oks.append {a b : List Tok} (ha : Oks a) (hb : Oks b) : Oks (a ++ b) := by
  intro t ht; rcases List.mem_append.1 ht with h | h
  · exact ha t h
  · exact hb t h

theorem all_allowed_sub {db : CharDb} {v w : Str} (h : v.all (isAllowedAnywhere db) = true) (hs : ∀ x ∈ w, x ∈ v) :
    w.all (isAllowedAnywhere db) = true := by
  rw [List.all_eq_true] at *
  exact fun x hx => h x (hs x hx)

theorem fromUnicode_ok (db : CharDb) (ts : List Tok) (hok : Oks ts)
    (h : (visOf ts).all (isAllowedAnywhere db) = true) : fromUnicode db (flat ts) = some (bxsOf db ts) := by
  rw [fromUnicode_toks db ts hok, if_pos h]

theorem isBlank_fun (db : CharDb) : isBlank db = fun c => decide (Blank db c) := funext (isBlank_iff db)

/-- number of trailing blanks -/
theorem dropTrailing_eq_take (db : CharDb) (v : Str) :
    dropTrailing db v = v.take (v.length - (v.reverse.takeWhile (isBlank db)).length) := by
  unfold dropTrailing
  rw [← isBlank_fun]
  have h : v.reverse.dropWhile (isBlank db) = v.reverse.drop (v.reverse.takeWhile (isBlank db)).length := by
    have h2 := List.takeWhile_append_dropWhile (p := isBlank db) (l := v.reverse)
    have h3 : (v.reverse.takeWhile (isBlank db) ++ v.reverse.dropWhile (isBlank db)).drop
      (v.reverse.takeWhile (isBlank db)).length = v.reverse.dropWhile (isBlank db) := List.drop_left
    rw [h2] at h3
    exact h3.symm
  rw [h, List.drop_reverse, List.reverse_reverse]

theorem takeWhile_length_lt {α} {p : α → Bool} {l : List α} (h : ¬ l.all p = true) :
    (l.takeWhile p).length < l.length := by
  have hle : (l.takeWhile p).length ≤ l.length := (List.takeWhile_sublist (p := p)).length_le
  rcases Nat.lt_or_ge (l.takeWhile p).length l.length with h1 | h1
  · exact h1
  · exfalso; apply h
    have := List.Sublist.eq_of_length (List.takeWhile_sublist (p := p) (l := l)) (by omega)
    have h2 := List.all_takeWhile (p := p) (l := l)
    rw [this] at h2; exact h2

theorem columns_takeWhile_narrow (db : CharDb) {v : Str} (h : NarrowBlanks db v) :
    columns db (v.takeWhile (isBlank db)) = (v.takeWhile (isBlank db)).length := by
  have : ∀ w : Str, (∀ c ∈ w, Spec.width db c = 1) → columns db w = w.length := by
    intro w
    induction w with
    | nil => intro _; rfl
    | cons c w ih =>
      intro hw
      have := ih (fun x hx => hw x (by simp [hx]))
      have h1 := hw c (by simp)
      unfold columns at *
      simp only [List.map_cons, List.sum_cons, List.length_cons, h1, this]; omega
  apply this
  intro c hc
  have hm : c ∈ v := (List.takeWhile_sublist (p := isBlank db)).subset hc
  have hb := List.all_eq_true.1 (List.all_takeWhile (p := isBlank db) (l := v)) c hc
  exact h c hm (by rw [isBlank_iff] at hb; simpa using hb)

theorem columns_append (db : CharDb) (v w : Str) : columns db (v ++ w) = columns db v + columns db w := by
  simp [columns]

theorem width_space (db : CharDb) : Spec.width db 0x20 = 1 := by simp [Spec.width]

theorem columns_nspaces (db : CharDb) (n : Nat) : columns db (nspaces n) = n := by
  unfold columns nspaces
  simp [List.map_replicate, chSpace, width_space]

/-! ### cutting -/

theorem visOf_split {t1 t2 : List Tok} {i : Nat} (h : (visOf t1).length = i) :
    visOf t1 = (visOf (t1 ++ t2)).take i ∧ visOf t2 = (visOf (t1 ++ t2)).drop i := by
  subst h; simp

/-- the memory between two cut positions -/
theorem cut_between (db : CharDb) (ts : List Tok) (hok : Oks ts) {i j : Nat} (hij : i ≤ j) (hj : j ≤ (visOf ts).length) :
    ∃ p q t, (bxsOf db ts).firstChar[i]? = some p ∧ (bxsOf db ts).firstChar[j]? = some q ∧ p ≤ q ∧ Oks t ∧
      ((flat ts).take q).drop p = flat t ∧ visOf t = ((visOf ts).take j).drop i := by
  obtain ⟨a1, a2, ha, hal, hap⟩ := firstChar_cut db ts i (by omega)
  obtain ⟨b1, b2, hb, hbl, hbp⟩ := firstChar_cut db ts j hj
  have hpre : a1 = b1.take a1.length ∨ b1 = a1.take b1.length := by
    rcases Nat.le_total a1.length b1.length with h | h
    · left
      have : (a1 ++ a2).take a1.length = (b1 ++ b2).take a1.length := by rw [← ha, ← hb]
      rw [List.take_append_of_le_length h] at this
      simpa using this
    · right
      have : (b1 ++ b2).take b1.length = (a1 ++ a2).take b1.length := by rw [← ha, ← hb]
      rw [List.take_append_of_le_length h] at this
      simpa using this
  rcases hpre with h | h
  · -- a1 is a prefix of b1
    obtain ⟨m, hm⟩ : ∃ m, b1 = a1 ++ m := ⟨b1.drop a1.length, by
      conv => lhs; rw [← List.take_append_drop a1.length b1]
      rw [← h]⟩
    refine ⟨_, _, m, hap, hbp, by rw [hm]; simp, ?_, ?_, ?_⟩
    · intro t ht; apply hok; rw [hb, hm]; simp [ht]
    · have : flat ts = flat b1 ++ flat b2 := by rw [hb]; simp
      rw [this, List.take_left, hm]; simp
    · have : visOf ts = visOf b1 ++ visOf b2 := by rw [hb]; simp
      rw [this, ← hbl, List.take_left, hm, ← hal]; simp
  · -- b1 is a prefix of a1, hence i = j and both cuts coincide by the map
    have hle : j ≤ i := by
      rw [← hbl, ← hal, h]
      obtain ⟨m, hm⟩ : ∃ m, a1 = b1 ++ m := ⟨a1.drop b1.length, by
        conv => lhs; rw [← List.take_append_drop b1.length a1]
        rw [← h]⟩
      rw [← h, hm]; simp
    have hij' : i = j := by omega
    subst hij'
    rw [hap] at hbp
    refine ⟨_, _, [], hap, hap, Nat.le_refl _, Oks.nil, ?_, by simp⟩
    simp [List.drop_take]

theorem visChar_eq_some (db : CharDb) (ts : List Tok) (i : Nat) (hi : i < (visOf ts).length) :
    ∃ p, (bxsOf db ts).visChar[i]? = some p ∧ (bxsOf db ts).memory[p]? = some (visOf ts)[i] ∧ p < (flat ts).length := by
  obtain ⟨t1, t2, h1, h2, h3⟩ := visChar_at db ts i hi
  have hm : flat ts = flat t1 ++ (visOf ts)[i] :: flat t2 := by
    conv => lhs; rw [h1]
    simp
  refine ⟨_, h3, ?_, by rw [hm]; simp⟩
  show (flat ts)[(flat t1).length]? = _
  rw [hm]; simp

/-! ### shifting maps -/

theorem visPos_shift (k off : Nat) (ts : List Tok) : visPos (off + k) ts = (visPos off ts).map (· + k) := by
  induction ts generalizing off with
  | nil => rfl
  | cons t ts ih =>
    cases t with
    | inl c => simp only [visPos, List.map_cons]; rw [← ih]; congr 2; omega
    | inr e => simp only [visPos]; rw [← ih]; congr 1; omega

theorem firstPos_shift (k off : Nat) (cand : Option Nat) (ts : List Tok) :
    firstPos (off + k) (cand.map (· + k)) ts = (firstPos off cand ts).map (· + k) := by
  induction ts generalizing off cand with
  | nil => rfl
  | cons t ts ih =>
    cases t with
    | inl c =>
      simp only [firstPos, List.map_cons]
      have := ih (off + 1) none
      simp only [Option.map_none] at this
      rw [← this]
      congr 1
      · cases cand <;> simp
      · congr 1; omega
    | inr e =>
      simp only [firstPos]
      have := ih (off + e.length) (if isReset e then none else some off)
      rw [← this]
      have hc : Option.map (· + k) (if isReset e = true then none else some off) =
          if isReset e = true then none else some (off + k) := by split <;> simp
      rw [hc]
      congr 1; omega

def spToks (n : Nat) : List Tok := List.replicate n (.inl 0x20)

theorem flat_spToks (n : Nat) : flat (spToks n) = nspaces n := by
  induction n with
  | zero => rfl
  | succ n ih => simp [spToks, List.replicate_succ, nspaces] at *; simpa [chSpace] using ih
theorem visOf_spToks (n : Nat) : visOf (spToks n) = nspaces n := by
  induction n with
  | zero => rfl
  | succ n ih => simp [spToks, List.replicate_succ, nspaces] at *; simpa [chSpace] using ih
theorem oks_spToks (n : Nat) : Oks (spToks n) := by
  intro t ht; rw [spToks, List.mem_replicate] at ht; rw [ht.2]; show (0x20 : Nat) ≠ 0x1b; omega

theorem visPos_append (off : Nat) (a b : List Tok) :
    visPos off (a ++ b) = visPos off a ++ visPos (off + (flat a).length) b := by
  induction a generalizing off with
  | nil => simp [visPos]
  | cons t a ih => cases t <;> simp [visPos, ih] <;> congr 1 <;> omega

theorem visPos_spToks (off n : Nat) : visPos off (spToks n) = List.range' off n := by
  induction n generalizing off with
  | zero => rfl
  | succ n ih =>
    have : spToks (n + 1) = .inl 0x20 :: spToks n := rfl
    rw [this, visPos, ih, List.range'_succ]

/-- candidate after a token list -/
def candAfter : Nat → Option Nat → List Tok → Option Nat
  | _, cand, [] => cand
  | off, _, .inl _ :: ts => candAfter (off + 1) none ts
  | off, _, .inr e :: ts => candAfter (off + e.length) (if isReset e then none else some off) ts

theorem firstPos_append (off : Nat) (cand : Option Nat) (a b : List Tok) :
    firstPos off cand (a ++ b) = firstPos off cand a ++ firstPos (off + (flat a).length) (candAfter off cand a) b := by
  induction a generalizing off cand with
  | nil => simp [firstPos, candAfter]
  | cons t a ih => cases t <;> simp [firstPos, candAfter, ih] <;> congr 1 <;> omega

theorem firstPos_spToks (off n : Nat) : firstPos off none (spToks n) = List.range' off n := by
  induction n generalizing off with
  | zero => rfl
  | succ n ih =>
    have : spToks (n + 1) = .inl 0x20 :: spToks n := rfl
    rw [this, firstPos, ih, List.range'_succ]; rfl

theorem candAfter_spToks (off n : Nat) : candAfter off none (spToks n) = none := by
  induction n generalizing off with
  | zero => rfl
  | succ n ih =>
    have : spToks (n + 1) = .inl 0x20 :: spToks n := rfl
    rw [this, candAfter, ih]

theorem candAfter_none_of (off : Nat) (cand : Option Nat) (ts : List Tok) (h : ¬ endsNonReset ts)
    (h0 : ts = [] → cand = none) : candAfter off cand ts = none := by
  induction ts generalizing off cand with
  | nil => exact h0 rfl
  | cons t ts ih =>
    have hts : ¬ endsNonReset ts := by
      rintro ⟨u, e, hu, he⟩
      exact h ⟨t :: u, e, by simp [hu], he⟩
    cases t with
    | inl c => exact ih _ _ hts (fun _ => rfl)
    | inr e =>
      refine ih _ _ hts ?_
      intro hnil
      subst hnil
      by_cases hr : isReset e = true
      · simp [hr]
      · exfalso; exact h ⟨[], e, by simp, by simpa using hr⟩

theorem isBlank_space {db : CharDb} (hs : Sane db) : isBlank db 0x20 = true := by
  simp [isBlank, hs.space_blank]

theorem allowed_space {db : CharDb} (hs : Sane db) : isAllowedAnywhere db 0x20 = true := by
  simp [isAllowedAnywhere, hs.space_ok]

theorem nspaces_all {p : Nat → Bool} (h : p 0x20 = true) (n : Nat) : (nspaces n).all p = true := by
  rw [List.all_eq_true]; intro x hx; rw [nspaces, List.mem_replicate] at hx; rw [hx.2]; exact h

theorem charAscii_space (db : CharDb) : charAscii db 0x20 = [0x20] := by
  simp [charAscii, isAsciiPrintable]

theorem flatMap_nspaces (db : CharDb) (n : Nat) : (nspaces n).flatMap (charAscii db) = List.replicate n 0x20 := by
  induction n with
  | zero => rfl
  | succ n ih =>
    have : nspaces (n + 1) = 0x20 :: nspaces n := rfl
    rw [this, List.flatMap_cons, ih, charAscii_space]; rfl

theorem bxs_ascii_length (db : CharDb) (v : Str) : (v.flatMap (charAscii db)).length = columns db v := by
  induction v with
  | nil => rfl
  | cons c v ih =>
    rw [List.flatMap_cons, List.length_append, ih]
    have : (charAscii db c).length = Spec.width db c := by
      rw [← width_eq]; unfold charAscii charCols
      split
      · rfl
      · split
        · rfl
        · simp
    rw [this]; rfl

theorem ascii_eq (db : CharDb) (v : Str) : v.flatMap (charAscii db) = asciiForm db v := by
  unfold asciiForm
  congr 1
  funext c
  unfold charAscii isAsciiPrintable Spec.width Blank
  by_cases h : 0x20 ≤ c ∧ c < 0x7f
  · simp [h.1, h.2]
  · by_cases ht : c = 0x09
    · subst ht; simp [chTab, chSpace]
    · have h' : ¬ (decide (0x20 ≤ c) && decide (c < 0x7f)) = true := by simpa using h
      have h2 : ¬ ((0x20 ≤ c ∧ c < 0x7f) ∨ c = 0x09) := by omega
      rw [if_neg h', if_neg ht, if_neg h, if_neg h2]
      have : max 0 (db.width c) = db.width c ∨ max 0 (db.width c) = 0 := by omega
      have hw : (max 0 (db.width c)).toNat = db.cols c := by unfold CharDb.cols; omega
      rw [hw]
      simp [ht, chSpace]

theorem asciiForm_length (db : CharDb) (v : Str) : (asciiForm db v).length = columns db v := by
  rw [← ascii_eq]; exact bxs_ascii_length db v

theorem prepend_toks {db : CharDb} (hs : Sane db) (ts : List Tok) (n : Nat) :
    (bxsOf db ts).prependSpaces n = bxsOf db (spToks n ++ ts) := by
  by_cases hn : n = 0
  · subst hn; simp [Bxs.prependSpaces, spToks]
  · unfold Bxs.prependSpaces
    rw [if_neg hn]
    have hb := nspaces_all (isBlank_space hs) n
    simp only [bxsOf, flat_append, visOf_append, flat_spToks, visOf_spToks, List.length_append]
    have hl : (nspaces n).length = n := by simp [nspaces]
    have htw : (nspaces n ++ visOf ts).takeWhile (isBlank db) = nspaces n ++ (visOf ts).takeWhile (isBlank db) := by
      rw [List.takeWhile_append_of_pos]; exact List.all_eq_true.1 hb
    rw [htw]
    simp only [columns_append, columns_nspaces, hl, List.flatMap_append, flatMap_nspaces, List.take_length,
      visPos_append, visPos_spToks, flat_spToks, firstPos_append, firstPos_spToks, candAfter_spToks, List.all_append, hb,
      Bool.true_and, List.reverse_append, Nat.zero_add]
    have hv := visPos_shift n 0 ts
    have hf := firstPos_shift n 0 none ts
    simp only [Nat.zero_add, Option.map_none] at hv hf
    rw [hv, hf]
    simp only [Bxs.mk.injEq, true_and]
    refine ⟨by omega, by omega, by omega, by omega, by omega, ?_, ?_, ?_⟩
    · split
      · rfl
      · rename_i hnb
        rw [List.takeWhile_append, if_neg]
        have := takeWhile_length_lt (p := isBlank db) (l := (visOf ts).reverse) (by simpa using hnb)
        omega
    · rw [List.take_of_length_le (by simp [firstPos_length])]
      simp [List.range_eq_range', Nat.add_comm]
    · rw [List.take_of_length_le (by simp [visPos_length])]
      simp [List.range_eq_range', Nat.add_comm]

theorem map_add_range (k n : Nat) : (List.range n).map (k + ·) = List.range' k n := by
  rw [List.range_eq_range', List.map_add_range']; simp

/-- `bxs_append_spaces` agrees with re-analysis except possibly in the first-character map -/
theorem append_toks {db : CharDb} (hs : Sane db) (ts : List Tok) (n : Nat)
    (hnb : ¬ (visOf ts).all (isBlank db) = true) :
    { (bxsOf db ts).appendSpaces n with firstChar := [] } = { bxsOf db (ts ++ spToks n) with firstChar := [] } ∧
    (¬ endsNonReset ts → (bxsOf db ts).appendSpaces n = bxsOf db (ts ++ spToks n)) := by
  by_cases hn : n = 0
  · subst hn; simp [Bxs.appendSpaces, spToks]
  · unfold Bxs.appendSpaces
    rw [if_neg hn]
    have hb := nspaces_all (isBlank_space hs) n
    have hl : (nspaces n).length = n := by simp [nspaces]
    have htw : (visOf ts ++ nspaces n).takeWhile (isBlank db) = (visOf ts).takeWhile (isBlank db) := by
      rw [List.takeWhile_append, if_neg]
      have := takeWhile_length_lt hnb; omega
    have htr : ((visOf ts ++ nspaces n).reverse.takeWhile (isBlank db)).length =
        ((visOf ts).reverse.takeWhile (isBlank db)).length + n := by
      rw [List.reverse_append, List.takeWhile_append_of_pos]
      · simp [hl]; omega
      · intro x hx; exact List.all_eq_true.1 hb x (by simpa using hx)
    simp only [bxsOf, flat_append, visOf_append, flat_spToks, visOf_spToks, List.length_append, htw, htr]
    have hna : ¬ (visOf ts ++ nspaces n).all (isBlank db) = true := by
      rw [List.all_append]; simp only [Bool.and_eq_true, not_and]; intro h; exact absurd h hnb
    have ha : ((visOf ts).flatMap (charAscii db)).take (columns db (visOf ts)) = (visOf ts).flatMap (charAscii db) := by
      rw [List.take_of_length_le]; rw [bxs_ascii_length]; exact Nat.le_refl _
    rw [if_neg hnb, if_neg hna, ha]
    have hvt : (visPos 0 ts ++ [(flat ts).length]).take (visOf ts).length = visPos 0 ts := by
      rw [← visPos_length 0 ts]; simp
    have hft : (firstPos 0 none ts ++ [(flat ts).length]).take (visOf ts).length = firstPos 0 none ts := by
      rw [← firstPos_length 0 none ts]; simp
    have hrg : List.range' (flat ts).length (n + 1) = List.range' (flat ts).length n ++ [(flat ts).length + n] := by
      rw [List.range'_concat]; simp
    simp only [columns_append, columns_nspaces, hl, List.flatMap_append, flatMap_nspaces, List.take_length,
      visPos_append, visPos_spToks, firstPos_append, Nat.zero_add, hvt, hft, map_add_range, hrg, Bxs.mk.injEq, true_and,
      List.append_assoc, and_true]
    have hle : (visOf ts).length ≤ (flat ts).length := by
      have := fold_invis db ts FuState.init; simp [FuState.init] at this; omega
    refine ⟨by omega, ?_⟩
    intro hend
    have hc := candAfter_none_of 0 none ts hend (fun _ => rfl)
    rw [hc, firstPos_spToks]
    exact ⟨by omega, by simp⟩

theorem vis_le_len (db : CharDb) (ts : List Tok) : (visOf ts).length ≤ (flat ts).length := by
  have := fold_invis db ts FuState.init; simp [FuState.init] at this; omega

theorem flat_eq_vis_of_len {ts : List Tok} (hok : Oks ts) (h : (flat ts).length = (visOf ts).length) :
    flat ts = visOf ts := by
  induction ts with
  | nil => rfl
  | cons t ts ih =>
    cases t with
    | inl c => simp at h ⊢; exact ih hok.tail h
    | inr e =>
      exfalso
      have := vis_le_len sampleDb ts
      have h2 := EscSeq.length_pos hok.hd
      simp at h; omega

theorem mapM_range_some {α} (l : List α) (f : Nat → Option α) (h : ∀ i (hi : i < l.length), f i = some l[i]) :
    (List.range l.length).mapM f = some l := by
  induction l generalizing f with
  | nil => simp
  | cons a l ih =>
    rw [List.length_cons, List.range_succ_eq_map, List.mapM_cons, h 0 (by simp)]
    have := ih (fun i => f (i + 1)) (fun i hi => by have := h (i + 1) (by simpa using hi); simpa using this)
    rw [List.mapM_map]
    simp only [Function.comp_def, List.getElem_cons_zero]
    have hh : (List.range l.length).mapM (fun i => f i.succ) = some l := this
    simp [hh]

theorem filterVisible_toks (db : CharDb) (ts : List Tok) (hok : Oks ts) :
    (bxsOf db ts).filterVisible = some (visOf ts) := by
  unfold Bxs.filterVisible
  split
  · rename_i h
    have h1 := vis_le_len db ts
    have h2 : (flat ts).length - (visOf ts).length = 0 := h
    rw [show (bxsOf db ts).memory = flat ts from rfl, flat_eq_vis_of_len hok (by omega)]
  · show List.mapM _ (List.range (visOf ts).length) = _
    apply mapM_range_some
    intro i hi
    have := memory_at_visChar db ts i hi
    simpa [Option.bind] using this

theorem isBlankStr_toks (db : CharDb) (ts : List Tok) :
    (bxsOf db ts).isBlankStr db = (visOf ts).all (fun c => c == chTab || c == chCr || db.ucBlank c) := by
  unfold Bxs.isBlankStr
  split
  · rename_i h
    have : (flat ts).length = 0 := by simpa [Bxs.isEmpty, bxsOf] using h
    have h1 := vis_le_len db ts
    have : visOf ts = [] := List.eq_nil_of_length_eq_zero (by omega)
    simp [this]
  · rw [Bool.eq_iff_iff, List.all_eq_true, List.all_eq_true]
    show (∀ x ∈ List.range (visOf ts).length, _) ↔ _
    constructor
    · intro h c hc
      obtain ⟨i, hi, rfl⟩ := List.getElem_of_mem hc
      have h2 := h i (by simpa using hi)
      have hm := memory_at_visChar db ts i hi
      rw [hm] at h2
      exact h2
    · intro h i hi
      have hi' : i < (visOf ts).length := by simpa using hi
      have hm := memory_at_visChar db ts i hi'
      rw [hm]
      exact h _ (List.getElem_mem hi')

end Boxes
