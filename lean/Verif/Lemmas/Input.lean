import Verif.Model.Input
import Verif.Lemmas.BxsOps2
import Verif.Lemmas.Tools2

/-!
# Lemmas about reading the input
-/
namespace Boxes
open Spec
set_option linter.unusedSimpArgs false

/-! ## `btrim32` -/

theorem btrim32Loop_vis (db : CharDb) (fuel pos last : Nat) {c : Nat} (hc : c ≠ 0x1b) (s : Str) :
    btrim32Loop db (fuel + 1) pos (c :: s) last =
      btrim32Loop db fuel (pos + 1) s (if db.white c = false then pos + 1 else last) := by
  simp only [btrim32Loop, advanceNext_vis hc, List.length_cons]
  congr 1
  · omega
  · by_cases hw : db.white c = false
    · simp [hw, hc]
    · simp [hw]

theorem btrim32Loop_esc (db : CharDb) (fuel pos last : Nat) {e : Str} (he : EscSeq e) (s : Str) :
    btrim32Loop db (fuel + 1) pos (e ++ s) last = btrim32Loop db fuel (pos + e.length) s last := by
  obtain ⟨r, hr⟩ := he.head
  have h := advanceNext_esc he s
  have hl : (e ++ s).length = e.length + s.length := List.length_append
  rw [hr] at h hl ⊢
  rw [List.cons_append] at h hl ⊢
  simp only [btrim32Loop, h, hl]
  congr 1
  omega

theorem btrim32Loop_white (db : CharDb) : ∀ (ts : List Tok), Oks ts → (∀ c ∈ visOf ts, db.white c = true) →
    ∀ (fuel pos last : Nat), (flat ts).length ≤ fuel → btrim32Loop db fuel pos (flat ts) last = last
  | [], _, _, fuel, pos, last, _ => by cases fuel <;> simp [btrim32Loop]
  | .inl c :: ts, hok, hw, fuel, pos, last, hf => by
    cases fuel with
    | zero => simp at hf
    | succ fuel =>
      rw [flat_vis, btrim32Loop_vis db fuel pos last hok.hd]
      have hc : db.white c = true := hw c (by simp)
      rw [if_neg (by simp [hc])]
      exact btrim32Loop_white db ts hok.tail (fun d hd => hw d (by simp [hd])) fuel _ _ (by simp at hf; omega)
  | .inr e :: ts, hok, hw, fuel, pos, last, hf => by
    have he : EscSeq e := hok.hd
    have hl := he.length_pos
    cases fuel with
    | zero => simp only [flat_esc, List.length_append] at hf; omega
    | succ fuel =>
      rw [flat_esc, btrim32Loop_esc db fuel pos last he]
      exact btrim32Loop_white db ts hok.tail (fun d hd => hw d (by simpa using hd)) fuel _ _
        (by simp only [flat_esc, List.length_append] at hf; omega)

theorem btrim32Loop_last (db : CharDb) : ∀ (t1 : List Tok) (c : Nat) (t2 : List Tok), Oks (t1 ++ .inl c :: t2) →
    db.white c = false → (∀ d ∈ visOf t2, db.white d = true) →
    ∀ (fuel pos last : Nat), (flat (t1 ++ .inl c :: t2)).length ≤ fuel →
      btrim32Loop db fuel pos (flat (t1 ++ .inl c :: t2)) last = pos + (flat t1).length + 1
  | [], c, t2, hok, hc, hw, fuel, pos, last, hf => by
    cases fuel with
    | zero => simp at hf
    | succ fuel =>
      have hok' : Oks (.inl c :: t2) := hok
      rw [List.nil_append, flat_vis, btrim32Loop_vis db fuel pos last hok'.hd, if_pos hc,
        btrim32Loop_white db t2 hok'.tail hw fuel _ _ (by simp at hf; omega)]
      simp
  | .inl b :: t1, c, t2, hok, hc, hw, fuel, pos, last, hf => by
    cases fuel with
    | zero => simp at hf
    | succ fuel =>
      have hok' : Oks (.inl b :: (t1 ++ .inl c :: t2)) := hok
      rw [List.cons_append, flat_vis, btrim32Loop_vis db fuel pos last hok'.hd,
        btrim32Loop_last db t1 c t2 hok'.tail hc hw fuel _ _
          (by simp only [List.cons_append, flat_vis, List.length_cons] at hf; omega)]
      simp; omega
  | .inr e :: t1, c, t2, hok, hc, hw, fuel, pos, last, hf => by
    have hok' : Oks (.inr e :: (t1 ++ .inl c :: t2)) := hok
    have he : EscSeq e := hok'.hd
    have hl := he.length_pos
    cases fuel with
    | zero => simp only [List.cons_append, flat_esc, List.length_append] at hf; omega
    | succ fuel =>
      rw [List.cons_append, flat_esc, btrim32Loop_esc db fuel pos last he,
        btrim32Loop_last db t1 c t2 hok'.tail hc hw fuel _ _
          (by simp only [List.cons_append, flat_esc, List.length_append] at hf ⊢; omega)]
      simp; omega

theorem btrim32_all_white (db : CharDb) {s v : Str} (h : Text s v) (hw : ∀ c ∈ v, db.white c = true) :
    btrim32 db s = [] := by
  obtain ⟨ts, hok, rfl, rfl⟩ := h.toks
  simp only [btrim32]
  rw [btrim32Loop_white db ts hok hw _ _ _ (Nat.le_refl _)]
  simp

/-- the escape sequence at the beginning of a text, if any -/
def leadEsc : Str → Str
  | [] => []
  | d :: r => if d = 0x1b then (d :: r).take (advanceNext (d :: r)).2 else []

theorem btrim32_text (db : CharDb) {p x q y : Str} {c : Nat} (hp : Text p x) (hc : c ≠ 0x1b) (hq : Text q y)
    (hcw : db.white c = false) (hw : ∀ d ∈ y, db.white d = true) :
    btrim32 db (p ++ c :: q) = p ++ c :: leadEsc q := by
  obtain ⟨t1, hok1, rfl, rfl⟩ := hp.toks
  obtain ⟨t2, hok2, rfl, rfl⟩ := hq.toks
  have hok : Oks (t1 ++ .inl c :: t2) := by
    intro t ht
    rcases List.mem_append.1 ht with ht | ht
    · exact hok1 t ht
    · rcases List.mem_cons.1 ht with rfl | ht
      · exact hc
      · exact hok2 t ht
  have hl := btrim32Loop_last db t1 c t2 hok hcw hw _ 0 0 (Nat.le_refl _)
  have hflat : flat (t1 ++ .inl c :: t2) = flat t1 ++ c :: flat t2 := by simp
  rw [hflat] at hl
  simp only [btrim32]
  rw [hl]
  have hd : (flat t1 ++ c :: flat t2).drop (0 + (flat t1).length + 1) = flat t2 := by
    have : flat t1 ++ c :: flat t2 = (flat t1 ++ [c]) ++ flat t2 := by simp
    rw [this]; apply List.drop_left'; simp
  have htk : ∀ n, (flat t1 ++ c :: flat t2).take (0 + (flat t1).length + 1 + n) = flat t1 ++ c :: (flat t2).take n := by
    intro n
    have h1 : 0 + (flat t1).length + 1 + n = (flat t1).length + (n + 1) := by omega
    rw [h1, List.take_append, List.take_of_length_le (by omega)]
    congr 1
    have h2 : (flat t1).length + (n + 1) - (flat t1).length = n + 1 := by omega
    rw [h2, List.take_succ_cons]
  rw [if_pos (by omega), hd]
  have h0 := htk 0
  simp only [Nat.add_zero, List.take_zero] at h0
  cases hq2 : flat t2 with
  | nil => simp only [hq2] at h0; simp only [leadEsc]; exact h0
  | cons d r =>
    simp only [hq2] at h0 htk
    simp only [leadEsc]
    split
    · exact htk _
    · exact h0

/-! ## `fgets` -/

theorem fgets_append : ∀ (s : Str) (n : Nat), (fgets n s).1 ++ (fgets n s).2 = s
  | [], n => by simp [fgets]
  | c :: r, n => by
    simp only [fgets]
    split
    · simp
    · split
      · simp
      · simp [fgets_append r (n - 1)]

theorem fgets_length : ∀ (s : Str) (n : Nat), (fgets n s).1.length ≤ n
  | [], n => by simp [fgets]
  | c :: r, n => by
    simp only [fgets]
    split
    · simp
    · split
      · simp; omega
      · have := fgets_length r (n - 1)
        simp; omega

theorem fgets_pos {s : Str} {n : Nat} (hs : s ≠ []) (hn : 0 < n) : (fgets n s).1 ≠ [] := by
  cases s with
  | nil => exact absurd rfl hs
  | cons c r =>
    simp only [fgets]
    rw [if_neg (by omega)]
    split <;> simp

/-- the piece has a newline at most at its end; it is complete, or full, or all there is -/
theorem fgets_shape : ∀ (s : Str) (n : Nat), 0x0a ∉ (fgets n s).1.dropLast ∧
    ((fgets n s).1.getLast? = some 0x0a ∨ (fgets n s).1.length = n ∨ (fgets n s).2 = [])
  | [], n => by simp [fgets]
  | c :: r, n => by
    simp only [fgets]
    split
    · rename_i h; simp [h]
    · split
      · rename_i h; simp [h]
      · rename_i hn hc
        obtain ⟨h1, h2⟩ := fgets_shape r (n - 1)
        generalize fgets (n - 1) r = q at *
        obtain ⟨a, b⟩ := q
        simp only at *
        constructor
        · cases a with
          | nil => simp
          | cons x xs =>
            rw [List.dropLast_cons_of_ne_nil (by simp)]
            intro hm
            rcases List.mem_cons.1 hm with hm | hm
            · exact hc hm.symm
            · exact h1 hm
        · rcases h2 with h2 | h2 | h2
          · left
            cases a with
            | nil => simp at h2
            | cons x xs => rw [List.getLast?_cons_cons]; exact h2
          · right; left; simp; omega
          · right; right; exact h2

theorem fgetsAll_spec (limit : Nat) (hl : 0 < limit) : ∀ (fuel : Nat) (s : Str), s.length ≤ fuel →
    (fgetsAll limit fuel s).flatten = s ∧
    (∀ p ∈ fgetsAll limit fuel s, p ≠ [] ∧ p.length ≤ limit ∧ 0x0a ∉ p.dropLast) ∧
    (∀ a p b, fgetsAll limit fuel s = a ++ p :: b → b ≠ [] → p.getLast? = some 0x0a ∨ p.length = limit)
  | 0, s, h => by
    have : s = [] := List.eq_nil_of_length_eq_zero (by omega)
    subst this; simp [fgetsAll]
  | fuel + 1, [], h => by simp [fgetsAll]
  | fuel + 1, c :: r, h => by
    have h1 := fgets_append (c :: r) limit
    have h2 := fgets_pos (s := c :: r) (n := limit) (by simp) hl
    have h3 := fgets_length (c :: r) limit
    have h4 := fgets_shape (c :: r) limit
    have h5 : 0 < (fgets limit (c :: r)).1.length := List.length_pos_iff.2 h2
    have h6 : (fgets limit (c :: r)).1.length + (fgets limit (c :: r)).2.length = (c :: r).length := by
      rw [← List.length_append, h1]
    obtain ⟨i1, i2, i3⟩ := fgetsAll_spec limit hl fuel (fgets limit (c :: r)).2 (by omega)
    simp only [fgetsAll]
    refine ⟨?_, ?_, ?_⟩
    · rw [List.flatten_cons, i1, h1]
    · intro p hp
      rcases List.mem_cons.1 hp with rfl | hp
      · exact ⟨h2, h3, h4.1⟩
      · exact i2 p hp
    · intro a p b hab hb
      cases a with
      | nil =>
        simp at hab
        obtain ⟨rfl, rfl⟩ := hab
        rcases h4.2 with h | h | h
        · exact Or.inl h
        · exact Or.inr h
        · exfalso
          apply hb
          rw [h]
          cases fuel <;> simp [fgetsAll]
      | cons x xs =>
        simp at hab
        exact i3 xs p b hab.2 hb

/-! ## analysed text of any kind -/

theorem advanceNext_invis (c : Nat) (s : Str) : (advanceNext (c :: s)).2 = 0 ↔ c ≠ 0x1b := by
  constructor
  · rintro h rfl
    have hmono : ∀ (s : Str) (pos k : Nat), k ≤ (advLoop pos k s).2 := by
      intro s
      induction s with
      | nil => intro pos k; simp [advLoop]
      | cons d s ih =>
        intro pos k
        simp only [advLoop]
        split
        · exact Nat.le_trans (by omega) (ih _ _)
        · split
          · exact Nat.le_trans (by omega) (ih _ _)
          · split
            · simp
            · split
              · split
                · simp
                · exact Nat.le_trans (by omega) (ih _ _)
              · simp
    have : advanceNext (0x1b :: s) = advLoop 1 1 s := by simp [advanceNext, advLoop]
    rw [this] at h
    have := hmono s 1 1
    omega
  · intro h; rw [advanceNext_vis h]

theorem advLoop_suffix : ∀ (s : Str) (pos k : Nat), ∃ p, s = p ++ (advLoop pos k s).1
  | [], pos, k => ⟨[], by simp [advLoop]⟩
  | d :: s, pos, k => by
    simp only [advLoop]
    split
    · obtain ⟨p, h⟩ := advLoop_suffix s 1 (k + 1); exact ⟨d :: p, by rw [List.cons_append, ← h]⟩
    · split
      · obtain ⟨p, h⟩ := advLoop_suffix s 2 (k + 1); exact ⟨d :: p, by rw [List.cons_append, ← h]⟩
      · split
        · exact ⟨[d], rfl⟩
        · split
          · split
            · exact ⟨[d], rfl⟩
            · obtain ⟨p, h⟩ := advLoop_suffix s 2 (k + 1); exact ⟨d :: p, by rw [List.cons_append, ← h]⟩
          · exact ⟨[d], rfl⟩

theorem advanceNext_suffix (s : Str) : ∃ p, s = p ++ (advanceNext s).1 := advLoop_suffix s 0 0

/-- What holds of the loop state of `bxs_from_unicode` for any text. -/
structure FuInv (st : FuState) : Prop where
  map : st.firstChar.length = st.vis
  indent : st.indent ≤ st.cols

/-- Every text without forbidden characters is accepted; its position map has an entry per visible character and one
for the terminator; the indentation is part of the width. -/
theorem fuLoop_total (db : CharDb) : ∀ (fuel : Nat) (st : FuState) (s : Str), s.length ≤ fuel →
    (∀ c ∈ s, ¬ Forbidden db c) → FuInv st →
    ∃ st', fuLoop db fuel st s = some st' ∧ FuInv st'
  | _, st, [], _, _, h => ⟨st, by simp [fuLoop], h⟩
  | 0, st, _ :: _, h, _, _ => by simp at h
  | fuel + 1, st, c :: r, hl, hf, hm => by
    have hc : isAllowedAnywhere db c = true := by
      cases hh : isAllowedAnywhere db c with
      | true => rfl
      | false => exact absurd ((allowed_iff db c).1 hh) (hf c (by simp))
    have hlen := advanceNext_length c r
    obtain ⟨p, hp⟩ := advanceNext_suffix (c :: r)
    simp only [fuLoop, hc, Bool.not_true, Bool.false_eq_true, if_false]
    apply fuLoop_total db fuel
    · simp only [List.length_cons] at hl hlen; omega
    · intro d hd
      exact hf d (by rw [hp]; exact List.mem_append_right _ hd)
    · obtain ⟨m1, m2⟩ := hm
      by_cases he : c = 0x1b
      · have h0 : (advanceNext (c :: r)).2 ≠ 0 := fun h => absurd he ((advanceNext_invis c r).1 h)
        simp only [fuStep, if_neg h0]
        constructor <;> simp [fuBlank, fuChar, he, m1, m2]
      · have h0 : (advanceNext (c :: r)).2 = 0 := (advanceNext_invis c r).2 he
        simp only [fuStep, if_pos h0, fuBlank, fuChar, if_neg he]
        constructor
        · split <;> simp [m1]
        · split <;> simp only <;> split <;> omega

/-- What holds of every analysed text without forbidden characters. -/
structure Good (db : CharDb) (t : Bxs) : Prop where
  map : t.firstChar.length = t.vis + 1
  indent : t.indent ≤ t.cols
  chars : ∀ c ∈ t.memory, ¬ Forbidden db c

theorem good_empty (db : CharDb) : Good db emptyBxs := ⟨rfl, by decide, by simp [emptyBxs]⟩

theorem fromUnicode_total (db : CharDb) (s : Str) (h : ∀ c ∈ s, ¬ Forbidden db c) :
    ∃ b, fromUnicode db s = some b ∧ Good db b := by
  obtain ⟨st, h1, h2⟩ := fuLoop_total db s.length FuState.init s (Nat.le_refl _) h ⟨rfl, Nat.le_refl _⟩
  refine ⟨_, by rw [fromUnicode, h1]; rfl, ?_, h2.indent, h⟩
  simp [h2.map]

theorem cutFront_total (db : CharDb) {b : Bxs} (h : Good db b) (n : Nat) : ∃ b', b.cutFront db n = some b' ∧ Good db b' := by
  unfold Bxs.cutFront
  split
  · exact ⟨_, rfl, good_empty db⟩
  · split
    · exact ⟨b, rfl, h⟩
    · rename_i hn _
      have : n < b.firstChar.length := by have := h.map; omega
      rw [List.getElem?_eq_getElem this]
      obtain ⟨b', h1, h2⟩ := fromUnicode_total db (b.memory.drop b.firstChar[n])
        (fun c hc => h.chars c (List.mem_of_mem_drop hc))
      exact ⟨b', by simpa using h1, h2⟩

theorem expandLoop_mem (tabstop : Nat) : ∀ (s out : Str) (tabs : List Nat) (c : Nat),
    c ∈ (expandLoop tabstop s out tabs).1 → c ∈ out ∨ c ∈ s ∨ c = 0x20
  | [], out, tabs, c, h => by simp [expandLoop] at h; exact Or.inl h
  | d :: s, out, tabs, c, h => by
    simp only [expandLoop] at h
    split at h
    · split at h
      · rcases expandLoop_mem tabstop s _ _ c h with h | h | h
        · rcases List.mem_append.1 h with h | h
          · exact Or.inl h
          · right; right; simp [nspaces] at h; exact h.2
        · right; left; simp [h]
        · exact Or.inr (Or.inr h)
      · rcases expandLoop_mem tabstop s _ _ c h with h | h | h
        · rcases List.mem_append.1 h with h | h
          · exact Or.inl h
          · right; left; simp at h; simp [h]
        · right; left; simp [h]
        · exact Or.inr (Or.inr h)
    · exact Or.inl h

theorem expandLoop_out (tabstop : Nat) : ∀ (s out : Str) (tabs : List Nat),
    out.length ≤ (expandLoop tabstop s out tabs).1.length
  | [], out, tabs => by simp [expandLoop]
  | d :: s, out, tabs => by
    simp only [expandLoop]
    split
    · split
      · exact Nat.le_trans (by simp) (expandLoop_out tabstop s _ _)
      · exact Nat.le_trans (by simp) (expandLoop_out tabstop s _ _)
    · simp

theorem expandTabs_pos (keep : Bool) {tabstop : Nat} (ht : 1 ≤ tabstop) {s : Str} (h : s ≠ []) :
    0 < (expandTabs keep tabstop s).1.length := by
  cases s with
  | nil => exact absurd rfl h
  | cons c r =>
    simp only [expandTabs, expandLoop]
    rw [if_pos (by decide)]
    split
    · exact Nat.lt_of_lt_of_le (by simp [nspaces]; omega) (expandLoop_out _ _ _ _)
    · exact Nat.lt_of_lt_of_le (by simp) (expandLoop_out _ _ _ _)

theorem btrim32_prefix (db : CharDb) (s : Str) : ∃ n, btrim32 db s = s.take n := by
  simp only [btrim32]
  split
  · split
    · exact ⟨_, rfl⟩
    · split <;> exact ⟨_, rfl⟩
  · exact ⟨0, by simp⟩

/-! ## minimum indentation, maximum width -/

theorem getIndentLoop_spec : ∀ (lines : List Line) (ts : List Bxs), lines.map Line.text = ts.map some →
    ∀ (res : Nat) (nb : Bool), ∃ n, getIndentLoop lines res nb = .ok (n, nb || ts.any (fun t => decide (0 < t.cols))) ∧
      n ≤ res ∧ (∀ t ∈ ts, 0 < t.cols → n ≤ t.indent) ∧ (n = res ∨ ∃ t ∈ ts, 0 < t.cols ∧ t.indent = n)
  | [], ts, h, res, nb => by
    cases ts with
    | nil => exact ⟨res, by simp [getIndentLoop]⟩
    | cons t ts => simp at h
  | l :: ls, ts, h, res, nb => by
    cases ts with
    | nil => simp at h
    | cons t ts =>
      simp only [List.map_cons, List.cons.injEq] at h
      simp only [getIndentLoop, h.1, Res.get_some, Res.ok_bind]
      by_cases ht : t.cols > 0
      · rw [if_pos ht]
        obtain ⟨n, h1, h2, h3, h4⟩ := getIndentLoop_spec ls ts h.2 (if t.indent < res then t.indent else res) true
        refine ⟨n, by rw [h1]; simp [ht], ?_, ?_, ?_⟩
        · split at h2 <;> omega
        · intro u hu hc
          rcases List.mem_cons.1 hu with rfl | hu
          · split at h2 <;> omega
          · exact h3 u hu hc
        · rcases h4 with h4 | ⟨u, hu, h4⟩
          · split at h4
            · right; exact ⟨t, by simp, ht, h4.symm⟩
            · left; exact h4
          · right; exact ⟨u, by simp [hu], h4⟩
      · rw [if_neg ht]
        obtain ⟨n, h1, h2, h3, h4⟩ := getIndentLoop_spec ls ts h.2 res nb
        have : decide (0 < t.cols) = false := by simp; omega
        refine ⟨n, by rw [h1]; simp [this], h2, ?_, ?_⟩
        · intro u hu hc
          rcases List.mem_cons.1 hu with rfl | hu
          · omega
          · exact h3 u hu hc
        · rcases h4 with h4 | ⟨u, hu, h4⟩
          · exact Or.inl h4
          · right; exact ⟨u, by simp [hu], h4⟩

theorem maxCols_spec : ∀ (lines : List Line) (ts : List Bxs), lines.map Line.text = ts.map some →
    ∀ (m : Nat), ∃ n, maxCols lines m = .ok n ∧ m ≤ n ∧ (∀ t ∈ ts, t.cols ≤ n) ∧ (n = m ∨ ∃ t ∈ ts, t.cols = n)
  | [], ts, h, m => by
    cases ts with
    | nil => exact ⟨m, by simp [maxCols]⟩
    | cons t ts => simp at h
  | l :: ls, ts, h, m => by
    cases ts with
    | nil => simp at h
    | cons t ts =>
      simp only [List.map_cons, List.cons.injEq] at h
      simp only [maxCols, h.1, Res.get_some, Res.ok_bind]
      obtain ⟨n, h1, h2, h3, h4⟩ := maxCols_spec ls ts h.2 (if t.cols > m then t.cols else m)
      refine ⟨n, h1, ?_, ?_, ?_⟩
      · split at h2 <;> omega
      · intro u hu
        rcases List.mem_cons.1 hu with rfl | hu
        · split at h2 <;> omega
        · exact h3 u hu
      · rcases h4 with h4 | ⟨u, hu, h4⟩
        · split at h4
          · right; exact ⟨t, by simp, h4.symm⟩
          · left; exact h4
        · right; exact ⟨u, by simp [hu], h4⟩

/-- lines with the given texts -/
def HasTexts (lines : List Line) (ts : List Bxs) : Prop := lines.map Line.text = ts.map some

/-- the new text of a line -/
def unindented (db : CharDb) (n : Nat) (t : Bxs) : Option Bxs := if t.cols ≥ n then t.cutFront db n else some t

theorem unindentLines_eq (db : CharDb) (n : Nat) : ∀ (lines : List Line) (ts : List Bxs), HasTexts lines ts →
    ∃ ls, unindentLines db n lines = .ok ls ∧ ls.map Line.text = ts.map (unindented db n) ∧
      ls.map Line.tabpos = lines.map Line.tabpos
  | [], ts, h => by
    cases ts with
    | nil => exact ⟨[], rfl, rfl, rfl⟩
    | cons t ts => simp [HasTexts] at h
  | l :: ls, ts, h => by
    cases ts with
    | nil => simp [HasTexts] at h
    | cons t ts =>
      simp only [HasTexts, List.map_cons, List.cons.injEq] at h
      obtain ⟨ls', h1, h2, h3⟩ := unindentLines_eq db n ls ts h.2
      have hl : ∃ l', unindentLine db n l = .ok l' ∧ l'.text = unindented db n t ∧ l'.tabpos = l.tabpos := by
        unfold unindentLine unindented
        rw [h.1, Res.get_some, Res.ok_bind]
        split
        · exact ⟨_, rfl, rfl, rfl⟩
        · exact ⟨_, rfl, h.1, rfl⟩
      obtain ⟨l', hl1, hl2, hl3⟩ := hl
      exact ⟨l' :: ls', by simp only [unindentLines, hl1, Res.ok_bind, h1], by simp [hl2, h2], by simp [hl3, h3]⟩

theorem substLines_nil (db : CharDb) : ∀ (ls : List Line) (m : Nat), substLines db [] ls m = .ok (ls, m)
  | [], m => rfl
  | l :: ls, m => by simp [substLines, substLine, substLines_nil db ls]

/-- The common indentation. -/
structure CommonIndent (ts : List Bxs) (n : Nat) : Prop where
  le : ∀ t ∈ ts, 0 < t.cols → n ≤ t.indent
  attained : (∃ t ∈ ts, 0 < t.cols) → n = lineMaxBytes ∨ ∃ t ∈ ts, 0 < t.cols ∧ t.indent = n
  none : (∀ t ∈ ts, t.cols = 0) → n = 0
  bound : n ≤ lineMaxBytes

theorem getIndent_eq {lines : List Line} {ts : List Bxs} (h : HasTexts lines ts) :
    ∃ n, getIndent lines = .ok n ∧ CommonIndent ts n := by
  unfold getIndent
  split
  · rename_i h0
    have : ts = [] := by
      have hl := congrArg List.length h
      simp only [List.length_map] at hl
      exact List.eq_nil_of_length_eq_zero (by omega)
    subst this
    exact ⟨0, rfl, by simp, by simp, by simp, by simp⟩
  · obtain ⟨n, hn1, hn2, hn3, hn4⟩ := getIndentLoop_spec lines ts h lineMaxBytes false
    rw [hn1, Res.ok_bind]
    simp only [Bool.false_or]
    by_cases ha : ts.any (fun t => decide (0 < t.cols)) = true
    · rw [if_pos ha]
      refine ⟨n, rfl, hn3, fun _ => hn4, ?_, hn2⟩
      intro hz
      obtain ⟨t, ht, hc⟩ := List.any_eq_true.1 ha
      have := hz t ht
      simp at hc
      omega
    · rw [if_neg ha]
      have hz : ∀ t ∈ ts, ¬ 0 < t.cols := by
        intro t ht hc
        apply ha
        rw [List.any_eq_true]
        exact ⟨t, ht, by simpa using hc⟩
      refine ⟨0, rfl, ?_, ?_, fun _ => rfl, by omega⟩
      · intro t ht hc; exact absurd hc (hz t ht)
      · rintro ⟨t, ht, hc⟩; exact absurd hc (hz t ht)

/-- Outcome of `analyze_input` when drawing a box without replacement rules. -/
theorem analyzeInput_eq (db : CharDb) (opt : Opt) (d : Design) (i : Input) (ts : List Bxs) (h : HasTexts i.lines ts)
    (hne : i.lines ≠ []) (hin : ∀ t ∈ ts, t.indent ≤ t.cols) :
    ∃ n m, CommonIndent ts n ∧ (∀ t ∈ ts, t.cols ≤ m) ∧ (∃ t ∈ ts, t.cols = m) ∧ n ≤ m ∧
      ((d.indentmode ≠ 't' ∧ opt.r = false) → ∃ ls, analyzeInput db opt d [] i =
        .ok { i with lines := ls, maxline := m - n, indent := n } ∧ ls.map Line.text = ts.map (unindented db n) ∧
          ls.map Line.tabpos = i.lines.map Line.tabpos) ∧
      (¬ (d.indentmode ≠ 't' ∧ opt.r = false) → analyzeInput db opt d [] i = .ok { i with maxline := m, indent := n }) := by
  obtain ⟨n, hn1, hn2⟩ := getIndent_eq h
  obtain ⟨m, hm1, -, hm2, hm3⟩ := maxCols_spec i.lines ts h 0
  have htne : ts ≠ [] := by
    rintro rfl
    apply hne
    simpa [HasTexts] using h
  have hatt : ∃ t ∈ ts, t.cols = m := by
    rcases hm3 with rfl | h
    · obtain ⟨t, ht⟩ := List.exists_mem_of_ne_nil ts htne
      exact ⟨t, ht, by have := hm2 t ht; omega⟩
    · exact h
  have hle : n ≤ m := by
    obtain ⟨t, ht, hc⟩ := hatt
    by_cases h0 : 0 < t.cols
    · have h1 := hn2.le t ht h0
      have h2 := hin t ht
      omega
    · have : n = 0 := hn2.none (fun u hu => by have := hm2 u hu; omega)
      omega
  refine ⟨n, m, hn2, hm2, hatt, hle, ?_, ?_⟩
  · intro hc
    obtain ⟨ls, hls, ht, htab⟩ := unindentLines_eq db n i.lines ts h
    refine ⟨ls, ?_, ht, htab⟩
    unfold analyzeInput
    simp only [hm1, Res.ok_bind, if_neg hne, hn1, if_pos hc, hls, Res.sub_ok hle, if_pos hc.2]
    unfold applySubstitutions
    simp only [substLines_nil, Res.ok_bind, if_neg hc.1]
  · intro hc
    unfold analyzeInput
    simp only [hm1, Res.ok_bind, if_neg hne, hn1, if_neg hc]
    by_cases hr : opt.r = false
    · rw [if_pos hr]
      unfold applySubstitutions
      have hi : d.indentmode = 't' := by
        by_cases hh : d.indentmode = 't'
        · exact hh
        · exact absurd ⟨hh, hr⟩ hc
      simp only [substLines_nil, Res.ok_bind, hn1, if_pos hi]
    · rw [if_neg hr]

end Boxes
