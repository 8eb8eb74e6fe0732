import Verif.Model.Capacity
import Verif.Spec.Capacity
import Verif.Lemmas.Input
import Verif.Lemmas.Tools
import Verif.Lemmas.TextSplit

/-!
# Lemmas about the sizes of buffers
-/
set_option linter.unusedSimpArgs false
namespace Boxes
open Spec

theorem charAscii_le (db : CharDb) (hw : ∀ c, 0x20 ≤ c → c < 0x7f → db.width c = 1) {c : Nat} (hc : c ≠ 0x09) :
    (charAscii db c).length = db.cols c := by
  unfold charAscii
  split
  · rename_i h
    simp only [isAsciiPrintable, Bool.and_eq_true, decide_eq_true_eq] at h
    have := hw c h.1 (by omega)
    simp [CharDb.cols, this]
  · simp

theorem fuLoop_cons (db : CharDb) (fuel : Nat) (st : FuState) (c : Nat) (r : Str) :
    fuLoop db (fuel + 1) st (c :: r) = if !isAllowedAnywhere db c then none
      else fuLoop db fuel (fuStep (fuBlank db (fuChar db st c (c :: r)) c) (advanceNext (c :: r)).2) (advanceNext (c :: r)).1 := rfl

theorem fuLoopMem_cons (db : CharDb) (cap fuel m : Nat) (st : FuState) (c : Nat) (r : Str) :
    fuLoopMem db cap (fuel + 1) m st (c :: r) = if !isAllowedAnywhere db c then .fail 1
      else if c ≠ chEsc ∧ (st.ascii.length + (charAscii db c).length > cap ∨ ¬ st.vis < growMap st.vis m) then .ub
      else fuLoopMem db cap fuel (growMap st.vis m) (fuStep (fuBlank db (fuChar db st c (c :: r)) c) (advanceNext (c :: r)).2)
        (advanceNext (c :: r)).1 := rfl

theorem fuStep_vis (db : CharDb) (st : FuState) (c : Nat) (r : Str) (h : c ≠ 0x1b) :
    (fuStep (fuBlank db (fuChar db st c (c :: r)) c) (advanceNext (c :: r)).2).vis = st.vis + 1 ∧
    (fuStep (fuBlank db (fuChar db st c (c :: r)) c) (advanceNext (c :: r)).2).ascii = st.ascii ++ charAscii db c := by
  have h0 := (advanceNext_invis c r).2 h
  simp only [fuStep, if_pos h0, fuBlank, fuChar, if_neg h]
  split <;> simp

theorem fuStep_esc (db : CharDb) (st : FuState) (c : Nat) (r : Str) (h : c = 0x1b) :
    (fuStep (fuBlank db (fuChar db st c (c :: r)) c) (advanceNext (c :: r)).2).vis = st.vis ∧
    (fuStep (fuBlank db (fuChar db st c (c :: r)) c) (advanceNext (c :: r)).2).ascii = st.ascii := by
  have h0 : (advanceNext (c :: r)).2 ≠ 0 := fun k => (advanceNext_invis c r).1 k h
  simp only [fuStep, if_neg h0, fuBlank, fuChar, if_pos h]
  split <;> simp

theorem growMap_ok {vis m : Nat} (h5 : 5 ≤ m) (h : vis + 2 ≤ m) : 5 ≤ growMap vis m ∧ vis + 3 ≤ growMap vis m := by
  unfold growMap
  split <;> omega

/-- the ASCII form only grows -/
theorem fuLoop_ascii_mono (db : CharDb) : ∀ (fuel : Nat) (st st' : FuState) (s : Str), fuLoop db fuel st s = some st' →
    st.ascii.length ≤ st'.ascii.length
  | _, st, st', [], h => by simp [fuLoop] at h; rw [h]; exact Nat.le_refl _
  | 0, st, st', _ :: _, h => by simp [fuLoop] at h
  | fuel + 1, st, st', c :: r, h => by
    rw [fuLoop_cons] at h
    split at h
    · simp at h
    · have := fuLoop_ascii_mono db fuel _ _ _ h
      by_cases hc : c = 0x1b
      · rw [(fuStep_esc db st c r hc).2] at this; exact this
      · rw [(fuStep_vis db st c r hc).2] at this
        simp at this; omega

/-- If the ASCII form of the complete text fits, nothing is written outside of the buffers. -/
theorem fuLoopMem_ok (db : CharDb) (cap : Nat) : ∀ (fuel m : Nat) (st st' : FuState) (s : Str), fuLoop db fuel st s = some st' →
    st'.ascii.length ≤ cap → 5 ≤ m → st.vis + 2 ≤ m →
    ∃ m', fuLoopMem db cap fuel m st s = .ok (st', m') ∧ st'.vis + 2 ≤ m'
  | 0, m, st, st', [], h, _, _, hv | fuel + 1, m, st, st', [], h, _, _, hv => by
    simp [fuLoop] at h; subst h; exact ⟨m, by simp [fuLoopMem], hv⟩
  | 0, m, st, st', _ :: _, h, _, _, _ => by simp [fuLoop] at h
  | fuel + 1, m, st, st', c :: r, h, ha, h5, hv => by
    rw [fuLoop_cons] at h
    split at h
    · simp at h
    · rename_i hal
      obtain ⟨g5, gv⟩ := growMap_ok h5 hv
      have hm := fuLoop_ascii_mono db fuel _ _ _ h
      have hguard : ¬ (c ≠ chEsc ∧ (st.ascii.length + (charAscii db c).length > cap ∨ ¬ st.vis < growMap st.vis m)) := by
        rintro ⟨hc, h'⟩
        rw [(fuStep_vis db st c r hc).2] at hm
        simp at hm; omega
      rw [fuLoopMem_cons]
      simp only [hal, if_false, Bool.false_eq_true, if_neg hguard]
      refine fuLoopMem_ok db cap fuel _ _ _ _ h ha g5 ?_
      by_cases hc : c = 0x1b
      · rw [(fuStep_esc db st c r hc).1]; omega
      · rw [(fuStep_vis db st c r hc).1]; omega

/-- If it does not fit, something is. -/
theorem fuLoopMem_ub (db : CharDb) (cap : Nat) : ∀ (fuel m : Nat) (st st' : FuState) (s : Str), fuLoop db fuel st s = some st' →
    st.ascii.length ≤ cap → cap < st'.ascii.length → fuLoopMem db cap fuel m st s = .ub
  | 0, m, st, st', [], h, _, _ | fuel + 1, m, st, st', [], h, _, _ => by
    simp [fuLoop] at h; subst h; omega
  | 0, m, st, st', _ :: _, h, _, _ => by simp [fuLoop] at h
  | fuel + 1, m, st, st', c :: r, h, h1, h2 => by
    rw [fuLoop_cons] at h
    split at h
    · simp at h
    · rename_i hal
      rw [fuLoopMem_cons]
      simp only [hal, if_false, Bool.false_eq_true]
      split
      · rfl
      · rename_i hg
        refine fuLoopMem_ub db cap fuel _ _ _ _ h ?_ h2
        by_cases hc : c = 0x1b
        · rw [(fuStep_esc db st c r hc).2]; exact h1
        · rw [(fuStep_vis db st c r hc).2]
          simp only [ne_eq, hc, not_false_eq_true, true_and, not_or, chEsc] at hg
          simp; omega

/-- Without tabs there is always room. -/
theorem fuLoopMem_fits (db : CharDb) (hw : ∀ c, 0x20 ≤ c → c < 0x7f → db.width c = 1) (cap : Nat) :
    ∀ (fuel m : Nat) (st : FuState) (s : Str), s.length ≤ fuel → 0x09 ∉ s → st.ascii.length + strWidth db s ≤ cap → 5 ≤ m → st.vis + 2 ≤ m →
    match fuLoop db fuel st s with
    | some st' => ∃ m', fuLoopMem db cap fuel m st s = .ok (st', m') ∧ st'.vis + 2 ≤ m' ∧ st'.ascii.length ≤ cap
    | none => fuLoopMem db cap fuel m st s = .fail 1
  | 0, m, st, [], _, _, hr, _, hv | fuel + 1, m, st, [], _, _, hr, _, hv => by
    simp only [fuLoop]; exact ⟨m, by simp [fuLoopMem], hv, by omega⟩
  | 0, m, st, _ :: _, h, _, _, _, _ => by simp at h
  | fuel + 1, m, st, c :: r, hl, ht, hr, h5, hv => by
    rw [fuLoop_cons, fuLoopMem_cons]
    have hct : c ≠ 0x09 := fun h => ht (by simp [h])
    cases hal : isAllowedAnywhere db c with
    | false => simp
    | true =>
      simp only [Bool.not_true, Bool.false_eq_true, if_false]
      obtain ⟨g5, gv⟩ := growMap_ok h5 hv
      have hcl := charAscii_le db hw hct
      have hlen := advanceNext_length c r
      obtain ⟨p, hp⟩ := advanceNext_suffix (c :: r)
      have hwc : strWidth db (c :: r) = db.cols c + strWidth db r := by simp [strWidth]
      have hguard : ¬ (c ≠ chEsc ∧ (st.ascii.length + (charAscii db c).length > cap ∨ ¬ st.vis < growMap st.vis m)) := by
        rintro ⟨hc, h'⟩; omega
      rw [if_neg hguard]
      have hws : strWidth db (c :: r) = strWidth db p + strWidth db (advanceNext (c :: r)).1 := by
        conv => lhs; rw [hp]
        simp [strWidth]
      refine fuLoopMem_fits db hw cap fuel _ _ _ (by simp only [List.length_cons] at hl hlen; omega) ?_ ?_ g5 ?_
      · intro h; exact ht (by rw [hp]; exact List.mem_append_right _ h)
      · by_cases hc : c = 0x1b
        · rw [(fuStep_esc db st c r hc).2]; omega
        · rw [(fuStep_vis db st c r hc).2, advanceNext_vis hc]; simp; omega
      · by_cases hc : c = 0x1b
        · rw [(fuStep_esc db st c r hc).1]; omega
        · rw [(fuStep_vis db st c r hc).1]; omega

theorem strWidth_room (db : CharDb) (s : Str) : strWidth db s = room db s := by
  unfold strWidth room
  congr 1
  apply List.map_congr_left
  intro c _
  simp only [CharDb.cols]
  omega

theorem strWidth_cons (db : CharDb) (c : Nat) (r : Str) : strWidth db (c :: r) = db.cols c + strWidth db r := by simp [strWidth]

theorem strWidth_append (db : CharDb) (p q : Str) : strWidth db (p ++ q) = strWidth db p + strWidth db q := by simp [strWidth]

/-- what is written for a visible character -/
def ciChar (db : CharDb) (c : Nat) : Str := if isAsciiPrintable c then [c] else List.replicate (db.cols c) 0x78

theorem ciChar_shown (db : CharDb) (c : Nat) : ciChar db c = shown db c := by
  unfold ciChar shown
  have : (isAsciiPrintable c = true) ↔ (0x20 ≤ c ∧ c < 0x7f) := by
    simp only [isAsciiPrintable, Bool.and_eq_true, decide_eq_true_eq]
  simp only [this, CharDb.cols]
  have h : (db.width c).toNat = (max 0 (db.width c)).toNat := by omega
  rw [h]

theorem ciChar_length (db : CharDb) (hw : Widths db) (c : Nat) : (ciChar db c).length = db.cols c ∧ (ciChar db c).length ≤ 2 := by
  have h2 := hw.two c
  unfold ciChar
  split
  · rename_i h
    simp only [isAsciiPrintable, Bool.and_eq_true, decide_eq_true_eq] at h
    have := hw.ascii c h.1 (by omega)
    simp [CharDb.cols, this]
  · simp only [List.length_replicate, CharDb.cols, true_and]; omega

/-- what is true between two characters -/
structure CiInv (st : CiState) : Prop where
  five : 5 ≤ st.mapSize
  fits : st.map.length ≤ st.mapSize

theorem CiState.grow_inv {st : CiState} (h : CiInv st) : CiInv st.grow ∧ st.grow.map.length + 5 ≤ st.grow.mapSize := by
  obtain ⟨h5, hf⟩ := h
  unfold CiState.grow
  split
  · refine ⟨⟨?_, ?_⟩, ?_⟩ <;> simp only <;> omega
  · refine ⟨⟨?_, ?_⟩, ?_⟩ <;> omega

theorem CiState.grow_eq (st : CiState) : st.grow = { st with mapSize := st.grow.mapSize } := by
  unfold CiState.grow; split <;> rfl

theorem ciLoop_esc (db : CharDb) (buflen fuel : Nat) (st : CiState) (r : Str) :
    ciLoop db buflen (fuel + 1) st (0x1b :: r) =
      ciLoop db buflen fuel { st.grow with
        numEsc := st.grow.numEsc + 1, mbIdx := st.grow.mbIdx + max 1 (advanceNext (0x1b :: r)).2,
        invis := st.grow.invis + (advanceNext (0x1b :: r)).2 } (advanceNext (0x1b :: r)).1 := rfl

theorem ciLoop_vis (db : CharDb) (buflen fuel : Nat) (st : CiState) (c : Nat) (r : Str) (hc : c ≠ 0x1b) (hi : CiInv st)
    (hl : (ciChar db c).length ≤ 5) (hb : st.ascii.length + (ciChar db c).length ≤ buflen) :
    ciLoop db buflen (fuel + 1) st (c :: r) =
      ciLoop db buflen fuel { st.grow with
        ascii := st.ascii ++ ciChar db c,
        map := st.map ++ List.replicate (ciChar db c).length st.mbIdx, mbIdx := st.mbIdx + 1 } r := by
  obtain ⟨-, hg⟩ := CiState.grow_inv hi
  have he := CiState.grow_eq st
  have hcond : ¬ (st.grow.ascii.length + (ciChar db c).length > buflen ∨ st.grow.map.length + (ciChar db c).length > st.grow.mapSize) := by
    have : st.grow.ascii = st.ascii := by rw [he]
    rw [this]; omega
  have hput2 : st.grow.put buflen (ciChar db c) = .ok { st.grow with
        ascii := st.ascii ++ ciChar db c,
        map := st.map ++ List.replicate (ciChar db c).length st.mbIdx } := by
    unfold CiState.put
    rw [if_neg hcond, he]
  have h1 : st.grow.mbIdx = st.mbIdx := by rw [he]
  rw [ciLoop]
  simp only [chEsc, if_neg hc, advanceNext_vis hc, Nat.add_zero]
  by_cases hp : isAsciiPrintable c = true
  · have hcc : ciChar db c = [c] := if_pos hp
    rw [hcc] at hput2 ⊢
    simp only [if_pos hp, hput2, Res.ok_bind, h1]
    rfl
  · have hcc : ciChar db c = List.replicate (db.cols c) 0x78 := if_neg hp
    rw [hcc] at hput2 ⊢
    simp only [if_neg hp, hput2, Res.ok_bind, h1]
    rfl

/-- Counting never writes outside of the buffers. -/
theorem ciLoop_safe (db : CharDb) (hw : Widths db) (buflen : Nat) : ∀ (fuel : Nat) (st : CiState) (s : Str), s.length ≤ fuel →
    CiInv st → st.ascii.length + strWidth db s < buflen → ∃ st', ciLoop db buflen fuel st s = .ok st' ∧ st'.ascii.length < buflen
  | 0, st, [], _, _, hb | fuel + 1, st, [], _, _, hb => ⟨st, by simp [ciLoop], by omega⟩
  | 0, st, _ :: _, h, _, _ => by simp at h
  | fuel + 1, st, c :: r, hl, hi, hb => by
    have hlen := advanceNext_length c r
    obtain ⟨p, hp⟩ := advanceNext_suffix (c :: r)
    have he := CiState.grow_eq st
    have hgi := (CiState.grow_inv hi).1
    have hg := (CiState.grow_inv hi).2
    by_cases hc : c = 0x1b
    · subst hc
      rw [ciLoop_esc]
      have hws : strWidth db (0x1b :: r) = strWidth db p + strWidth db (advanceNext (0x1b :: r)).1 := by
        conv => lhs; rw [hp]
        rw [strWidth_append]
      refine ciLoop_safe db hw buflen fuel _ _ (by simp only [List.length_cons] at hl hlen; omega) ⟨hgi.five, hgi.fits⟩ ?_
      have : st.grow.ascii = st.ascii := by rw [he]
      simp only [this]; omega
    · obtain ⟨hcl, hc2⟩ := ciChar_length db hw c
      rw [strWidth_cons] at hb
      rw [ciLoop_vis db buflen fuel st c r hc hi (by omega) (by omega)]
      refine ciLoop_safe db hw buflen fuel _ _ (by simpa using hl) ⟨hgi.five, ?_⟩ ?_
      · have : st.grow.map = st.map := by rw [he]
        rw [this] at hg
        simp; omega
      · simp; omega

/-- What counting gives. -/
theorem ciLoop_shown (db : CharDb) (hw : Widths db) (buflen : Nat) {pos n : Nat} {s a : Str} {m : List Nat} (h : ShownAs db pos s a m n) :
    ∀ (fuel : Nat) (st : CiState), s.length ≤ fuel → CiInv st → st.ascii.length + strWidth db s < buflen → st.mbIdx = pos →
    ∃ st', ciLoop db buflen fuel st s = .ok st' ∧ st'.ascii = st.ascii ++ a ∧ st'.map = st.map ++ m ∧ st'.numEsc = st.numEsc + n ∧
      ∀ v, Text s v → st'.invis + v.length = st.invis + s.length := by
  induction h with
  | nil pos =>
    intro fuel st _ _ _ _
    refine ⟨st, by cases fuel <;> simp [ciLoop], by simp, by simp, by simp, ?_⟩
    intro v hv
    have := hv.unique Text.nil
    simp [this]
  | @vis c pos s a m n hc hs ih =>
    intro fuel st hl hi hb hpos
    obtain ⟨fuel, rfl⟩ : ∃ k, fuel = k + 1 := ⟨fuel - 1, by simp at hl; omega⟩
    obtain ⟨hcl, hc2⟩ := ciChar_length db hw c
    have he := CiState.grow_eq st
    have hgi := (CiState.grow_inv hi).1
    have hg := (CiState.grow_inv hi).2
    rw [strWidth_cons] at hb
    rw [ciLoop_vis db buflen fuel st c s hc hi (by omega) (by omega)]
    obtain ⟨st', h1, h2, h3, h4, h5⟩ := ih fuel { st.grow with
        ascii := st.ascii ++ ciChar db c,
        map := st.map ++ List.replicate (ciChar db c).length st.mbIdx, mbIdx := st.mbIdx + 1 } (by simpa using hl) ⟨hgi.five, by
          have : st.grow.map = st.map := by rw [he]
          rw [this] at hg
          simp; omega⟩ (by simp; omega) (by simp [hpos])
    refine ⟨st', h1, ?_, ?_, ?_, ?_⟩
    · rw [h2, ← ciChar_shown]; simp
    · rw [h3, ← ciChar_shown, hpos]; simp
    · rw [h4]; simp only; rw [he]
    · intro v hv
      obtain ⟨u, rfl, hu⟩ : ∃ u, v = c :: u ∧ Text s u := by
        obtain ⟨u, h', h''⟩ := text_plain_append (p := [c]) (by simpa using hc) (by simpa using hv)
        exact ⟨u, h', h''⟩
      have := h5 u hu
      have h6 : st.grow.invis = st.invis := by rw [he]
      simp only [h6] at this
      simp only [List.length_cons]; omega
  | @esc e pos s a m n hesc hs ih =>
    intro fuel st hl hi hb hpos
    have hepos := EscSeq.length_pos hesc
    obtain ⟨fuel, rfl⟩ : ∃ k, fuel = k + 1 := ⟨fuel - 1, by simp at hl; omega⟩
    have hgi := (CiState.grow_inv hi).1
    have he := CiState.grow_eq st
    have hadv := advanceNext_esc hesc s
    obtain ⟨r, hr⟩ := hesc.head
    have hform : ∃ r', e ++ s = 0x1b :: r' := ⟨r ++ s, by rw [hr]; rfl⟩
    obtain ⟨r', hr'⟩ := hform
    rw [hr'] at hadv ⊢
    rw [ciLoop_esc, hadv]
    have h6 : st.grow.invis = st.invis := by rw [he]
    have h7 : st.grow.mbIdx = st.mbIdx := by rw [he]
    have h8 : st.grow.ascii = st.ascii := by rw [he]
    have h9 : st.grow.map = st.map := by rw [he]
    have h10 : st.grow.numEsc = st.numEsc := by rw [he]
    obtain ⟨st', h1, h2, h3, h4, h5⟩ := ih fuel { st.grow with
        numEsc := st.grow.numEsc + 1, mbIdx := st.grow.mbIdx + max 1 e.length,
        invis := st.grow.invis + e.length } (by simp at hl; omega) ⟨hgi.five, hgi.fits⟩ (by
          rw [strWidth_append] at hb; simp only [h8]; omega) (by simp only [h7, hpos]; omega)
    refine ⟨st', h1, by rw [h2]; simp only [h8], by rw [h3]; simp only [h9], by rw [h4]; simp only [h10]; omega, ?_⟩
    intro v hv
    rw [← hr'] at hv ⊢
    obtain ⟨w, hw1, hw2⟩ := text_cancel (a := e) (u := []) (by simpa using Text.esc e hesc Text.nil) hv
    have := h5 v (by simpa [hw1] using hw2)
    simp only [h6] at this
    simp; omega

theorem charAscii_cols (db : CharDb) (c : Nat) : (charAscii db c).length = charCols db c := by
  unfold charAscii charCols
  split
  · rfl
  · split <;> simp

theorem fuLoop_sized (db : CharDb) : ∀ (fuel : Nat) (st st' : FuState) (s : Str), fuLoop db fuel st s = some st' →
    st.ascii.length = st.cols → st.firstChar.length = st.vis → st.visChar.length = st.vis →
    st'.ascii.length = st'.cols ∧ st'.firstChar.length = st'.vis ∧ st'.visChar.length = st'.vis
  | 0, st, st', [], h, h1, h2, h3 | fuel + 1, st, st', [], h, h1, h2, h3 => by
    simp [fuLoop] at h; subst h; exact ⟨h1, h2, h3⟩
  | 0, st, st', _ :: _, h, _, _, _ => by simp [fuLoop] at h
  | fuel + 1, st, st', c :: r, h, h1, h2, h3 => by
    rw [fuLoop_cons] at h
    split at h
    · simp at h
    · refine fuLoop_sized db fuel _ _ _ h ?_ ?_ ?_
      all_goals
        by_cases hc : c = 0x1b
        · have h0 : (advanceNext (c :: r)).2 ≠ 0 := fun k => (advanceNext_invis c r).1 k hc
          simp only [fuStep, if_neg h0, fuBlank, fuChar, if_pos hc]
          split <;> simp [h1, h2, h3]
        · have h0 := (advanceNext_invis c r).2 hc
          simp only [fuStep, if_pos h0, fuBlank, fuChar, if_neg hc]
          split <;> simp [h1, h2, h3, charAscii_cols]

theorem expandLoopMem_ok (tabCap ts : Nat) (h1 : 1 ≤ ts) (h16 : ts ≤ 16) : ∀ (s out : Str) (tabs : List Nat),
    out.length ≤ lineMaxBytes + 4 → (tabCap > 0 → tabs.length + s.count 0x09 < tabCap) →
    expandLoopMem (lineMaxBytes + 100) tabCap ts s out tabs = .ok (expandLoop ts s out tabs)
  | [], out, tabs, h, _ => by simp only [expandLoopMem, expandLoop]; rw [if_pos (by omega)]
  | c :: s, out, tabs, h, ht => by
    simp only [expandLoopMem, expandLoop]
    split
    · rename_i hlt
      split
      · rename_i hc
        rw [if_neg (by omega)]
        have hc' : tabCap > 0 → tabs.length + 1 + s.count 0x09 < tabCap := by
          intro h'; have := ht h'; rw [hc] at this; simp at this; omega
        rw [if_neg (by rintro ⟨a, b⟩; have := hc' a; omega), if_neg (by omega)]
        refine expandLoopMem_ok tabCap ts h1 h16 s _ _ ?_ ?_
        · have : 12 ≤ lineMaxBytes := by decide
          simp [nspaces]; omega
        · intro h'; have := hc' h'; simp; omega
      · rename_i hc
        rw [if_neg (by omega)]
        refine expandLoopMem_ok tabCap ts h1 h16 s _ _ (by simp; omega) ?_
        intro h'
        have := ht h'
        rw [List.count_cons_of_ne hc] at this
        exact this
    · rw [if_pos (by omega)]

theorem expandTabsMem_ok (keep : Bool) (ts : Nat) (h1 : 1 ≤ ts) (h16 : ts ≤ 16) (s : Str) :
    expandTabsMem keep ts s = .ok (expandTabs keep ts s) := by
  unfold expandTabsMem expandTabs
  have : expandLoopMem (lineMaxBytes + 100) (if (if keep then s.count chTab else 0) > 0 then (if keep then s.count chTab else 0) + 1 else 0) ts s [] [] =
      .ok (expandLoop ts s [] []) := by
    apply expandLoopMem_ok _ _ h1 h16 _ _ _ (by simp)
    intro h
    split at h
    · rename_i h'
      cases keep with
      | false => simp at h'
      | true => simp; split at * <;> simp_all <;> omega
    · simp at h
  simp only [this, Res.ok_bind]

theorem expandLoop_no_tab (ts : Nat) : ∀ (s out : Str) (tabs : List Nat), 0x09 ∉ out → 0x09 ∉ (expandLoop ts s out tabs).1
  | [], out, tabs, h => by simpa [expandLoop] using h
  | c :: s, out, tabs, h => by
    simp only [expandLoop]
    split
    · split
      · apply expandLoop_no_tab
        simp [h, nspaces, chSpace]
      · rename_i hc
        apply expandLoop_no_tab
        simp only [List.mem_append, List.mem_singleton, not_or]
        exact ⟨h, fun h' => hc h'.symm⟩
    · exact h

theorem escapeText_length (org : Bxs) : ∀ (s : Str) (i : Nat), (escapeText org s i).length ≤ 2 * s.length
  | [], _ => by simp [escapeText]
  | c :: s, i => by
    have := escapeText_length org s (i + 1)
    simp only [escapeText]
    split <;> simp <;> omega

theorem expandLoop_mono (ts : Nat) : ∀ (s out : Str) (tabs : List Nat), out.length ≤ (expandLoop ts s out tabs).1.length ∧ tabs.length ≤ (expandLoop ts s out tabs).2.length
  | [], out, tabs => by simp [expandLoop]
  | c :: s, out, tabs => by
    simp only [expandLoop]
    split
    · split
      · have := expandLoop_mono ts s (out ++ nspaces (ts - out.length % ts)) (tabs ++ [out.length])
        simp only [List.length_append] at this
        omega
      · have := expandLoop_mono ts s (out ++ [c]) tabs
        simp only [List.length_append] at this
        omega
    · simp

end Boxes
