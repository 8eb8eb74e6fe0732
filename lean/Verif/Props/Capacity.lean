import Verif.Lemmas.Capacity
import Verif.Props.Text
import Verif.Model.Parse

/-!
# C80: the memory for texts
-/
set_option linter.unusedSimpArgs false
namespace Boxes
open Spec


/-- C80: a text without tabs is analysed within the memory that is reserved for it, whatever its characters and escape sequences are
(complete or not). -/
theorem C80_no_tab_partial (db : CharDb) (hw : Widths db) (s : Str) (h : 0x09 ∉ s) :
    fromUnicodeMem db s = match fromUnicode db s with
      | some b => .ok b
      | none => .fail 1 := by
  have key := fuLoopMem_fits db hw.ascii (strWidth db s + 1) s.length 5 FuState.init s (Nat.le_refl _) h (by simp [FuState.init]) (by omega)
    (by simp [FuState.init])
  have key2 : ∀ st, fuLoop db s.length FuState.init s = some st → st.ascii.length ≤ strWidth db s := by
    intro st hst
    have := fuLoopMem_fits db hw.ascii (strWidth db s) s.length 5 FuState.init s (Nat.le_refl _) h (by simp [FuState.init]) (by omega)
      (by simp [FuState.init])
    rw [hst] at this
    obtain ⟨_, _, _, h3⟩ := this
    exact h3
  unfold fromUnicodeMem fromUnicode
  cases hl : fuLoop db s.length FuState.init s with
  | none =>
    rw [hl] at key
    simp only [key, Res.fail_bind, Option.map_none]
  | some st =>
    rw [hl] at key
    obtain ⟨m, h1, h2, -⟩ := key
    have := key2 st hl
    simp only [h1, Res.ok_bind, Option.map_some]
    rw [if_pos ⟨by omega, by omega⟩]

/-- C80: exactly when a text is analysed within the memory that is reserved for it: the columns of its visible characters, with one for
each tab, are not more than the widths of all its characters, in which tabs do not count. -/
theorem C80_text (db : CharDb) {s v : Str} {b : Bxs} (h : Text s v) (hb : fromUnicode db s = some b) :
    fromUnicodeMem db s = if columns db v ≤ room db s then .ok b else .ub := by
  have ha : b.ascii.length = columns db v := (C01_metrics db h hb).2.2.2.2.2.1
  rw [← ha, ← strWidth_room]
  unfold fromUnicodeMem
  unfold fromUnicode at hb
  cases hl : fuLoop db s.length FuState.init s with
  | none => rw [hl] at hb; simp at hb
  | some st =>
    rw [hl] at hb
    simp only [Option.map_some, Option.some.injEq] at hb
    subst hb
    simp only
    by_cases hfit : st.ascii.length ≤ strWidth db s + 1
    · obtain ⟨m, h1, h2⟩ := fuLoopMem_ok db (strWidth db s + 1) _ 5 _ _ _ hl hfit (by omega) (by simp [FuState.init])
      simp only [h1, Res.ok_bind]
      by_cases hle : st.ascii.length ≤ strWidth db s
      · rw [if_pos ⟨by omega, by omega⟩, if_pos hle]
      · rw [if_neg (by rintro ⟨a, _⟩; omega), if_neg hle]
    · have := fuLoopMem_ub db (strWidth db s + 1) _ 5 _ _ _ hl (by simp [FuState.init]) (by omega)
      simp only [this, Res.ub_bind]
      rw [if_neg (by omega)]

/-- C80: a text with a tab and without escape sequences is written beyond the end of the memory reserved for it. -/
theorem C80_tab_overruns (db : CharDb) (hw : Widths db) (s : Str) (hf : ∀ c ∈ s, ¬ Forbidden db c) (he : 0x1b ∉ s) (ht : 0x09 ∈ s) :
    fromUnicodeMem db s = .ub := by
  obtain ⟨b, hb, -⟩ := fromUnicode_total db s hf
  have hp : Text s s := Text.plain (fun c hc h => he (h ▸ hc))
  rw [C80_text db hp hb]
  have hlt : room db s < columns db s := by
    clear hb b hp
    have hmono : ∀ s : Str, room db s ≤ columns db s := by
      intro s
      induction s with
      | nil => simp [room, columns]
      | cons c s ih =>
        simp only [room, columns, List.map_cons, List.sum_cons] at ih ⊢
        have : (max 0 (db.width c)).toNat ≤ width db c := by
          unfold width
          split
          · rename_i h
            rcases h with h | rfl
            · rw [hw.ascii c h.1 h.2]; decide
            · have := hw.tab; omega
          · omega
        omega
    induction s with
    | nil => simp at ht
    | cons c s ih =>
      simp only [room, columns, List.map_cons, List.sum_cons] at ih hmono ⊢
      rcases List.mem_cons.1 ht with rfl | ht
      · have h1 := hmono s
        have h2 := hw.tab
        have h3 : width db 0x09 = 1 := by simp [width]
        omega
      · have h1 := ih (fun c hc => hf c (by simp [hc])) (fun h => he (by simp [h])) ht
        have h2 := hmono [c]
        simp at h2
        omega
  rw [if_neg (by omega)]


theorem sampleDb_widths : Widths sampleDb := by
  refine ⟨?_, by decide, ?_⟩
  · intro c h1 h2
    simp only [sampleDb]
    rw [if_neg (by omega), if_neg (by omega)]
  · intro c
    simp only [sampleDb]
    split
    · omega
    · split <;> omega

example : 0x09 ∉ sampleText := by decide

/-- a line of a shape that consists of a vertical bar and a tab -/
def tabShape : Str := [0x7c, 0x09]

/-- C80 does not hold of all texts: the tab in a line of a shape is accepted by the parser, but there is no room for it. -/
theorem C80_shape_disagrees :
    ∃ b, fromUnicode sampleDb tabShape = some b ∧ b.validInShape sampleDb = true ∧ fromUnicodeMem sampleDb tabShape = .ub := by
  refine ⟨_, rfl, ?_⟩; decide

example : ∀ c ∈ tabShape, ¬ Forbidden sampleDb c := by decide

/-- C80: what the fields of an analysed text say about its buffers is true. -/
theorem C80_sized (db : CharDb) {s : Str} {b : Bxs} (hb : fromUnicode db s = some b) : Sized b := by
  unfold fromUnicode at hb
  cases hl : fuLoop db s.length FuState.init s with
  | none => rw [hl] at hb; simp at hb
  | some st =>
    obtain ⟨h1, h2, h3⟩ := fuLoop_sized db _ _ _ _ hl rfl rfl rfl
    rw [hl] at hb
    simp only [Option.map_some, Option.some.injEq] at hb
    subst hb
    exact ⟨rfl, h1, by simp [h2], by simp [h3]⟩

/-- C80: spaces are put in front of such a string within the memory that is reserved for the result, which is such a string again. -/
theorem C80_prepend {b : Bxs} (h : Sized b) {n : Nat} (hn : 0 < n) :
    prependSpacesMem b n = .ok (b.prependSpaces n) ∧ Sized (b.prependSpaces n) := by
  obtain ⟨h1, h2, h3, h4⟩ := h
  constructor
  · unfold prependSpacesMem Bxs.prependSpaces
    rw [if_neg (by omega)]
    have e1 : writeAt (b.numChars + n + 1) 0 (nspaces n) = .ok (nspaces n) := if_pos (by simp [nspaces]; omega)
    have e2 : readFirst b.memory b.numChars = .ok (b.memory.take b.numChars) := if_pos (by omega)
    have e3 : writeAt (b.numChars + n + 1) n (b.memory.take b.numChars) = .ok (b.memory.take b.numChars) := if_pos (by simp; omega)
    have e4 : writeAt (b.numChars + n + 1) (b.numChars + n) [0] = .ok [0] := if_pos (by simp)
    have e5 : writeAt (b.cols + n + 1) 0 (List.replicate n chSpace) = .ok (List.replicate n chSpace) := if_pos (by simp; omega)
    have e6 : writeAt (b.cols + n + 1) n (b.ascii ++ [0]) = .ok (b.ascii ++ [0]) := if_pos (by simp; omega)
    have e7 : writeAt (b.vis + n + 1) 0 (List.range n) = .ok (List.range n) := if_pos (by simp; omega)
    have e8 : readFirst b.firstChar (b.vis + 1) = .ok (b.firstChar.take (b.vis + 1)) := if_pos (by omega)
    have e9 : writeAt (b.vis + n + 1) n ((b.firstChar.take (b.vis + 1)).map (· + n)) = .ok ((b.firstChar.take (b.vis + 1)).map (· + n)) :=
      if_pos (by simp; omega)
    have e10 : readFirst b.visChar (b.vis + 1) = .ok (b.visChar.take (b.vis + 1)) := if_pos (by omega)
    have e11 : writeAt (b.vis + n + 1) n ((b.visChar.take (b.vis + 1)).map (· + n)) = .ok ((b.visChar.take (b.vis + 1)).map (· + n)) :=
      if_pos (by simp; omega)
    simp only [e1, e2, e3, e4, e5, e6, e7, e8, e9, e10, e11, Res.ok_bind, List.dropLast_concat]
  · unfold Bxs.prependSpaces
    rw [if_neg (by omega)]
    constructor <;> simp [nspaces] <;> omega

/-- C80: spaces are put behind such a string within the memory that is reserved for the result, which is such a string again. -/
theorem C80_append {b : Bxs} (h : Sized b) {n : Nat} (hn : 0 < n) :
    appendSpacesMem b n = .ok (b.appendSpaces n) ∧ Sized (b.appendSpaces n) := by
  obtain ⟨h1, h2, h3, h4⟩ := h
  constructor
  · unfold appendSpacesMem Bxs.appendSpaces
    rw [if_neg (by omega)]
    have e1 : readFirst b.memory b.numChars = .ok (b.memory.take b.numChars) := if_pos (by omega)
    have e2 : writeAt (b.numChars + n + 1) b.numChars (nspaces n) = .ok (nspaces n) := if_pos (by simp [nspaces])
    have e3 : writeAt (b.numChars + n + 1) (b.numChars + n) [0] = .ok [0] := if_pos (by simp)
    have e4 : readFirst b.ascii b.cols = .ok (b.ascii.take b.cols) := if_pos (by omega)
    have e5 : writeAt (b.cols + n + 1) b.cols (List.replicate n chSpace) = .ok (List.replicate n chSpace) := if_pos (by simp)
    have e6 : writeAt (b.cols + n + 1) (b.cols + n) [0] = .ok [0] := if_pos (by simp)
    have e7 : readFirst b.firstChar b.vis = .ok (b.firstChar.take b.vis) := if_pos (by omega)
    have e8 : writeAt (b.vis + n + 1) b.vis ((List.range (n + 1)).map (b.numChars + ·)) = .ok ((List.range (n + 1)).map (b.numChars + ·)) :=
      if_pos (by simp; omega)
    have e9 : readFirst b.visChar b.vis = .ok (b.visChar.take b.vis) := if_pos (by omega)
    simp only [e1, e2, e3, e4, e5, e6, e7, e8, e9, Res.ok_bind]
  · unfold Bxs.appendSpaces
    rw [if_neg (by omega)]
    constructor <;> simp [nspaces] <;> omega

example : ∃ b, fromUnicode sampleDb sampleText = some b ∧ Sized b ∧ Sized (b.prependSpaces 3) ∧ Sized ((b.prependSpaces 3).appendSpaces 2) := by
  obtain ⟨b, hb⟩ : ∃ b, fromUnicode sampleDb sampleText = some b := ⟨_, rfl⟩
  have h := C80_sized sampleDb hb
  have h' := (C80_prepend h (n := 3) (by omega)).2
  exact ⟨b, hb, h, h', (C80_append h' (by omega)).2⟩

/-- C80: tabs are expanded within the work string and the array of tab positions, for every tab distance that can be given. -/
theorem C80_expand (keep : Bool) (tabstop : Nat) (h1 : 1 ≤ tabstop) (h16 : tabstop ≤ 16) (s : Str) :
    expandTabsMem keep tabstop s = .ok (expandTabs keep tabstop s) := expandTabsMem_ok keep tabstop h1 h16 s

/-- C80: expanding tabs with any size of the work string and of the array of positions: it stays within them exactly if the string and its terminator
fit, and the positions (if there is an array for them). -/
theorem C80_expand_exact (cap tabCap ts : Nat) (h1 : 1 ≤ ts) : ∀ (s out : Str) (tabs : List Nat),
    expandLoopMem cap tabCap ts s out tabs =
      if (expandLoop ts s out tabs).1.length < cap ∧ (0 < tabCap → tabs.length < (expandLoop ts s out tabs).2.length → (expandLoop ts s out tabs).2.length ≤ tabCap) then
        .ok (expandLoop ts s out tabs) else .ub
  | [], out, tabs => by simp [expandLoopMem, expandLoop]
  | c :: s, out, tabs => by
    simp only [expandLoopMem, expandLoop]
    split
    · split
      · have hm := expandLoop_mono ts s (out ++ nspaces (ts - out.length % ts)) (tabs ++ [out.length])
        simp only [List.length_append, List.length_singleton, nspaces, List.length_replicate] at hm
        rw [if_neg (by omega)]
        split
        · rw [if_neg]; simp only [nspaces]; omega
        · split
          · rw [if_neg]; simp only [nspaces]; omega
          · rw [C80_expand_exact cap tabCap ts h1 s]
            congr 1
            simp only [nspaces, List.length_append, List.length_singleton]
            apply propext
            omega
      · have hm := expandLoop_mono ts s (out ++ [c]) tabs
        simp only [List.length_append, List.length_singleton] at hm
        split
        · rw [if_neg]; omega
        · exact C80_expand_exact cap tabCap ts h1 s _ _
    · simp

/-- C80: all of the input is read within the memory that is reserved for it, for any number of lines with any characters in them: no line
contains a tab when it is analysed. -/
theorem C80_input (db : CharDb) (hw : Widths db) (opt : Opt) (h1 : 1 ≤ opt.tabstop) (h16 : opt.tabstop ≤ 16) (junk : Nat)
    (pieces : List Str) : readLinesMem db opt junk pieces 0 0 = readLines db opt junk pieces := by
  have line : ∀ s, readLineMem db opt junk s = readLine db opt junk s := by
    intro s
    unfold readLineMem readLine
    cases trimCarefully db opt junk s with
    | fail n => rfl
    | ub => rfl
    | ok t =>
      simp only [Res.ok_bind, C80_expand _ _ h1 h16]
      split
      · split
        · rfl
        · have h : 0x09 ∉ (expandTabs (decide (opt.tabexp = 'k')) opt.tabstop t).1 := expandLoop_no_tab _ _ _ _ (by simp)
          rw [C80_no_tab_partial db hw _ h]
          cases fromUnicode db (expandTabs (decide (opt.tabexp = 'k')) opt.tabstop t).1 <;> rfl
      · rfl
  suffices h : ∀ (pieces : List Str) (n size : Nat), size = (n + 99) / 100 * 100 →
      readLinesMem db opt junk pieces n size = readLines db opt junk pieces from h pieces 0 0 rfl
  intro pieces
  induction pieces with
  | nil => intro n size _; simp [readLinesMem, readLines]
  | cons s r ih =>
    intro n size hs
    simp only [readLinesMem, readLines, line]
    have h : (if n % 100 = 0 then size + 100 else size) = (n + 1 + 99) / 100 * 100 := by split <;> omega
    rw [h, if_pos (by omega), ih _ _ rfl]

example : Widths sampleDb := sampleDb_widths

/-- C80: quotation marks and backslashes are escaped within the memory that is reserved for the result. -/
theorem C80_escape {org : Bxs} (h : Sized org) : escapeMem org = .ok (escapeText org org.memory 0 ++ [0]) := by
  have := escapeText_length org org.memory 0
  have h1 := h.chars
  exact if_pos (by simp; omega)

/-- C80: invisible characters are counted within the memory that is reserved, for any text. -/
theorem C80_count_safe (db : CharDb) (hw : Widths db) (s : Str) : countInvisible db s ≠ .ub := by
  unfold countInvisible
  split
  · simp
  · obtain ⟨st, h1, h2⟩ := ciLoop_safe db hw (strWidth db s + 1) s.length (CiState.init (strWidth db s + 1)) s (Nat.le_refl _)
      ⟨by simp [CiState.init]; omega, by simp [CiState.init]⟩ (by simp [CiState.init])
    simp only [h1, Res.ok_bind]
    rw [if_pos h2]
    simp

/-- C80: what is counted: the characters that belong to escape sequences, the sequences, the ASCII form of the visible characters and
the position of the character that each place of it stands for. -/
theorem C80_count (db : CharDb) (hw : Widths db) {s v a : Str} {m : List Nat} {n : Nat} (ht : Text s v) (h : ShownAs db 0 s a m n) :
    countInvisible db s = .ok (s.length - v.length, n, a, if s = [] then none else some m) := by
  unfold countInvisible
  split
  · rename_i h0
    subst h0
    generalize hs : ([] : Str) = s at h
    generalize hp : 0 = p at h
    cases h with
    | nil => simp; omega
    | vis c hc h' => simp at hs
    | esc e he h' => have := EscSeq.length_pos he; simp at hs; simp [hs.1] at this
  · obtain ⟨st, h1, h2, h3, h4, h5⟩ := ciLoop_shown db hw (strWidth db s + 1) h s.length (CiState.init (strWidth db s + 1)) (Nat.le_refl _)
      ⟨by simp [CiState.init]; omega, by simp [CiState.init]⟩ (by simp [CiState.init]) rfl
    obtain ⟨st2, g1, g2⟩ := ciLoop_safe db hw (strWidth db s + 1) s.length (CiState.init (strWidth db s + 1)) s (Nat.le_refl _)
      ⟨by simp [CiState.init]; omega, by simp [CiState.init]⟩ (by simp [CiState.init])
    rw [g1] at h1
    injection h1 with h1
    subst h1
    have h6 := h5 v ht
    simp only [g1, Res.ok_bind]
    rw [if_pos g2]
    simp only [CiState.init, List.nil_append, Nat.zero_add] at h2 h3 h4 h6
    rw [h2, h3, h4]
    have : st2.invis = s.length - v.length := by omega
    rw [this]

/-- Every text has such an ASCII form. -/
theorem C80_shown_exists (db : CharDb) {s v : Str} (h : Text s v) : ∀ pos, ∃ a m n, ShownAs db pos s a m n := by
  induction h with
  | nil => intro pos; exact ⟨_, _, _, .nil pos⟩
  | vis c hc _ ih => intro pos; obtain ⟨a, m, n, h⟩ := ih (pos + 1); exact ⟨_, _, _, .vis c hc h⟩
  | esc e he _ ih => intro pos; obtain ⟨a, m, n, h⟩ := ih (pos + e.length); exact ⟨_, _, _, .esc e he h⟩

example : countInvisible sampleDb sampleText ≠ .ub := C80_count_safe sampleDb sampleDb_widths sampleText

/-- C01: the constructor for generated text, on printable ASCII characters (which is all the program gives it), is `fromAscii`. -/
theorem C01_from_ascii_any (db : CharDb) (hw : Widths db) (s : Str) (hs : ∀ c ∈ s, 0x20 ≤ c ∧ c < 0x7f)
    (hc : ∀ c ∈ s, db.cntrl c = false) : fromAsciiAny db s = .ok (some (fromAscii s)) := by
  have hp : Text s s := Text.plain (fun c h h' => by have := hs c h; omega)
  obtain ⟨a, m, n, hsh⟩ := C80_shown_exists db hp 0
  have h := C80_count db hw hp hsh
  unfold fromAsciiAny
  have h1 : (s.all fun c => decide (c < 0x80)) = true := by
    rw [List.all_eq_true]; intro c hcs; have := hs c hcs; simp; omega
  have h2 : s.all (isAllowedAnywhere db) = true := by
    rw [List.all_eq_true]; intro c hcs; simp [isAllowedAnywhere, hc c hcs]
  simp only [h1, h2, Bool.not_true, Bool.false_eq_true, if_false, h, Res.ok_bind, Nat.sub_self, Res.sub, Nat.zero_le, if_true,
    Nat.sub_zero, fromAscii]

/-- The claim does not hold of texts with escape sequences: the position maps ignore them, and they are counted as columns. -/
theorem C01_from_ascii_any_disagrees :
    ∃ b, fromAsciiAny sampleDb [0x1b, 0x5b, 0x31, 0x6d, 0x78] = .ok (some b) ∧ b.vis = 1 ∧ b.invis = 4 ∧ b.visChar[0]? = some 0 ∧ b.cols = 5 := by
  refine ⟨_, rfl, ?_⟩; decide

/-- C01: the constructor for generated text refuses everything else than ASCII characters, and the characters that are not allowed. -/
theorem C01_from_ascii_refused (db : CharDb) (s : Str) (h : (∃ c ∈ s, 0x80 ≤ c) ∨ ∃ c ∈ s, Forbidden db c) : fromAsciiAny db s = .ok none := by
  unfold fromAsciiAny
  split
  · rfl
  · rename_i h1
    simp only [Bool.not_eq_true', Bool.not_eq_false, List.all_eq_true, decide_eq_true_eq] at h1
    rw [if_pos]
    obtain ⟨c, hc, hf⟩ : ∃ c ∈ s, Forbidden db c := by
      rcases h with ⟨c, hc, hf⟩ | h
      · exact absurd (h1 c hc) (by omega)
      · exact h
    simp only [Bool.not_eq_true', List.all_eq_false]
    exact ⟨c, hc, by rw [(allowed_iff db c).2 hf]; simp⟩

example : fromAsciiAny sampleDb [0x78, 0x07] = .ok none := C01_from_ascii_refused _ _ (.inr ⟨7, by simp, by unfold Forbidden; decide⟩)

end Boxes
