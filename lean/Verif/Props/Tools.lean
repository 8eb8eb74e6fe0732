import Verif.Lemmas.Tools2

/-!
# Properties C07, C08, C38, C41, C42, C43: tabs, words, identifiers, string helpers
-/
namespace Boxes
open Spec
set_option linter.unusedSimpArgs false

/-! ## C07 -/

/-- C07: the result is the expansion of the line, or of a prefix of it that already fills the length limit. -/
theorem C07_expand (keep : Bool) (ts : Nat) (hts : 1 ≤ ts) (s : Str) :
    ∃ a b, s = a ++ b ∧ Expand ts 0 a (expandTabs keep ts s).1 ∧
      (b = [] ∨ (expandTabs keep ts s).1.length ≥ lineMaxBytes - 12) := by
  obtain ⟨a, b, t, e1, e2, e3, e4, -⟩ := expandLoop_spec ts hts s [] []
  refine ⟨a, b, e1, ?_, ?_⟩
  · show Expand ts 0 a (expandLoop ts s [] []).1
    rw [e3]; simpa using e2
  · show b = [] ∨ (expandLoop ts s [] []).1.length ≥ _
    rw [e3]; exact e4

/-- C07: the work buffer of `LINE_MAX_BYTES + 100` characters is never overrun for the accepted tab stops (1 to 16). -/
theorem C07_buffer (keep : Bool) (ts : Nat) (hts : 1 ≤ ts) (hmax : ts ≤ 16) (s : Str) :
    (expandTabs keep ts s).1.length + 1 ≤ lineMaxBytes + 100 := by
  obtain ⟨a, b, t, e1, e2, e3, e4, e5, -⟩ := expandLoop_spec ts hts s [] []
  show (expandLoop ts s [] []).1.length + 1 ≤ _
  rw [e3]
  have := e5 (by simp; omega)
  simp only [lineMaxBytes] at this ⊢
  omega

/-- C07: no tab remains, and the other characters keep their order. -/
theorem C07_no_tabs (ts : Nat) {col : Nat} {s t : Str} (h : Expand ts col s t) :
    0x09 ∉ t ∧ t.filter (· ≠ 0x20) = s.filter (fun c => c ≠ 0x20 ∧ c ≠ 0x09) := by
  induction h with
  | nil => simp
  | char c hc _ ih =>
    refine ⟨by simp [ih.1]; exact fun h => hc h.symm, ?_⟩
    rw [List.filter_cons, List.filter_cons, ih.2]
    by_cases h : c = 0x20
    · simp [h]
    · simp [h, hc]
  | tab n h1 h2 h3 _ ih =>
    refine ⟨by simp [ih.1], ?_⟩
    rw [List.filter_append, List.filter_cons, ih.2]
    have : (List.replicate n 0x20).filter (fun c => decide (c ≠ 0x20)) = [] := by
      rw [List.filter_eq_nil_iff]
      intro c hc; simp [(List.mem_replicate.1 hc).2]
    rw [this]
    simp

/-- C07: in keep mode there is one recorded position per tab of the line, and that of every tab that was reached is the
column where the tab stood. -/
theorem C07_tab_positions (ts : Nat) (hts : 1 ≤ ts) (s : Str) :
    (expandTabs true ts s).2.length = s.count 0x09 ∧
    ∃ a b, s = a ++ b ∧ Expand ts 0 a (expandTabs true ts s).1 ∧
      (b = [] ∨ (expandTabs true ts s).1.length ≥ lineMaxBytes - 12) ∧
      ∀ p q tp, a = p ++ 0x09 :: q → Expand ts 0 p tp → (expandTabs true ts s).2[p.count 0x09]? = some tp.length := by
  obtain ⟨a, b, t, e1, e2, e3, e4, -, ps, e6, e7, e8⟩ := expandLoop_spec ts hts s [] []
  have hle : a.count 0x09 ≤ s.count 0x09 := by rw [e1, List.count_append]; omega
  have hpos : (expandTabs true ts s).2 =
      if s.count 0x09 > 0 then ps ++ List.replicate (s.count 0x09 - ps.length) 0 else [] := by
    simp only [expandTabs, if_true, e6, List.nil_append]
  constructor
  · rw [hpos]
    split
    · simp; omega
    · simp; omega
  · refine ⟨a, b, e1, ?_, ?_, ?_⟩
    · show Expand ts 0 a (expandLoop ts s [] []).1
      rw [e3]; simpa using e2
    · show b = [] ∨ (expandLoop ts s [] []).1.length ≥ _
      rw [e3]; exact e4
    · intro p q tp hp htp
      have := e8 p q hp tp (by simpa using htp)
      have hc : p.count 0x09 < a.count 0x09 := by rw [hp]; simp
      rw [hpos, if_pos (by omega), List.getElem?_append_left (by omega), this]
      simp

/-- C07: in the other modes no positions are recorded. -/
theorem C07_no_positions (ts : Nat) (s : Str) : (expandTabs false ts s).2 = [] := by simp [expandTabs]

example : expandTabs true 4 [0x61, 0x09, 0x62, 0x62, 0x09] =
    ([0x61, 0x20, 0x20, 0x20, 0x62, 0x62, 0x20, 0x20], [1, 6]) := by decide

/-! ## C08 -/

/-- C08: unexpanded indentation reaches the same column with the largest possible number of tabs, and has fewer than
`tabstop` spaces behind the tabs. -/
theorem C08_unexpand (ts : Nat) (hts : 1 ≤ ts) (indent : Nat) :
    Expand ts 0 (unexpandIndent ts indent) (List.replicate indent 0x20) ∧
    ∃ n k, unexpandIndent ts indent = List.replicate n 0x09 ++ List.replicate k 0x20 ∧ k < ts := by
  refine ⟨?_, _, _, rfl, Nat.mod_lt _ hts⟩
  have h1 := expand_tabs ts hts (indent / ts) 0 ⟨0, rfl⟩
  have h2 := h1.append (expand_spaces ts (indent % ts) _)
  rw [List.replicate_append_replicate, Nat.div_add_mod'] at h2
  exact h2

/-- C08 (partial): keep mode restores the same column, with tabs exactly at the recorded columns that fit, provided every
restored tab but the last covers a single column.  Missing: several tabs that cover more than one column, where the code
writes at positions of the expanded line into the already shortened string (`C08_two_tabs_disagree`). -/
theorem C08_keep_partial (ts : Nat) (hts : 1 ≤ ts) (indent : Nat) (tabpos : List Nat) (hinc : tabpos.Pairwise (· < ·))
    (hone : ∀ a b c, fitting ts indent tabpos = a ++ b :: c → c ≠ [] → ts ∣ b + 1) :
    ∃ r, tabbifyIndent ts indent tabpos indent = some r ∧ Expand ts 0 r (List.replicate indent 0x20) ∧
      ∀ i : Nat, r[i]? = some 0x09 ↔ i ∈ fitting ts indent tabpos := by
  unfold tabbifyIndent
  split
  · rename_i h0
    subst h0
    refine ⟨[], rfl, by simpa using Expand.nil _, ?_⟩
    have : fitting ts 0 tabpos = [] := by
      cases tabpos with
      | nil => rfl
      | cons t m =>
        have := Nat.mod_lt t hts
        unfold fitting
        rw [List.takeWhile_cons, if_neg]
        intro hh
        have := of_decide_eq_true hh
        unfold tabCols at this
        omega
    simp [this]
  · have hsp : ∀ i (h : i < (nspaces indent).length), (nspaces indent)[i] = 0x20 := by
      intro i h; simp [nspaces]
    obtain ⟨buf, b1, b2, b3, b4⟩ := tabbifyLoop_spec ts hts indent tabpos (nspaces indent) (by simp [nspaces])
      (fun i h => Or.inl (hsp i h)) hinc (fun i h hh => by rw [hsp i h] at hh; simp at hh) hone
    refine ⟨cstr buf, by rw [b1]; rfl, b2, ?_⟩
    intro i
    rw [b4 i]
    have : (nspaces indent)[i]? ≠ some 0x09 := by
      intro hh
      obtain ⟨h1, h2⟩ := List.getElem?_eq_some_iff.1 hh
      rw [hsp i h1] at h2; simp at h2
    simp [this]

example : tabbifyIndent 8 16 [7, 8] 16 = some ([0x20, 0x20, 0x20, 0x20, 0x20, 0x20, 0x20, 0x09, 0x09]) := by decide

/-- Two leading tabs, tab stop 8: the input's indentation of 16 columns comes out as one tab and one space, 9 columns. -/
theorem C08_two_tabs_disagree :
    expandTabs true 8 [0x09, 0x09, 0x61] = (List.replicate 16 0x20 ++ [0x61], [0, 8]) ∧
    tabbifyIndent 8 16 [0, 8] 16 = some [0x09, 0x20] := by decide

/-! ## C38 (words) -/

private theorem strnEq_one (c : Nat) (s : Str) (w : String) (hl : lit w = [c]) (hc : c < 0x41) :
    strnEq 2 (lit w) s = true ↔ Word w s := by
  rw [strnEq_iff _ _ _ (by rw [hl]; simp)]
  have hw : w.toList.map Char.toNat = [c] := hl
  unfold Word
  rw [hl, hw]
  constructor
  · intro h
    rw [← h]
    simp [lower, Char.toNat]; omega
  · intro h
    cases s with
    | nil => simp at h
    | cons x s =>
      cases s with
      | nil =>
        simp at h
        unfold lower at h
        split at h
        · rename_i hh; simp [Char.toNat] at hh; omega
        · rw [h]
      | cons y s => simp at h

/-- C38: exactly the documented words mean yes. -/
theorem C38_yes (s : Str) : strIsYes s = true ↔ Yes s := by
  have h1 := strnCaseEq_word 3 "on" s (by decide) (by decide)
  have h2 := strnCaseEq_word 4 "yes" s (by decide) (by decide)
  have h3 := strnCaseEq_word 5 "true" s (by decide) (by decide)
  have h4 := strnEq_one 0x31 s "1" (by decide) (by decide)
  have h5 := strnCaseEq_word 2 "t" s (by decide) (by decide)
  unfold strIsYes Yes
  rw [← h1, ← h2, ← h3, ← h4, ← h5]
  repeat' (first | (split; simp [*]))
  simp [*]

/-- C38: exactly the documented words mean no. -/
theorem C38_no (s : Str) : strIsNo s = true ↔ No s := by
  have h1 := strnCaseEq_word 4 "off" s (by decide) (by decide)
  have h2 := strnCaseEq_word 3 "no" s (by decide) (by decide)
  have h3 := strnCaseEq_word 6 "false" s (by decide) (by decide)
  have h4 := strnEq_one 0x30 s "0" (by decide) (by decide)
  have h5 := strnCaseEq_word 2 "f" s (by decide) (by decide)
  unfold strIsNo No
  rw [← h1, ← h2, ← h3, ← h4, ← h5]
  repeat' (first | (split; simp [*]))
  simp [*]

/-- C38: no word means both. -/
theorem C38_disjoint (s : Str) : ¬ (strIsYes s = true ∧ strIsNo s = true) := by
  rw [C38_yes, C38_no]
  rintro ⟨h1, h2⟩
  unfold Yes Word at h1
  unfold No Word at h2
  rcases h1 with h | h | h | h | h <;> rw [h] at h2 <;> revert h2 <;> decide

example : strIsYes (lit "TrUe") = true ∧ strIsNo (lit "OFF") = true ∧ strIsYes (lit "yess") = false := by decide

/-! ## C42 -/

/-- C42: concatenation of any number of strings (NULL counts as empty), in a buffer of exactly the right size. -/
theorem C42_concat (l : List (Option Str)) :
    concatStringsAlloc l = some ⟨((l.map (·.getD [])).flatten).length + 1, (l.map (·.getD [])).flatten⟩ := by
  unfold concatStringsAlloc
  split
  · rename_i h
    cases l with
    | nil => rfl
    | cons _ _ => simp at h
  · rw [concatLoop_eq _ _ (by simp), totalLen_eq]; simp

/-- C42: repetition. -/
theorem C42_repeat (s : Str) (n : Nat) :
    repeatStr s n = some ⟨n * s.length + 1, (List.replicate n s).flatten⟩ := by
  unfold repeatStr
  rw [repeatLoop_eq s n _ (by simp)]; simp

/-- C42: bounded duplication. -/
theorem C42_strndup (s : Str) (n : Nat) : bxStrndup s n = some ⟨(s.take n).length + 1, s.take n⟩ := bxStrndup_eq s n

/-- C42: trimming the range from index `i` to index `e` (inclusive) drops the spaces and tabs at both ends. -/
theorem C42_trimdup (str : Str) (i e : Nat) (hie : i ≤ e) (he : e < str.length) {x m y : Str}
    (hl : (str.take (e + 1)).drop i = x ++ m ++ y) (hx : ∀ c ∈ x, c = 0x20 ∨ c = 0x09) (hy : ∀ c ∈ y, c = 0x20 ∨ c = 0x09)
    (hm : m = [] ∨ (∃ a, m.head? = some a ∧ a ≠ 0x20 ∧ a ≠ 0x09) ∧ ∃ z, m.getLast? = some z ∧ z ≠ 0x20 ∧ z ≠ 0x09) :
    ∃ b, trimdup str i e = some b ∧ b.data = m ∧ b.cap = m.length + 1 := by
  have hp : ∀ c, isSpTab c = true ↔ c = 0x20 ∨ c = 0x09 := by intro c; simp [isSpTab, chSpace, chTab]
  have hpf : ∀ c, isSpTab c = false ↔ c ≠ 0x20 ∧ c ≠ 0x09 := by
    intro c; rw [← Bool.not_eq_true, hp]; simp [not_or]
  unfold trimdup
  rw [if_neg (by rw [List.getElem?_eq_getElem (by omega)]; simp; omega)]
  have h1 : trimFwd str (str.length + 1) i (e : Int) = i + (((str.take (e + 1)).drop i).takeWhile isSpTab).length :=
    trimFwd_eq str _ i e he (by omega) (by omega)
  simp only [h1]
  rcases hm with rfl | ⟨⟨a, ha, hpa⟩, z, hz, hpz⟩
  · have htw : ((str.take (e + 1)).drop i).takeWhile isSpTab = (str.take (e + 1)).drop i := by
      rw [hl]
      have : ∀ c ∈ x ++ [] ++ y, isSpTab c = true := by
        intro c hc; simp at hc; rw [hp]; rcases hc with h | h
        · exact hx c h
        · exact hy c h
      generalize x ++ [] ++ y = w at this
      induction w with
      | nil => rfl
      | cons d w ih =>
        rw [List.takeWhile_cons, if_pos (this d (by simp)), ih (fun c hc => this c (by simp [hc]))]
    rw [htw]
    have hlen : i + ((str.take (e + 1)).drop i).length = e + 1 := by simp; omega
    rw [hlen]
    have hb : trimBack str (e + 1) (str.length + 1) (e : Int) = e := by
      unfold trimBack; rw [if_neg (by omega)]
    rw [hb, C42_strndup]
    have : ((e : Int) - ((e + 1 : Nat) : Int) + 1).toNat = 0 := by omega
    rw [this]
    exact ⟨_, rfl, by simp, by simp⟩
  · cases m with
    | nil => simp at ha
    | cons c m =>
      simp at ha
      subst ha
      have htw : ((str.take (e + 1)).drop i).takeWhile isSpTab = x := by
        rw [hl, List.append_assoc, List.takeWhile_append_of_pos (fun d hd => (hp d).2 (hx d hd))]
        simp [(hpf c).2 hpa]
      rw [htw]
      have hlen : ((str.take (e + 1)).drop i).length = e + 1 - i := by simp; omega
      have hlen2 : x.length + (m.length + 1) + y.length = e + 1 - i := by
        rw [← hlen, hl]; simp; omega
      have hdrop : (str.take (e + 1)).drop (i + x.length) = (c :: m) ++ y := by
        rw [← List.drop_drop, hl, List.append_assoc]; simp
      have hsc : str[i + x.length]? = some c := by
        have h2 := congrArg (·[0]?) hdrop
        simp only [List.getElem?_drop, List.cons_append, List.getElem?_cons_zero, Nat.add_zero] at h2
        rw [List.getElem?_take_of_lt (by omega)] at h2
        exact h2
      have hb := trimBack_eq str (i + x.length) (str.length + 1) e he (by omega) (by omega)
        (by rw [hsc]; simp [(hpf c).2 hpa])
      rw [hb, hdrop]
      have htw2 : ((c :: m) ++ y).reverse.takeWhile isSpTab = y.reverse := by
        rw [List.reverse_append, List.takeWhile_append_of_pos (by intro d hd; exact (hp d).2 (hy d (by simpa using hd)))]
        rw [List.getLast?_eq_head?_reverse] at hz
        cases hr : (c :: m).reverse with
        | nil => simp at hr
        | cons d r =>
          rw [hr] at hz
          simp at hz
          subst hz
          simp [(hpf d).2 hpz]
      rw [htw2, C42_strndup]
      have hn : ((e : Int) - (y.reverse.length : Nat) - ((i + x.length : Nat) : Int) + 1).toNat = (c :: m).length := by
        simp; omega
      rw [hn]
      have htk : (str.drop (i + x.length)).take (c :: m).length = c :: m := by
        have h3 : ((str.take (e + 1)).drop (i + x.length)).take (c :: m).length = c :: m := by rw [hdrop]; simp
        rw [List.drop_take, List.take_take, Nat.min_eq_left (by simp; omega)] at h3
        exact h3
      rw [htk]
      exact ⟨_, rfl, rfl, rfl⟩

/-- C42: trimming an empty or reversed range, or the empty string, gives the empty string. -/
theorem C42_trimdup_empty (str : Str) (i : Nat) (e : Int) (h : e < i ∨ (str = [] ∧ e = i)) :
    trimdup str i e = some ⟨1, []⟩ := by
  unfold trimdup
  rw [if_pos]
  rcases h with h | ⟨rfl, h⟩
  · left; omega
  · right; exact ⟨h.symm, by simp⟩

/-- C42: the number of trailing characters from a set. -/
theorem C42_strrspn (s accept x y : Str) (c : Nat) (hs : s = x ++ c :: y) (hc : c ∉ accept) (hy : ∀ d ∈ y, d ∈ accept) :
    myStrrspn s accept = y.length := by
  unfold myStrrspn
  rw [if_neg (by rw [hs]; simp)]
  split
  · rename_i h
    have : accept = [] := List.eq_nil_of_length_eq_zero h
    subst this
    cases y with
    | nil => rfl
    | cons d y => simpa using hy d (by simp)
  · rw [strrspnLoop_eq, hs, List.reverse_append, List.reverse_cons, List.append_assoc, List.takeWhile_append_of_pos]
    · simp [hc]
    · intro d hd; simpa using hy d (by simpa using hd)

/-- C42: if all characters are from the set, their number (0 for the empty set). -/
theorem C42_strrspn_all (s accept : Str) (hy : ∀ d ∈ s, d ∈ accept) : myStrrspn s accept = s.length := by
  unfold myStrrspn
  split
  · omega
  · split
    · rename_i h0 h
      have : accept = [] := List.eq_nil_of_length_eq_zero h
      subst this
      cases s with
      | nil => simp at h0
      | cons d y => simpa using hy d (by simp)
    · rw [strrspnLoop_eq, ← List.length_reverse (as := s)]
      have : ∀ d ∈ s.reverse, accept.contains d = true := by
        intro d hd; simpa using hy d (by simpa using hd)
      generalize s.reverse = w at this
      induction w with
      | nil => rfl
      | cons d w ih =>
        rw [List.takeWhile_cons, if_pos (this d (by simp)), List.length_cons, ih (fun c hc => this c (by simp [hc]))]
        rfl

example : trimdup (lit " \tab c ") 0 6 = some ⟨5, lit "ab c"⟩ ∧ (repeatStr (lit "ab") 3).map (·.data) = some (lit "ababab") ∧
    (concatStringsAlloc [some (lit "a"), none, some (lit "bc")]).map (·.data) = some (lit "abc") := by decide

/-! ## C43 -/

/-- C43: a result is the right-most position at which the needle occurs; there is no result exactly if it does not occur. -/
theorem C43_last_occurrence (h n : Str) (hn : n ≠ []) :
    (∀ p, strnrstr h n n.length = some p → OccursAt h n p ∧ ∀ q, OccursAt h n q → q ≤ p) ∧
    (strnrstr h n n.length = none ↔ ∀ p, ¬ OccursAt h n p) := by
  cases n with
  | nil => exact absurd rfl hn
  | cons c n =>
    -- an occurrence needs the first character
    have hfirst : ∀ q, OccursAt h (c :: n) q → h[q]? = some c := by
      rintro q ⟨a, b, rfl, rfl⟩
      simp
    have hocc : ∀ p, strnEq (c :: n).length (h.drop p) (c :: n) = true ↔ OccursAt h (c :: n) p := by
      intro p
      rw [strnEq_prefix, occursAt_iff]
      constructor
      · intro hp
        refine ⟨?_, hp⟩
        obtain ⟨t, ht⟩ := hp
        have := congrArg List.length ht
        simp at this; omega
      · exact fun hp => hp.2
    have key : (∀ p, strnrstr h (c :: n) (c :: n).length = some p →
        OccursAt h (c :: n) p ∧ ∀ q, OccursAt h (c :: n) q → q ≤ p) ∧
        (strnrstr h (c :: n) (c :: n).length = none → ∀ p, ¬ OccursAt h (c :: n) p) := by
      unfold strnrstr
      simp only
      split
      · rename_i h0
        have : h = [] := List.eq_nil_of_length_eq_zero h0
        subst this
        refine ⟨by simp, fun _ p hp => ?_⟩
        have := hfirst p hp; simp at this
      · cases hr : strrchr h c with
        | none =>
          refine ⟨by simp, fun _ p hp => ?_⟩
          exact (strrchr_spec h c).2 hr p (hfirst p hp)
        | some p0 =>
          have hs := (strrchr_spec h c).1 p0 hr
          have hl := strnrstrLoop_spec h (c :: n) (c :: n).length p0
          have hle : ∀ q, OccursAt h (c :: n) q → q ≤ p0 := by
            intro q hq
            rcases Nat.lt_or_ge p0 q with hlt | hge
            · exact absurd (hfirst q hq) (hs.2 q hlt)
            · exact hge
          refine ⟨?_, ?_⟩
          · intro p hp
            obtain ⟨h1, h2, h3⟩ := hl.1 p hp
            refine ⟨(hocc p).1 h2, ?_⟩
            intro q hq
            rcases Nat.lt_or_ge p q with hlt | hge
            · have := h3 q hlt (hle q hq)
              rw [(hocc q).2 hq] at this; simp at this
            · exact hge
          · intro hn' q hq
            have := hl.2 hn' q (hle q hq)
            rw [(hocc q).2 hq] at this; simp at this
    refine ⟨key.1, key.2, ?_⟩
    intro hno
    cases hr : strnrstr h (c :: n) (c :: n).length with
    | none => rfl
    | some p => exact absurd (key.1 p hr).1 (hno p)

/-- C43: the empty needle is found at the beginning. -/
theorem C43_empty_needle (h : Str) (n : Nat) : strnrstr h [] n = some 0 := rfl

/-- C43: with a length below that of the needle only that many characters are searched for. -/
theorem C43_prefix (h n : Str) (k : Nat) (hk : 0 < k) (hkn : k ≤ n.length) :
    strnrstr h n k = strnrstr h (n.take k) (n.take k).length := by
  have hlen : (n.take k).length = k := by simp; omega
  rw [hlen]
  have hloop : ∀ p, strnrstrLoop h n k p = strnrstrLoop h (n.take k) k p := by
    have he : ∀ a, strnEq k a n = strnEq k a (n.take k) := by
      intro a
      rw [Bool.eq_iff_iff, strnEq_take k a n hkn, strnEq_take k a (n.take k) (by omega), List.take_take, Nat.min_self]
    intro p
    induction p with
    | zero => unfold strnrstrLoop; rw [he]
    | succ p ih => unfold strnrstrLoop; rw [he, ih]
  cases n with
  | nil => simp at hkn; omega
  | cons c n =>
    obtain ⟨k', rfl⟩ : ∃ k', k = k' + 1 := ⟨k - 1, by omega⟩
    simp only [strnrstr, List.take_succ_cons]
    simp only [List.take_succ_cons] at hloop
    split
    · rfl
    · cases strrchr h c with
      | none => rfl
      | some p => exact hloop p

example : strnrstr (lit "abcabcx") (lit "abc") 3 = some 3 ∧ strnrstr (lit "abca") (lit "ca") 2 = some 2 ∧
    strnrstr (lit "abca") (lit "cb") 2 = none := by decide

end Boxes
