import Verif.Lemmas.BxsOps2

/-!
# Properties C01–C06: analysed text lines (`bxstr_t`)

`Text s v` (Verif/Spec/Text.lean): `s` consists of the visible characters `v` and complete escape sequences.
-/
namespace Boxes
open Spec
set_option linter.unusedSimpArgs false

/-- Sample text for the examples: `ESC[31m`, `a`, space, `ESC[0m`, `ESCM`, U+4e00 (wide), space, space, `ESC[m`. -/
def sampleText : Str := [0x1b, 0x5b, 0x33, 0x31, 0x6d, 0x61, 0x20, 0x1b, 0x5b, 0x30, 0x6d, 0x1b, 0x4d, 0x4e00, 0x20,
  0x20, 0x1b, 0x5b, 0x6d]
/-- Its visible part. -/
def sampleVis : Str := [0x61, 0x20, 0x4e00, 0x20, 0x20]

theorem sampleText_ok : Text sampleText sampleVis := by
  refine Text.esc [0x1b, 0x5b, 0x33, 0x31, 0x6d]
    (EscSeq.csi 0x5b [0x33, 0x31] 0x6d (by decide) (by decide) (by decide) (by decide)) ?_
  refine Text.vis _ (by decide) (Text.vis _ (by decide) ?_)
  refine Text.esc [0x1b, 0x5b, 0x30, 0x6d] (EscSeq.csi 0x5b [0x30] 0x6d (by decide) (by decide) (by decide) (by decide)) ?_
  refine Text.esc [0x1b, 0x4d] (EscSeq.two 0x4d (by decide) (by decide) (by decide)) ?_
  refine Text.vis _ (by decide) (Text.vis _ (by decide) (Text.vis _ (by decide) ?_))
  exact Text.esc [0x1b, 0x5b, 0x6d] (EscSeq.csi 0x5b [] 0x6d (by decide) (by decide) (by decide) (by decide)) Text.nil

@[simp] private theorem bxsOf_memory (db : CharDb) (ts : List Tok) : (bxsOf db ts).memory = flat ts := rfl
@[simp] private theorem emptyBxs_memory : emptyBxs.memory = [] := rfl

private theorem takeWhile_self {α} {p : α → Bool} : ∀ {l : List α}, l.all p = true → l.takeWhile p = l
  | [], _ => rfl
  | a :: l, h => by
    simp only [List.all_cons, Bool.and_eq_true] at h
    rw [List.takeWhile_cons, if_pos h.1, takeWhile_self h.2]

/-! ## C01 -/

/-- C01: a line is rejected exactly if one of its visible characters is a forbidden control character. -/
theorem C01_rejected_iff (db : CharDb) {s v : Str} (h : Text s v) :
    fromUnicode db s = none ↔ ∃ c ∈ v, Forbidden db c := by
  obtain ⟨ts, -, -, -, h4⟩ := fromUnicode_text db h
  rw [h4]
  constructor
  · intro hn
    split at hn
    · simp at hn
    · rename_i ha
      rw [List.all_eq_true] at ha
      simp only [Classical.not_forall] at ha
      obtain ⟨c, hc, hf⟩ := ha
      exact ⟨c, hc, (allowed_iff db c).1 (by simpa using hf)⟩
  · rintro ⟨c, hc, hf⟩
    rw [if_neg]
    intro ha
    have := List.all_eq_true.1 ha c hc
    rw [(allowed_iff db c).2 hf] at this
    simp at this

/-- C01: the metrics of every accepted line. -/
theorem C01_metrics (db : CharDb) {s v : Str} {b : Bxs} (h : Text s v) (hb : fromUnicode db s = some b) :
    b.memory = s ∧ b.numChars = s.length ∧ b.vis = v.length ∧ b.vis + b.invis = s.length ∧
    b.cols = columns db v ∧ b.ascii.length = columns db v ∧
    b.indent = columns db (v.takeWhile (fun c => decide (Blank db c))) ∧
    ((∀ c ∈ v, Blank db c) → b.trailing = 0) ∧
    (∀ x c y, v = x ++ c :: y → ¬ Blank db c → (∀ d ∈ y, Blank db d) → b.trailing = y.length) := by
  obtain ⟨ts, h1, h2, h3, -, rfl⟩ := fromUnicode_text_some db h hb
  subst h2 h3
  have hle := vis_le_len db ts
  refine ⟨rfl, rfl, rfl, by simp only [bxsOf]; omega, rfl, ?_, ?_, ?_, ?_⟩
  · exact bxs_ascii_length db _
  · simp only [bxsOf, isBlank_fun]
  · intro hbl
    have : (visOf ts).all (isBlank db) = true := by
      rw [List.all_eq_true]; intro c hc; rw [isBlank_iff]; simpa using hbl c hc
    simp [bxsOf, this]
  · intro x c y hv hc hy
    have hcb : isBlank db c = false := by rw [isBlank_iff]; simpa using hc
    have : ¬ (visOf ts).all (isBlank db) = true := by rw [hv]; simp [hcb]
    simp only [bxsOf]
    rw [if_neg this, hv, List.reverse_append, List.reverse_cons, List.append_assoc, List.takeWhile_append_of_pos]
    · simp [hcb]
    · intro d hd; rw [isBlank_iff]; simpa using hy d (by simpa using hd)

/-- C01: the ASCII form of every accepted line. -/
theorem C01_ascii (db : CharDb) {s v : Str} {b : Bxs} (h : Text s v) (hb : fromUnicode db s = some b) :
    b.ascii = asciiForm db v := by
  obtain ⟨ts, h1, h2, h3, -, rfl⟩ := fromUnicode_text_some db h hb
  subst h2 h3
  exact ascii_eq db _

example : (fromUnicode sampleDb sampleText).map (·.ascii) = some [0x61, 0x20, 0x78, 0x78, 0x20, 0x20] := by decide

example : ∃ b, fromUnicode sampleDb sampleText = some b ∧ b.cols = 6 ∧ b.vis = 5 ∧ b.invis = 14 ∧ b.trailing = 2 := by
  refine ⟨_, rfl, ?_⟩; decide

/-- The two-character form `ESC x` with `x` outside `@`..`_` is *not* covered by C01: it is counted as one invisible
character although two are skipped, so visible and invisible characters do not add up (see DESIGN.md, disagreements). -/
theorem C01_malformed_escape_disagrees :
    ∃ b, fromUnicode sampleDb [0x1b, 0x61, 0x62] = some b ∧ b.vis + b.invis ≠ b.numChars := by
  refine ⟨_, rfl, ?_⟩; decide

/-! ## C02 -/

private theorem take_drop_split {l x y : List Nat} {c i : Nat} (h : l = x ++ c :: y) (hx : x.length = i) :
    x = l.take i ∧ y = l.drop (i + 1) := by
  subst hx; rw [h]; simp

/-- C02: entry `i` of the maps.  `p` is the text in front of the `i`-th visible character and its own escape sequence
`e`; `e` is empty unless the sequence directly in front is not a reset. -/
theorem C02_position_maps (db : CharDb) {s v : Str} {b : Bxs} (h : Text s v) (hb : fromUnicode db s = some b)
    (i : Nat) (hi : i < v.length) :
    ∃ p e q, s = p ++ e ++ v[i] :: q ∧ Text p (v.take i) ∧ Text q (v.drop (i + 1)) ∧
      b.firstChar[i]? = some p.length ∧ b.visChar[i]? = some (p.length + e.length) ∧
      ((EscSeq e ∧ ¬ ResetSeq e) ∨
        (e = [] ∧ ∀ p' e', p = p' ++ e' → Text p' (v.take i) → EscSeq e' → ResetSeq e')) := by
  obtain ⟨ts, h1, h2, h3, -, rfl⟩ := fromUnicode_text_some db h hb
  subst h2 h3
  have hf : (bxsOf db ts).firstChar[i]? = (firstPos 0 none ts)[i]? := by
    simp only [bxsOf]
    rw [List.getElem?_append_left (by rw [firstPos_length]; exact hi)]
  obtain ⟨u1, u2, hu1, hu2, hu3⟩ := visChar_at db ts i hi
  -- the token in front of which `i` visible characters stand is unique
  have huniq : ∀ (a1 : List Tok) (c : Nat) (a2 : List Tok) (b1 : List Tok) (d : Nat) (b2 : List Tok),
      a1 ++ .inl c :: a2 = b1 ++ .inl d :: b2 → (visOf a1).length = (visOf b1).length → a1 = b1 := by
    intro a1
    induction a1 with
    | nil =>
      intro c a2 b1 d b2 he hl
      cases b1 with
      | nil => rfl
      | cons t b1 =>
        simp at he
        rw [← he.1] at hl
        simp at hl
    | cons t a1 ih =>
      intro c a2 b1 d b2 he hl
      cases b1 with
      | nil =>
        simp at he
        rw [he.1] at hl
        simp at hl
      | cons t' b1 =>
        simp at he
        obtain ⟨rfl, he⟩ := he
        rw [ih c a2 b1 d b2 he]
        cases t <;> simp at hl <;> exact hl
  rcases firstPos_split ts 0 i none hi with hh | hh | hh
  · obtain ⟨k, d, t2, hk, _⟩ := hh; simp at hk
  · obtain ⟨t1, c, t2, e1, e2, e3, -, e5⟩ := hh
    have e5 : (firstPos 0 none ts)[i]? = some (flat t1).length := by simpa using e5
    have : u1 = t1 := huniq u1 _ u2 t1 c t2 (by rw [← hu1, e1]) (by omega)
    subst this
    have hok1 : Oks u1 := (hu1 ▸ h1).append_left
    have hok2 : Oks u2 := (hu1 ▸ h1).append_right.tail
    have hvs : visOf ts = visOf u1 ++ (visOf ts)[i] :: visOf u2 := by
      conv => lhs; rw [hu1]
      simp
    obtain ⟨hv1, hv2⟩ := take_drop_split hvs hu2
    refine ⟨flat u1, [], flat u2, ?_, hv1 ▸ text_of_toks hok1, hv2 ▸ text_of_toks hok2, by rw [hf, e5], by simpa using hu3,
      Or.inr ⟨rfl, ?_⟩⟩
    · conv => lhs; rw [hu1]
      simp
    · intro p' e' hp ht he
      obtain ⟨tp, ht1, ht2, ht3⟩ := ht.toks
      have hok : Oks (tp ++ [.inr e']) := ht1.append (Oks.cons he Oks.nil)
      have := toks_unique hok1 hok (by simp [hp, ht2])
      rw [← isReset_iff he]
      cases hr : isReset e' with
      | true => rfl
      | false => exact absurd ⟨tp, e', this, hr⟩ e3
  · obtain ⟨t1, e, c, t2, e1, e2, e3, e5⟩ := hh
    have e5 : (firstPos 0 none ts)[i]? = some (flat t1).length := by simpa using e5
    have : u1 = t1 ++ [.inr e] := huniq u1 _ u2 (t1 ++ [.inr e]) c t2 (by rw [← hu1, e1]; simp) (by simp; omega)
    subst this
    have hok1 : Oks (t1 ++ [.inr e]) := (hu1 ▸ h1).append_left
    have hok2 : Oks u2 := (hu1 ▸ h1).append_right.tail
    have hvs : visOf ts = visOf t1 ++ (visOf ts)[i] :: visOf u2 := by
      conv => lhs; rw [hu1]
      simp
    obtain ⟨hv1, hv2⟩ := take_drop_split hvs e2
    have he : EscSeq e := hok1.append_right.hd
    refine ⟨flat t1, e, flat u2, ?_, hv1 ▸ text_of_toks hok1.append_left, hv2 ▸ text_of_toks hok2, by rw [hf, e5],
      by simpa using hu3, Or.inl ⟨he, ?_⟩⟩
    · conv => lhs; rw [hu1]
      simp
    · intro hr
      rw [← isReset_iff he] at hr
      rw [hr] at e3
      simp at e3

/-- C02: both maps have one entry more than there are visible characters; the last one is the terminator's index. -/
theorem C02_terminator (db : CharDb) {s v : Str} {b : Bxs} (h : Text s v) (hb : fromUnicode db s = some b) :
    b.firstChar.length = v.length + 1 ∧ b.visChar.length = v.length + 1 ∧
    b.firstChar[v.length]? = some s.length ∧ b.visChar[v.length]? = some s.length := by
  obtain ⟨ts, h1, h2, h3, -, rfl⟩ := fromUnicode_text_some db h hb
  subst h2 h3
  refine ⟨by simp [bxsOf, firstPos_length], by simp [bxsOf, visPos_length], ?_, ?_⟩
  · simp only [bxsOf]
    rw [List.getElem?_append_right (by simp [firstPos_length])]
    simp [firstPos_length]
  · simp only [bxsOf]
    rw [List.getElem?_append_right (by simp [visPos_length])]
    simp [visPos_length]

example : ∃ b, fromUnicode sampleDb sampleText = some b ∧ b.firstChar = [0, 6, 11, 14, 15, 19] ∧
    b.visChar = [5, 6, 13, 14, 15, 19] := by
  refine ⟨_, rfl, ?_⟩; decide

/-! ## C03 -/

/-- C03: what is printed. -/
theorem C03_output (db : CharDb) {s v : Str} {b : Bxs} (h : Text s v) (hb : fromUnicode db s = some b) :
    b.toOutput true = some s ∧ b.toOutput false = some v := by
  obtain ⟨ts, h1, h2, h3, -, rfl⟩ := fromUnicode_text_some db h hb
  subst h2 h3
  exact ⟨rfl, filterVisible_toks db ts h1⟩

example : (fromUnicode sampleDb sampleText).bind (·.toOutput false) = some sampleVis := by decide

/-! ## C04 -/

/-- C04: right-trimming a line that has a non-blank character. -/
theorem C04_rtrim (db : CharDb) {s v : Str} {b : Bxs} (h : Text s v) (hb : fromUnicode db s = some b)
    (hnb : ∃ c ∈ v, ¬ Blank db c) :
    ∃ r, b.rtrim db = some r ∧ fromUnicode db r.memory = some r ∧ r.memory <+: s ∧
      Text r.memory (dropTrailing db v) := by
  obtain ⟨ts, h1, h2, h3, h4, rfl⟩ := fromUnicode_text_some db h hb
  subst h2 h3
  have hna : ¬ (visOf ts).all (isBlank db) = true := by
    obtain ⟨c, hc, hcb⟩ := hnb
    intro ha
    have := List.all_eq_true.1 ha c hc
    rw [isBlank_iff] at this; simp at this; exact hcb this
  rw [dropTrailing_eq_take]
  have htr : (bxsOf db ts).trailing = ((visOf ts).reverse.takeWhile (isBlank db)).length := by
    simp only [bxsOf]; rw [if_neg hna]
  have hle : ((visOf ts).reverse.takeWhile (isBlank db)).length ≤ (visOf ts).length := by
    have := (List.takeWhile_sublist (p := isBlank db) (l := (visOf ts).reverse)).length_le
    simpa using this
  unfold Bxs.rtrim
  rw [htr]
  split
  · rename_i h0
    refine ⟨_, rfl, fromUnicode_ok db ts h1 h4, List.prefix_rfl, ?_⟩
    rw [h0]; simpa using text_of_toks h1
  · obtain ⟨t1, t2, e1, e2, e3⟩ := firstChar_cut db ts ((visOf ts).length -
      ((visOf ts).reverse.takeWhile (isBlank db)).length) (by omega)
    have hv : (bxsOf db ts).vis = (visOf ts).length := rfl
    rw [hv, if_neg (by omega), e3]
    have hm : (bxsOf db ts).memory.take (flat t1).length = flat t1 := by
      show (flat ts).take _ = _
      conv => lhs; rw [e1]
      simp
    have hv1 := (visOf_split (t2 := t2) e2).1
    rw [← e1] at hv1
    have hok1 : Oks t1 := (e1 ▸ h1).append_left
    have hall : (visOf t1).all (isAllowedAnywhere db) = true :=
      all_allowed_sub h4 (fun x hx => by rw [hv1] at hx; exact List.mem_of_mem_take hx)
    simp only [Option.bind_eq_bind, Option.bind_some, hm]
    refine ⟨_, fromUnicode_ok db t1 hok1 hall, fromUnicode_ok db t1 hok1 hall, ?_, ?_⟩
    · exact ⟨flat t2, by conv => rhs; rw [e1]
                         simp [bxsOf]⟩
    · rw [← hv1]; exact text_of_toks hok1

/-- C04: a line of blanks only is left unchanged by right-trimming. -/
theorem C04_rtrim_blank (db : CharDb) {s v : Str} {b : Bxs} (h : Text s v) (hb : fromUnicode db s = some b)
    (hbl : ∀ c ∈ v, Blank db c) : b.rtrim db = some b := by
  have := (C01_metrics db h hb).2.2.2.2.2.2.2.1 hbl
  simp [Bxs.rtrim, this]

/-- C04: full trimming, blanks being one column wide. -/
theorem C04_trim (db : CharDb) {s v : Str} {b : Bxs} (h : Text s v) (hb : fromUnicode db s = some b)
    (hnar : NarrowBlanks db v) :
    ∃ r, b.trim db = some r ∧ fromUnicode db r.memory = some r ∧
      Text r.memory (dropTrailing db (v.dropWhile (fun c => decide (Blank db c)))) := by
  obtain ⟨ts, h1, h2, h3, h4, rfl⟩ := fromUnicode_text_some db h hb
  subst h2 h3
  rw [← isBlank_fun]
  have hind : (bxsOf db ts).indent = ((visOf ts).takeWhile (isBlank db)).length := by
    simp only [bxsOf]; exact columns_takeWhile_narrow db hnar
  have hdw : (visOf ts).dropWhile (isBlank db) = (visOf ts).drop ((visOf ts).takeWhile (isBlank db)).length := by
    have h2 := List.takeWhile_append_dropWhile (p := isBlank db) (l := visOf ts)
    have h3 : ((visOf ts).takeWhile (isBlank db) ++ (visOf ts).dropWhile (isBlank db)).drop
      ((visOf ts).takeWhile (isBlank db)).length = (visOf ts).dropWhile (isBlank db) := List.drop_left
    rw [h2] at h3
    exact h3.symm
  have hvis : (bxsOf db ts).vis = (visOf ts).length := rfl
  unfold Bxs.trim
  rw [hind, hvis, hdw]
  by_cases hall : (visOf ts).all (isBlank db) = true
  · have htw : (visOf ts).takeWhile (isBlank db) = visOf ts := takeWhile_self hall
    have htr : (bxsOf db ts).trailing = 0 := by simp only [bxsOf]; rw [if_pos hall]
    rw [htr, htw]
    have hd : (visOf ts).drop (visOf ts).length = [] := by simp
    rw [hd]
    split
    · rename_i h0
      refine ⟨_, rfl, fromUnicode_ok db ts h1 h4, ?_⟩
      have hnil : visOf ts = [] := List.eq_nil_of_length_eq_zero h0.1
      have := text_of_toks h1
      rw [hnil] at this
      simpa [dropTrailing] using this
    · rw [if_pos (by omega)]
      exact ⟨_, rfl, fromUnicode_nil db, by simpa [dropTrailing] using Text.nil⟩
  · have htr : (bxsOf db ts).trailing = ((visOf ts).reverse.takeWhile (isBlank db)).length := by
      simp only [bxsOf]; rw [if_neg hall]
    -- leading and trailing blanks do not overlap
    have hlt : ((visOf ts).takeWhile (isBlank db)).length + ((visOf ts).reverse.takeWhile (isBlank db)).length
        < (visOf ts).length := by
      have hsplit := List.takeWhile_append_dropWhile (p := isBlank db) (l := visOf ts)
      generalize ha : (visOf ts).takeWhile (isBlank db) = a at *
      generalize hd : (visOf ts).dropWhile (isBlank db) = d at *
      have haall : a.all (isBlank db) = true := by rw [← ha]; exact List.all_takeWhile
      have hnd : ¬ d.all (isBlank db) = true := by
        intro hd'; apply hall; rw [← hsplit, List.all_append, haall, hd']; rfl
      have hl := takeWhile_length_lt (p := isBlank db) (l := d.reverse) (by simpa using hnd)
      rw [← hsplit, List.reverse_append, List.takeWhile_append, if_neg (by omega), List.length_append]
      simp at hl ⊢
      omega
    rw [htr]
    have hdt : dropTrailing db ((visOf ts).drop ((visOf ts).takeWhile (isBlank db)).length) =
        ((visOf ts).take ((visOf ts).length - ((visOf ts).reverse.takeWhile (isBlank db)).length)).drop
          ((visOf ts).takeWhile (isBlank db)).length := by
      rw [dropTrailing_eq_take, List.drop_take]
      have hsplit := List.takeWhile_append_dropWhile (p := isBlank db) (l := visOf ts)
      have hnd : ¬ ((visOf ts).drop ((visOf ts).takeWhile (isBlank db)).length).all (isBlank db) = true := by
        rw [← hdw]
        intro hd'; apply hall; rw [← hsplit, List.all_append, hd', List.all_takeWhile]; rfl
      have hrev : (visOf ts).reverse.takeWhile (isBlank db) =
          ((visOf ts).drop ((visOf ts).takeWhile (isBlank db)).length).reverse.takeWhile (isBlank db) := by
        conv => lhs; rw [← hsplit, hdw]
        rw [List.reverse_append, List.takeWhile_append, if_neg]
        have := takeWhile_length_lt (p := isBlank db)
          (l := ((visOf ts).drop ((visOf ts).takeWhile (isBlank db)).length).reverse) (by simpa using hnd)
        omega
      rw [hrev, List.length_drop]
      congr 1
      omega
    split
    · rename_i h0
      refine ⟨_, rfl, fromUnicode_ok db ts h1 h4, ?_⟩
      rw [hdt, h0.1, h0.2]
      simpa using text_of_toks h1
    · rw [if_neg (by omega), if_neg (by omega)]
      obtain ⟨p, q, t, e1, e2, e3, e4, e5, e6⟩ := cut_between db ts h1
        (i := ((visOf ts).takeWhile (isBlank db)).length)
        (j := (visOf ts).length - ((visOf ts).reverse.takeWhile (isBlank db)).length) (by omega) (by omega)
      rw [e1, e2]
      have hall2 : (visOf t).all (isAllowedAnywhere db) = true :=
        all_allowed_sub h4 (fun x hx => by rw [e6] at hx; exact List.mem_of_mem_take (List.mem_of_mem_drop hx))
      have e5' : ((bxsOf db ts).memory.take q).drop p = flat t := e5
      simp only [Option.bind_eq_bind, Option.bind_some, e3, if_true, e5']
      refine ⟨_, fromUnicode_ok db t e4 hall2, fromUnicode_ok db t e4 hall2, ?_⟩
      rw [hdt, ← e6]; exact text_of_toks e4

example : ((fromUnicode sampleDb sampleText).bind (·.rtrim sampleDb)).bind (·.toOutput false) =
    some [0x61, 0x20, 0x4e00] := by decide

/-! ## C05 -/

/-- C05: prepending spaces equals re-analysis. -/
theorem C05_prepend (db : CharDb) (hs : Sane db) {s v : Str} {b : Bxs} (h : Text s v) (hb : fromUnicode db s = some b)
    (n : Nat) : fromUnicode db (List.replicate n 0x20 ++ s) = some (b.prependSpaces n) := by
  obtain ⟨ts, h1, h2, h3, h4, rfl⟩ := fromUnicode_text_some db h hb
  subst h2 h3
  rw [prepend_toks hs]
  have := fromUnicode_ok db (spToks n ++ ts) ((oks_spToks n).append h1)
    (by rw [visOf_append, List.all_append, h4, visOf_spToks, nspaces_all (allowed_space hs)]; rfl)
  rw [← this, flat_append, flat_spToks]; rfl

/-- C05: appending spaces to a line with a non-blank character equals re-analysis, except that the first-character map
may differ when the line ends with an escape sequence that is not a reset. -/
theorem C05_append (db : CharDb) (hs : Sane db) {s v : Str} {b : Bxs} (h : Text s v) (hb : fromUnicode db s = some b)
    (hnb : ∃ c ∈ v, ¬ Blank db c) (n : Nat) :
    ∃ r, fromUnicode db (s ++ List.replicate n 0x20) = some r ∧
      { b.appendSpaces n with firstChar := r.firstChar } = r ∧
      ((∀ p e, s = p ++ e → Text p v → EscSeq e → ResetSeq e) → b.appendSpaces n = r) := by
  obtain ⟨ts, h1, h2, h3, h4, rfl⟩ := fromUnicode_text_some db h hb
  subst h2 h3
  have hna : ¬ (visOf ts).all (isBlank db) = true := by
    obtain ⟨c, hc, hcb⟩ := hnb
    intro ha
    have := List.all_eq_true.1 ha c hc
    rw [isBlank_iff] at this; simp at this; exact hcb this
  have ha := append_toks hs ts n hna
  have := fromUnicode_ok db (ts ++ spToks n) (h1.append (oks_spToks n))
    (by rw [visOf_append, List.all_append, h4, visOf_spToks, nspaces_all (allowed_space hs)]; rfl)
  rw [flat_append, flat_spToks] at this
  refine ⟨_, this, ?_, ?_⟩
  · have h5 := ha.1
    simp only [Bxs.mk.injEq] at h5
    obtain ⟨e1, e2, e3, e4, e5, e6, e7, e8, -, e10⟩ := h5
    simp only [e1, e2, e3, e4, e5, e6, e7, e8, e10]
  · intro hend
    apply ha.2
    rintro ⟨t1, e, ht, he⟩
    have hok : Oks (t1 ++ [.inr e]) := ht ▸ h1
    have hee : EscSeq e := hok.append_right.hd
    have := hend (flat t1) e (by rw [ht]; simp) (by
      have := text_of_toks hok.append_left
      rw [ht]; simpa using this) hee
    rw [← isReset_iff hee] at this
    rw [this] at he; simp at he

example : ((fromUnicode sampleDb sampleText).map (·.appendSpaces 3)) =
    fromUnicode sampleDb (sampleText ++ [0x20, 0x20, 0x20]) := by decide +kernel

/-- On a line of blanks only, appending spaces disagrees with re-analysis: the appended blanks count as trailing, although a
line of blanks has no trailing space (see DESIGN.md, disagreements). -/
theorem C05_append_blank_disagrees :
    (fromUnicode sampleDb [0x20]).map (·.appendSpaces 1) ≠ fromUnicode sampleDb [0x20, 0x20] := by decide

/-! ## C06 -/

theorem firstChar_from (db : CharDb) {s v : Str} {b : Bxs} (h : Text s v) (hb : fromUnicode db s = some b) (n : Nat) :
    ∃ k, b.firstChar[if n ≥ b.vis then b.vis else n]? = some k ∧ From n s v (s.drop k) ∧ (n ≤ v.length → Text (s.take k) (v.take n)) := by
  have hm := C01_metrics db h hb
  rw [hm.2.2.1]
  split
  · rename_i hge
    refine ⟨s.length, (C02_terminator db h hb).2.2.1, Or.inl ⟨hge, by simp⟩, ?_⟩
    intro _
    rw [List.take_length, List.take_of_length_le hge]
    exact h
  · rename_i hlt
    obtain ⟨a, e, q, h1, h2, h3, h4, -, h6⟩ := C02_position_maps db h hb n (by omega)
    have hd : s.drop a.length = e ++ v[n] :: q := by rw [h1]; simp
    have ht : s.take a.length = a := by rw [h1]; simp
    refine ⟨a.length, h4, ?_, fun _ => by rw [ht]; exact h2⟩
    rw [hd]
    exact Or.inr ⟨a, e, v[n], q, by rw [h1]; simp, rfl, List.getElem?_eq_getElem (by omega), h2, h3, h6⟩

/-- C06: cutting `n` visible characters from the front.  What is left begins with visible character number `n` (see `From` for the escape
sequences in front of it); nothing is lost if nothing is to be cut from a text with visible characters. -/
theorem C06_cut_front (db : CharDb) {s v : Str} {b : Bxs} (h : Text s v) (hb : fromUnicode db s = some b) (n : Nat) :
    ∃ r, b.cutFront db n = some r ∧ fromUnicode db r.memory = some r ∧ Text r.memory (v.drop n) ∧ r.memory <:+ s ∧
      (n = 0 → v ≠ [] → r.memory = s) ∧ (0 < n → From n s v r.memory) := by
  have hfrom := firstChar_from db h hb n
  obtain ⟨ts, h1, h2, h3, h4, rfl⟩ := fromUnicode_text_some db h hb
  subst h2 h3
  unfold Bxs.cutFront
  have hvis : (bxsOf db ts).vis = (visOf ts).length := rfl
  rw [hvis]
  split
  · rename_i hn
    refine ⟨_, rfl, fromUnicode_nil db, ?_, List.nil_suffix, ?_, fun _ => .inl ⟨hn, rfl⟩⟩
    · rw [List.drop_of_length_le hn]; exact Text.nil
    · intro h0 hv
      exact absurd (List.eq_nil_of_length_eq_zero (by omega)) hv
  · split
    · rename_i h0
      subst h0
      exact ⟨_, rfl, fromUnicode_ok db ts h1 h4, by simpa using text_of_toks h1, List.suffix_rfl, fun _ _ => rfl, by omega⟩
    · obtain ⟨t1, t2, e1, e2, e3⟩ := firstChar_cut db ts n (by omega)
      rw [e3]
      have hm : (bxsOf db ts).memory.drop (flat t1).length = flat t2 := by
        show (flat ts).drop _ = _
        conv => lhs; rw [e1]
        simp
      have hv2 := (visOf_split (t2 := t2) e2).2
      rw [← e1] at hv2
      have hok2 : Oks t2 := (e1 ▸ h1).append_right
      have hall : (visOf t2).all (isAllowedAnywhere db) = true :=
        all_allowed_sub h4 (fun x hx => by rw [hv2] at hx; exact List.mem_of_mem_drop hx)
      simp only [Option.bind_eq_bind, Option.bind_some, hm]
      refine ⟨_, fromUnicode_ok db t2 hok2 hall, fromUnicode_ok db t2 hok2 hall, ?_, ?_, by omega, fun _ => ?_⟩
      · rw [← hv2]; exact text_of_toks hok2
      · exact ⟨flat t1, by conv => rhs; rw [e1]
                           simp [bxsOf]⟩
      · obtain ⟨k, k1, k2, -⟩ := hfrom
        rw [hvis, if_neg (by omega), e3] at k1
        obtain rfl := Option.some.inj k1
        have : (flat ts).drop (flat t1).length = flat t2 := hm
        rw [this] at k2
        exact k2

/-- `Texts ss vs`: the strings `ss` have the visible texts `vs`. -/
inductive Texts : List Str → List Str → Prop
  | nil : Texts [] []
  | cons {s v ss vs} : Text s v → Texts ss vs → Texts (s :: ss) (v :: vs)

theorem Texts.flatten {ss vs : List Str} (h : Texts ss vs) : Text ss.flatten vs.flatten := by
  induction h with
  | nil => exact Text.nil
  | cons h _ ih => exact h.append ih

/-- C06: concatenation concatenates visible texts and adds columns. -/
theorem C06_concat (db : CharDb) {ss vs : List Str} (h : Texts ss vs) (hok : ∀ v ∈ vs, ∀ c ∈ v, ¬ Forbidden db c) :
    ∃ r, bxsConcat db (ss.map some) = some r ∧ r.memory = ss.flatten ∧ Text r.memory vs.flatten ∧
      r.cols = (vs.map (columns db)).sum ∧ fromUnicode db r.memory = some r := by
  have ht := h.flatten
  have hf : ¬ ∃ c ∈ vs.flatten, Forbidden db c := by
    rintro ⟨c, hc, hfc⟩
    obtain ⟨v, hv, hcv⟩ := List.mem_flatten.1 hc
    exact hok v hv c hcv hfc
  have hcols : columns db vs.flatten = (vs.map (columns db)).sum := by
    clear h ht hok hf
    induction vs with
    | nil => rfl
    | cons v vs ih => simp [columns_append, ih]
  have hmem : (ss.map some).flatMap (fun p => p.getD [0x28, 0x4e, 0x55, 0x4c, 0x4c, 0x29]) = ss.flatten := by
    clear h ht
    induction ss with
    | nil => rfl
    | cons s ss ih => rw [List.map_cons, List.flatMap_cons, ih]; rfl
  cases hfu : fromUnicode db ss.flatten with
  | none => exact absurd ((C01_rejected_iff db ht).1 hfu) hf
  | some r =>
    have hm := C01_metrics db ht hfu
    unfold bxsConcat
    split
    · rename_i hl
      have : ss = [] := by
        cases ss with
        | nil => rfl
        | cons _ _ => simp at hl
      subst this
      cases h
      refine ⟨_, rfl, rfl, Text.nil, rfl, fromUnicode_nil db⟩
    · rw [hmem, hfu]
      exact ⟨r, rfl, hm.1, hm.1 ▸ ht, by rw [hm.2.2.2.2.1, hcols], by rw [hm.1]; exact hfu⟩

/-- C06: `bxs_strcat` is concatenation followed by analysis. -/
theorem C06_strcat (db : CharDb) {s v t w : Str} {b : Bxs} (h : Text s v) (hb : fromUnicode db s = some b)
    (h' : Text t w) (hok : ∀ c ∈ w, ¬ Forbidden db c) :
    ∃ r, b.strcat db t = some r ∧ fromUnicode db (s ++ t) = some r := by
  obtain ⟨m1, m2, m3, -⟩ := C01_metrics db h hb
  have hs : ¬ ∃ c ∈ v, Forbidden db c := by
    intro hh; rw [← C01_rejected_iff db h, hb] at hh; simp at hh
  unfold Bxs.strcat
  rw [m1, m2, List.take_length]
  split
  · rename_i h0
    have : t = [] := List.eq_nil_of_length_eq_zero h0
    subst this
    exact ⟨b, rfl, by simpa using hb⟩
  · cases hfu : fromUnicode db (s ++ t) with
    | none =>
      obtain ⟨c, hc, hf⟩ := (C01_rejected_iff db (h.append h')).1 hfu
      rcases List.mem_append.1 hc with hc | hc
      · exact absurd ⟨c, hc, hf⟩ hs
      · exact absurd hf (hok c hc)
    | some r =>
      split
      · rename_i h0
        have : s = [] := List.eq_nil_of_length_eq_zero h0
        subst this
        exact ⟨r, by simpa using hfu, rfl⟩
      · exact ⟨r, rfl, rfl⟩

/-- C06: slicing by positions returns exactly the slice (positions behind the end mean the end), and fails only if the end
lies before the start or the slice is not accepted as text. -/
theorem C06_substr (db : CharDb) {s : Str} {b : Bxs} (hm : b.memory = s) (hn : b.numChars = s.length) (i j : Nat) :
    (∀ r, b.substr db i j = some r → fromUnicode db ((s.take j).drop i) = some r) ∧
    (b.substr db i j = none ↔ (j < i ∧ j < s.length) ∨ fromUnicode db ((s.take j).drop i) = none) := by
  unfold Bxs.substr
  rw [hm, hn]
  have key : (s.take (if j > s.length then s.length else j)).drop (if i > s.length then s.length else i) =
      (s.take j).drop i := by
    have h1 : s.take (if j > s.length then s.length else j) = s.take j := by
      split
      · rw [List.take_length, List.take_of_length_le (by omega)]
      · rfl
    rw [h1]
    split
    · rw [List.drop_of_length_le (by simp; omega), List.drop_of_length_le (by simp; omega)]
    · rfl
  simp only [key]
  have hiff : (if j > s.length then s.length else j) < (if i > s.length then s.length else i) ↔ j < i ∧ j < s.length := by
    split <;> split <;> omega
  simp only [hiff]
  constructor
  · intro r hr
    split at hr
    · simp at hr
    · exact hr
  · constructor
    · intro hr
      split at hr
      · rename_i hlt; exact Or.inl hlt
      · exact Or.inr hr
    · rintro (hlt | hfu)
      · rw [if_pos hlt]
      · split
        · rfl
        · exact hfu

example : ∃ b, fromUnicode sampleDb sampleText = some b ∧
    (b.cutFront sampleDb 2).bind (·.toOutput false) = some [0x4e00, 0x20, 0x20] ∧
    (b.substr sampleDb 5 7).map (·.memory) = some [0x61, 0x20] := by
  refine ⟨_, rfl, ?_⟩; decide

/-- C06: copying visible characters `i`..`j` without the Unicode blanks around them.  `x` and `y` are the blanks dropped in
front and behind; what remains is empty or begins and ends with a non-blank. -/
theorem C06_trimdup (db : CharDb) {s v : Str} {b : Bxs} (h : Text s v) (hb : fromUnicode db s = some b)
    (i j : Nat) (hij : i ≤ j) (hj : j ≤ v.length) {x m y : Str} (hl : (v.take j).drop i = x ++ m ++ y)
    (hx : ∀ c ∈ x, db.ucBlank c = true) (hy : ∀ c ∈ y, db.ucBlank c = true)
    (hm : m = [] ∨ (∃ a, m.head? = some a ∧ db.ucBlank a = false) ∧ ∃ z, m.getLast? = some z ∧ db.ucBlank z = false) :
    ∃ r, b.trimdup db i j = some r ∧ fromUnicode db r.memory = some r ∧ Text r.memory m := by
  obtain ⟨ts, h1, h2, h3, h4, rfl⟩ := fromUnicode_text_some db h hb
  subst h2 h3
  obtain ⟨t, e1, e2, e3⟩ := trimdup_toks db ts h1 h4 i j hij hj hl hx hy hm
  have hall : (visOf t).all (isAllowedAnywhere db) = true := by
    apply all_allowed_sub h4
    intro c hc
    rw [e2] at hc
    have : c ∈ ((visOf ts).take j).drop i := by rw [hl]; simp [hc]
    exact List.mem_of_mem_take (List.mem_of_mem_drop this)
  exact ⟨_, e3, fromUnicode_ok db t e1 hall, e2 ▸ text_of_toks e1⟩

/-- C06: `bxs_trimdup` refuses ranges outside the visible characters and reversed ranges. -/
theorem C06_trimdup_range (db : CharDb) (b : Bxs) (i j : Nat) (h : i > b.vis ∨ j > b.vis ∨ j < i) :
    b.trimdup db i j = none := by
  unfold Bxs.trimdup
  split
  · rfl
  · split
    · rfl
    · rw [if_pos (by omega)]

/-- C06: left-trimming drops the leading blanks, at most `max`, and keeps the rest. -/
theorem C06_ltrim (db : CharDb) (hs : Sane db) {s v : Str} {b : Bxs} (h : Text s v) (hb : fromUnicode db s = some b)
    (max : Nat) :
    ∃ r, b.ltrim db max = some r ∧ r <:+ s ∧
      Text r (v.drop (min max (v.takeWhile (fun c => decide (Blank db c))).length)) := by
  obtain ⟨ts, h1, h2, h3, h4, rfl⟩ := fromUnicode_text_some db h hb
  subst h2 h3
  obtain ⟨t, e1, e2, e3, e4⟩ := ltrim_toks db hs ts h1 max
  refine ⟨_, e4, e3, ?_⟩
  rw [← isBlank_fun, ← e2]
  exact text_of_toks e1

/-- C06: a line counts as blank if every visible character is a tab, a carriage return or a Unicode blank. -/
theorem C06_is_blank (db : CharDb) {s v : Str} {b : Bxs} (h : Text s v) (hb : fromUnicode db s = some b) :
    b.isBlankStr db = true ↔ ∀ c ∈ v, Blank db c ∨ c = 0x0d := by
  obtain ⟨ts, h1, h2, h3, h4, rfl⟩ := fromUnicode_text_some db h hb
  subst h2 h3
  rw [isBlankStr_toks, List.all_eq_true]
  constructor
  · intro hh c hc
    have := hh c hc
    simp [chTab, chCr] at this
    simp only [Blank]
    rcases this with (h | h) | h
    · exact Or.inl (Or.inl h)
    · exact Or.inr h
    · exact Or.inl (Or.inr h)
  · intro hh c hc
    rcases hh c hc with (h | h) | h
    · simp [h, chTab]
    · simp [h]
    · simp [h, chCr]

/-- C06: a position counts as visible exactly if it is the position of one of the visible characters. -/
theorem C06_is_visible (db : CharDb) {s v : Str} {b : Bxs} (h : Text s v) (hb : fromUnicode db s = some b) (idx : Nat) :
    b.isVisibleChar idx = true ↔
      ∃ p c q vp vq, s = p ++ c :: q ∧ p.length = idx ∧ Text p vp ∧ Text q vq ∧ c ≠ 0x1b := by
  obtain ⟨ts, h1, h2, h3, h4, rfl⟩ := fromUnicode_text_some db h hb
  subst h2 h3
  rw [isVisibleChar_iff]
  constructor
  · rintro ⟨i, hi, hv⟩
    obtain ⟨u1, u2, hu1, hu2, hu3⟩ := visChar_at db ts i hi
    rw [hu3] at hv
    have hok : Oks (u1 ++ .inl (visOf ts)[i] :: u2) := hu1 ▸ h1
    refine ⟨flat u1, (visOf ts)[i], flat u2, _, _, ?_, by simpa using hv, text_of_toks hok.append_left,
      text_of_toks hok.append_right.tail, hok.append_right.hd⟩
    conv => lhs; rw [hu1]
    simp
  · rintro ⟨p, c, q, vp, vq, hs, hp, htp, htq, hc⟩
    obtain ⟨tp, ep1, ep2, ep3⟩ := htp.toks
    obtain ⟨tq, eq1, eq2, eq3⟩ := htq.toks
    have : ts = tp ++ .inl c :: tq := by
      apply toks_unique h1 (ep1.append (Oks.cons (t := .inl c) hc eq1))
      rw [hs]; simp [ep2, eq2]
    refine ⟨(visOf tp).length, by rw [this]; simp, ?_⟩
    have hlt : (visOf tp).length < (visOf ts).length := by rw [this]; simp
    simp only [bxsOf]
    rw [List.getElem?_append_left (by rw [visPos_length]; exact hlt), this, visPos_append,
      List.getElem?_append_right (by rw [visPos_length]; omega)]
    simp [visPos_length, visPos, ep2, hp]

/-- C06: searching a character from visible index `start` finds the first visible occurrence. -/
theorem C06_strchr (db : CharDb) {s v : Str} {b : Bxs} (h : Text s v) (hb : fromUnicode db s = some b) (c start : Nat) :
    (∀ i, b.strchr c start = some i → start ≤ i ∧ v[i]? = some c ∧ ∀ k, start ≤ k → k < i → v[k]? ≠ some c) ∧
    (b.strchr c start = none → ∀ k, start ≤ k → v[k]? ≠ some c) := by
  obtain ⟨ts, h1, h2, h3, h4, rfl⟩ := fromUnicode_text_some db h hb
  subst h2 h3
  have hm : ∀ i, i < (visOf ts).length →
      ((((bxsOf db ts).visChar[i]?).bind ((bxsOf db ts).memory[·]?) == some c) = true ↔ (visOf ts)[i]? = some c) := by
    intro i hi
    rw [memory_at_visChar db ts i hi, List.getElem?_eq_getElem hi]
    simp
  unfold Bxs.strchr
  have hvis : (bxsOf db ts).vis = (visOf ts).length := rfl
  rw [hvis]
  constructor
  · intro i hf
    have h1 := List.find?_some hf
    have h2 := List.mem_of_find?_eq_some hf
    rw [List.mem_range'_1] at h2
    have hi : i < (visOf ts).length := by omega
    refine ⟨h2.1, (hm i hi).1 h1, ?_⟩
    intro k hk1 hk2 hk3
    rw [List.find?_range'_eq_some] at hf
    have := hf.2.2 k hk1 hk2
    have hk' := (hm k (by omega)).2 hk3
    rw [hk'] at this
    simp at this
  · intro hf k hk hkc
    have hk' : k < (visOf ts).length := (List.getElem?_eq_some_iff.1 hkc).1
    rw [List.find?_eq_none] at hf
    exact hf k (by rw [List.mem_range'_1]; omega) ((hm k hk').2 hkc)

example : ∃ b, fromUnicode sampleDb sampleText = some b ∧
    (b.trimdup sampleDb 1 5).bind (·.toOutput false) = some [0x4e00] ∧ b.ltrim sampleDb 3 = some sampleText ∧
    b.isBlankStr sampleDb = false ∧ b.isVisibleChar 13 = true ∧ b.isVisibleChar 12 = false ∧
    b.strchr 0x20 2 = some 3 := by
  refine ⟨_, rfl, ?_⟩; decide

end Boxes
