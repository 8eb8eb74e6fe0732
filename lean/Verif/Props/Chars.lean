import Verif.Props.Parse
import Verif.Lemmas.Scanner
import Verif.Lemmas.Config2

/-!
# C63: characters allowed in the parts of a configuration file
-/
set_option linter.unusedSimpArgs false
namespace Boxes
open Spec

/-- text without characters that would end or disturb a line of output -/
def Spec.Inline (db : CharDb) (s : Str) : Prop := ∀ c ∈ s, ¬ Forbidden db c ∧ c ≠ '\r'.toNat ∧ c ≠ '\n'.toNat

instance (db : CharDb) (c : Nat) : Decidable (Forbidden db c) := by unfold Forbidden; infer_instance
instance (db : CharDb) (s : Str) : Decidable (Inline db s) := by unfold Inline; infer_instance

theorem allowedInShape_iff (db : CharDb) (c : Nat) : isAllowedInShape db c = true ↔ ¬ Forbidden db c ∧ c ≠ '\r'.toNat ∧ c ≠ '\n'.toNat := by
  have h : isAllowedAnywhere db c = true ↔ ¬ Forbidden db c := by
    rw [← allowed_iff]; simp
  simp [isAllowedInShape, h, chCr, chNl, and_assoc]

theorem allowedInFilename_iff (db : CharDb) (c : Nat) : isAllowedInFilename db c = true ↔
    (¬ Forbidden db c ∧ c ≠ '\r'.toNat ∧ c ≠ '\n'.toNat) ∧ c ≠ 0x1b := by
  have h : isAllowedAnywhere db c = true ↔ ¬ Forbidden db c := by
    rw [← allowed_iff]; simp
  simp [isAllowedInFilename, h, chCr, chNl, chEsc, and_assoc]

theorem validInShape_iff (db : CharDb) {s v : Str} {b : Bxs} (h : Text s v) (hb : fromUnicode db s = some b) :
    b.validInShape db = true ↔ v ≠ [] ∧ Inline db s := by
  have hm := C01_metrics db h hb
  simp only [Bxs.validInShape, Bxs.validIn, hm.1, hm.2.2.1, Bool.and_eq_true, decide_eq_true_eq, List.all_eq_true, Inline,
    allowedInShape_iff]
  rw [← List.length_pos_iff]

/-- C63: the first line of a shape is accepted exactly if it has a visible character, and neither control characters nor line
breaks; a control character outside of escape sequences is not survived. -/
theorem C63_first_shape_line (db : CharDb) {s v : Str} (h : Text s v) :
    (firstShapeLine db s = .ub ↔ ∃ c ∈ v, Forbidden db c) ∧
    (∀ sh, firstShapeLine db s = .ok sh ↔ v ≠ [] ∧ Inline db s ∧ ∃ b, fromUnicode db s = some b ∧
      sh = { emptyShape with width := columns db v, height := 1, lines := [b] }) := by
  cases hb : fromUnicode db s with
  | none =>
    have := (C01_rejected_iff db h).1 hb
    simp [firstShapeLine, hb, this]
  | some b =>
    have hn : ¬ ∃ c ∈ v, Forbidden db c := fun e => by
      rw [(C01_rejected_iff db h).2 e] at hb; simp at hb
    have hv := validInShape_iff db h hb
    have hm := C01_metrics db h hb
    constructor
    · simp only [firstShapeLine, hb]
      split <;> simp [hn]
    · intro sh
      simp only [firstShapeLine, hb]
      split
      · rename_i hx
        simp at hx
        constructor
        · intro h; simp at h
        · rintro ⟨h1, h2, -⟩
          rw [hv.2 ⟨h1, h2⟩] at hx
          simp at hx
      · rename_i hx
        simp at hx
        have := hv.1 hx
        simp [this, hm.2.2.2.2.1, eq_comm]

/-- C63: a further line of a shape must have the width of the shape, too. -/
theorem C63_shape_line (db : CharDb) (shape : Shape) {s v : Str} (h : Text s v) :
    (addShapeLine db shape s = .ub ↔ ∃ c ∈ v, Forbidden db c) ∧
    (∀ sh, addShapeLine db shape s = .ok sh ↔ columns db v = shape.width ∧ v ≠ [] ∧ Inline db s ∧ ∃ b, fromUnicode db s = some b ∧
      sh = { shape with height := shape.height + 1, lines := shape.lines ++ [b] }) := by
  cases hb : fromUnicode db s with
  | none =>
    have := (C01_rejected_iff db h).1 hb
    simp [addShapeLine, hb, this]
  | some b =>
    have hn : ¬ ∃ c ∈ v, Forbidden db c := fun e => by
      rw [(C01_rejected_iff db h).2 e] at hb; simp at hb
    have hv := validInShape_iff db h hb
    have hm := C01_metrics db h hb
    constructor
    · simp only [addShapeLine, hb]
      split
      · simp [hn]
      · split <;> simp [hn]
    · intro sh
      simp only [addShapeLine, hb, hm.2.2.2.2.1]
      split
      · rename_i hx
        simp at hx
        simp [hx]
      · rename_i hx
        simp at hx
        split
        · rename_i hy
          simp at hy
          constructor
          · intro h; simp at h
          · rintro ⟨-, h1, h2, -⟩
            rw [hv.2 ⟨h1, h2⟩] at hy
            simp at hy
        · rename_i hy
          simp at hy
          have := hv.1 hy
          simp [this, hx, eq_comm]

/-- C63: the file name of a parent has no control characters, line breaks or escape sequences, and is not empty; the file can be
opened. -/
theorem C63_parent (env : ParseEnv) (path : Str) (p : Bxs) (h : resolveParent env path = some p) :
    env.globalConfig = some p ∨ (0x1b ∉ p.memory ∧ Inline env.db p.memory ∧ p.isEmpty = false ∧
      env.canOpen p = true) := by
  unfold resolveParent at h
  simp only [Option.bind_eq_bind, Option.bind_eq_some_iff] at h
  obtain ⟨raw, hr, q, hq, h⟩ := h
  split at h
  · simp at h
  · rename_i he
    split at h
    · exact Or.inl h
    · split at h
      · simp at h
      · rename_i hv
        split at h
        · rename_i hc
          simp at h
          subst h
          simp only [Bxs.validInFilename, Bxs.validIn, Bool.not_eq_true', Bool.not_eq_false, Bool.and_eq_true, decide_eq_true_eq,
            List.all_eq_true, allowedInFilename_iff] at hv
          exact Or.inr ⟨fun hx => (hv.2 _ hx).2 rfl, fun c hcm => (hv.2 c hcm).1, by simpa using he, hc⟩
        · simp at h


theorem trim_sub {db : CharDb} {b r : Bxs} (h : b.trim db = some r) : ∀ c ∈ r.memory, c ∈ b.memory := by
  intro c hc
  unfold Bxs.trim at h
  split at h
  · simp at h; subst h; exact hc
  · split at h
    · simp at h; subst h; simp [emptyBxs] at hc
    · split at h
      · simp at h
      · simp only [Option.bind_eq_bind, Option.bind_eq_some_iff] at h
        obtain ⟨e, -, st, -, h⟩ := h
        split at h
        · rw [fromUnicode_memory h] at hc
          exact List.mem_of_mem_take (List.mem_of_mem_drop hc)
        · rw [fromUnicode_memory h] at hc
          exact List.mem_of_mem_drop hc

/-- C63: the file meant by a parent line, for names without escape sequences, control characters and double-width blanks: blanks
around the name do not count, `:global:` (in any case) is the global configuration, an empty name, a line break inside and a file
that cannot be opened are errors. -/
theorem C63_parent_exact (env : ParseEnv) (path m : Str) (hesc : 0x1b ∉ path) (hok : ∀ c ∈ path, ¬ Forbidden env.db c)
    (hnar : NarrowBlanks env.db path)
    (hm : m = dropTrailing env.db (path.dropWhile (fun c => decide (Blank env.db c)))) :
    ∃ b, fromUnicode env.db m = some b ∧ resolveParent env path =
      if m = [] then none
      else if SameName (asciiForm env.db m) (lit ":global:") then env.globalConfig
      else if Inline env.db m ∧ env.canOpen b = true then some b else none := by
  have ht := text_of_no_esc hesc
  cases hb : fromUnicode env.db path with
  | none => obtain ⟨c, hc, hf⟩ := (C01_rejected_iff _ ht).1 hb; exact absurd hf (hok c hc)
  | some raw =>
    obtain ⟨r, h1, h2, h3⟩ := C04_trim env.db ht hb hnar
    rw [← hm] at h3
    have hsub : ∀ c ∈ r.memory, c ∈ path := by
      intro c hc
      have := trim_sub h1 c hc
      rwa [fromUnicode_memory hb] at this
    have hr : r.memory = m := Spec.Text.unique (text_of_no_esc (fun hc => hesc (hsub _ hc))) h3
    rw [hr] at h2
    refine ⟨r, h2, ?_⟩
    unfold resolveParent
    simp only [hb, h1, Option.bind_eq_bind, Option.bind_some]
    have hlen := C01_metrics env.db h3 (by rw [hr]; exact h2)
    have he : r.isEmpty = true ↔ m = [] := by
      simp [Bxs.isEmpty, hlen.2.1, hr, List.length_eq_zero_iff]
    have hg : strCaseEq r.ascii (lit ":global:") = true ↔ SameName (asciiForm env.db m) (lit ":global:") := by
      rw [sameName_iff, C01_ascii env.db h3 (by rw [hr]; exact h2)]
    by_cases e : m = []
    · rw [if_pos (he.2 e), if_pos e]
    · rw [if_neg (fun h => e (he.1 h)), if_neg e]
      by_cases g : SameName (asciiForm env.db m) (lit ":global:")
      · rw [if_pos (hg.2 g), if_pos g]
      · rw [if_neg (fun h => g (hg.1 h)), if_neg g]
        have hv : r.validInFilename env.db = true ↔ Inline env.db m := by
          have hv1 : 0 < r.vis := by
            rw [hlen.2.2.1]
            cases m with
            | nil => exact absurd rfl e
            | cons => simp
          have hv2 : r.invis = 0 := by
            have h4 := hlen.2.2.1
            have h5 := hlen.2.2.2.1
            rw [hr] at h5
            omega
          have h27 : 0x1b ∉ m := fun h => hesc (hsub _ (hr ▸ h))
          simp only [Bxs.validInFilename, Bxs.validIn, hv1, hv2, decide_true, Bool.true_and, List.all_eq_true, allowedInFilename_iff, hr,
            Inline]
          exact ⟨fun h c hc => (h c hc).1, fun h c hc => ⟨h c hc, fun hx => h27 (hx ▸ hc)⟩⟩
        by_cases hi : Inline env.db m
        · rw [if_neg (by simp [hv.2 hi])]
          simp [hi]
        · rw [if_pos (by simpa using fun h => hi (hv.1 h)), if_neg (fun h => hi h.1)]

/-- C63: the value of an entry (author, designer, indent) is accepted only if it has no control characters, line breaks or escape
sequences. -/
theorem C63_entry (db : CharDb) (d d' : DesignDef) (k value : Str) (h : recordKeyword db d k value = .ok d') :
    0x1b ∉ value ∧ Inline db value := by
  unfold recordKeyword at h
  split at h
  · simp at h
  · rename_i v hv
    have hm : v.memory = value := by
      unfold fromUnicode at hv
      simp only [Option.map_eq_some_iff] at hv
      obtain ⟨_, _, rfl⟩ := hv
      rfl
    split at h
    · simp at h
    · rename_i hx
      have e : isAllowedInKvString db = isAllowedInFilename db := rfl
      simp only [Bxs.validIn, hm, e, Bool.not_eq_true', Bool.not_eq_false, List.all_eq_true, allowedInFilename_iff] at hx
      exact ⟨fun hh => (hx _ hh).2 rfl, fun c hc => (hx c hc).1⟩

/-- C63: an entry whose value has a forbidden character, a line break or an escape sequence is an error, whatever the entry. -/
theorem C63_entry_refused (db : CharDb) (d : DesignDef) (k value : Str) (h : 0x1b ∈ value ∨ ¬ Inline db value) :
    recordKeyword db d k value = .fail rcError := by
  unfold recordKeyword
  split
  · rfl
  · rename_i v hv
    have hm : v.memory = value := by
      unfold fromUnicode at hv
      simp only [Option.map_eq_some_iff] at hv
      obtain ⟨_, _, rfl⟩ := hv
      rfl
    rw [if_pos]
    have e : isAllowedInKvString db = isAllowedInFilename db := rfl
    rw [Bool.not_eq_true', Bool.eq_false_iff]
    intro hx
    simp only [Bxs.validIn, hm, e, List.all_eq_true, allowedInFilename_iff] at hx
    rcases h with h | h
    · exact (hx _ h).2 rfl
    · exact h (fun c hc => (hx c hc).1)

example : resolveParent { db := sampleDb } (lit "  my file ") = some (fromAscii (lit "my file")) ∧
    resolveParent { db := sampleDb, globalConfig := some (fromAscii (lit "/g")) } (lit ":Global: ") = some (fromAscii (lit "/g")) ∧
    resolveParent { db := sampleDb } (lit "  ") = none := by decide +kernel
example : recordKeyword sampleDb {} (lit "author") (lit "me\n") = .fail rcError :=
  C63_entry_refused _ _ _ _ (Or.inr (by decide))
example : (match recordKeyword sampleDb {} (lit "author") (lit "me") with | .ok d => d.author | _ => none) = some (fromAscii (lit "me")) := by
  decide +kernel
example : firstShapeLine sampleDb (lit "+-") = .ok { emptyShape with width := 2, height := 1, lines := [fromAscii (lit "+-")] } := by decide +kernel
example : firstShapeLine sampleDb (lit "+\n") = .fail rcError ∧ firstShapeLine sampleDb [0x07] = .ub ∧
    firstShapeLine sampleDb [0x1b, 0x5b, 0x6d] = .fail rcError := by decide +kernel
example : Text (lit "+-") (lit "+-") ∧ Inline sampleDb (lit "+-") :=
  ⟨Text.plain (by decide), by unfold Inline; decide⟩

/-- C02: which escape sequences count as resets: those of the specification, whatever follows. -/
theorem C02_reset_iff (s : Str) : isCsiReset s = true ↔ ∃ r t, s = r ++ t ∧ ResetSeq r := by
  have fin : ∀ s : Str, csiResetEnd s = true ↔ ∃ f t, s = f :: t ∧ 0x40 ≤ f ∧ f ≤ 0x7e := by
    intro s
    cases s with
    | nil => simp [csiResetEnd]
    | cons c r => simp [csiResetEnd, isFinalByte]
  constructor
  · intro h
    unfold isCsiReset at h
    split at h
    · rename_i e o p rest
      split at h
      · simp at h
      · rename_i he
        split at h
        · simp at h
        · rename_i ho
          have he' : e = 0x1b := by simpa [chEsc] using he
          have ho' : o = 0x5b ∨ o = 0x28 := by omega
          subst he'
          split at h
          · rename_i hp
            subst hp
            obtain ⟨f, t, rfl, h1, h2⟩ := (fin _).1 h
            exact ⟨_, t, by simp, .mk o [0x30] f ho' (by simp) h1 h2⟩
          · split at h
            · rename_i hf
              simp [isFinalByte] at hf
              exact ⟨_, rest, by simp, .mk o [] p ho' (by simp) hf.1 hf.2⟩
            · split at h
              · simp at h
              · rename_i q rest'
                split at h
                · rename_i hpq
                  obtain ⟨f, t, rfl, h1, h2⟩ := (fin _).1 h
                  refine ⟨_, t, ?_, .mk o [p, q] f ho' ?_ h1 h2⟩
                  · simp
                  · rcases hpq with ⟨rfl, rfl⟩ | ⟨rfl, rfl⟩ | ⟨rfl, rfl⟩ | ⟨rfl, rfl⟩ | ⟨rfl, rfl⟩ <;> decide
                · simp at h
    · simp at h
  · rintro ⟨_, t, rfl, ⟨o, params, f, ho, hp, h1, h2⟩⟩
    have ho2 : ¬ (o ≠ 0x5b ∧ o ≠ 0x28) := by omega
    have hf : isFinalByte f = true := by simp [isFinalByte, h1, h2]
    have hf0 : f ≠ 0x30 := by omega
    simp only [List.mem_cons, List.not_mem_nil, or_false] at hp
    rcases hp with rfl | rfl | rfl | rfl | rfl | rfl | rfl <;>
      simp [isCsiReset, chEsc, ho2, hf, hf0, csiResetEnd, isFinalByte] <;> omega

/-- C01: for printable ASCII text the constructor used for generated text gives the same string, position maps and measures as the
one used for input; only the count of trailing blanks of an all-blank text differs. -/
theorem C01_from_ascii (db : CharDb) (s : Str) (hdb : Sane db) (hs : ∀ c ∈ s, 0x20 ≤ c ∧ c < 0x7f) (hc : ∀ c ∈ s, db.cntrl c = false) :
    fromUnicode db s = some (if ∀ c ∈ s, c = 0x20 then { fromAscii s with trailing := 0 } else fromAscii s) := by
  have hflat : flat (s.map Sum.inl) = s := by induction s with
    | nil => rfl
    | cons c s ih => simpa using ih (fun c h => hs c (by simp [h])) (fun c h => hc c (by simp [h]))
  have hvis : visOf (s.map Sum.inl) = s := by induction s with
    | nil => rfl
    | cons c s ih => simpa using ih (fun c h => hs c (by simp [h])) (fun c h => hc c (by simp [h])) (by simpa using hflat)
  have hpos : ∀ (s : Str) n, visPos n (s.map Sum.inl) = (List.range s.length).map (· + n) := by
    intro s
    induction s with
    | nil => simp [visPos]
    | cons c s ih =>
      intro n
      simp only [List.map_cons, visPos, ih, List.length_cons, List.range_succ_eq_map, List.map_map, Nat.zero_add]
      congr 1
      apply List.map_congr_left
      intro x _
      simp; omega
  have hfp : ∀ (s : Str) n, firstPos n none (s.map Sum.inl) = visPos n (s.map Sum.inl) := by
    intro s
    induction s with
    | nil => simp [visPos, firstPos]
    | cons c s ih => intro n; simp [visPos, firstPos, ih]
  have hg := goodLine_ascii hs hc
  have hok : Oks (s.map Sum.inl) := by
    intro t ht
    simp only [List.mem_map] at ht
    obtain ⟨c, hc, rfl⟩ := ht
    have := hs c hc
    show c ≠ 0x1b
    omega
  have hall : (visOf (s.map Sum.inl)).all (isAllowedAnywhere db) = true := by
    rw [hvis, List.all_eq_true]
    intro c hcs
    have := hg.allowed c hcs
    rw [← allowed_iff] at this
    simpa using this
  have hb : ∀ c ∈ s, isBlank db c = (c == chSpace) := by
    intro c hcs
    rw [isBlank_iff]
    have h1 := hs c hcs
    by_cases h2 : c = 0x20
    · subst h2; simp [Blank, hdb.space_blank, chSpace]
    · have h3 := hdb.ascii_not_blank c (by omega) (by omega)
      have h4 : c ≠ 0x09 := by omega
      rw [Bool.eq_iff_iff]
      simp [Blank, h3, chSpace, h2, h4]
  have e := fromUnicode_ok db _ hok hall
  rw [hflat] at e
  rw [e]
  congr 1
  have tw : ∀ s : Str, (∀ c ∈ s, isBlank db c = (c == chSpace)) → s.takeWhile (isBlank db) = s.takeWhile (· == chSpace) := by
    intro s hb
    induction s with
    | nil => rfl
    | cons c s ih => simp only [List.takeWhile_cons, hb c (by simp), ih (fun c h => hb c (by simp [h]))]
  have hcol : ∀ t : Str, (∀ c ∈ t, c ∈ s) → columns db t = t.length := by
    intro t ht
    exact (goodLine_ascii (fun c h => hs c (ht c h)) (fun c h => hc c (ht c h))).cols.symm
  have hrange : (List.range s.length).map (· + 0) ++ [s.length] = List.range (s.length + 1) := by simp [List.range_succ]
  have h1 : bxsOf db (s.map Sum.inl) = { fromAscii s with trailing := (bxsOf db (s.map Sum.inl)).trailing } := by
    unfold bxsOf fromAscii
    simp only [hflat, hvis, hfp, hpos, hrange, Nat.sub_self, tw s hb, hcol s (fun _ h => h),
      hcol (s.takeWhile (· == chSpace)) (fun c h => List.takeWhile_subset _ h)]
    congr 1
    rw [ascii_eq]
    exact hg.ascii.symm
  rw [h1]
  unfold bxsOf
  simp only [hvis]
  have htr : (s.reverse.takeWhile (isBlank db)).length = strrspnSpace s := by
    rw [tw _ (fun c h => hb c (by simpa using h))]; rfl
  have hall' : s.all (isBlank db) = true ↔ ∀ c ∈ s, c = 0x20 := by
    rw [List.all_eq_true]
    constructor
    · intro h c hcs; have := h c hcs; rw [hb c hcs] at this; simpa [chSpace] using this
    · intro h c hcs; rw [hb c hcs, h c hcs]; rfl
  by_cases h : ∀ c ∈ s, c = 0x20
  · rw [if_pos h, if_pos (hall'.2 h)]
  · rw [if_neg h, if_neg (fun hh => h (hall'.1 hh)), htr]
    rfl

example : fromUnicode sampleDb (lit "  a b ") = some (fromAscii (lit "  a b ")) ∧
    fromUnicode sampleDb (lit "  ") = some { fromAscii (lit "  ") with trailing := 0 } := by decide +kernel
example : isCsiReset [0x1b, 0x5b, 0x30, 0x6d, 0x41] = true ∧ isCsiReset [0x1b, 0x5b, 0x31, 0x6d] = false := by decide

end Boxes
