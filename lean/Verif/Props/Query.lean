import Verif.Lemmas.Listing
import Verif.Props.Config

/-!
# C31, C32, C39: tag queries and lists of designs

`parseQuery arg` is the query that is made of the argument of the option, `filterByTag query tags` decides if a design with these
tags is shown, `queryByTag` and `listDesigns` are the texts that are printed.
-/
namespace Boxes
open Spec
set_option linter.unusedSimpArgs false

/-- C32: a query is accepted if and only if it has a term, every term is a valid tag (or the text for "all") behind an optional
sign, and no tag is used twice. -/
theorem C32_accepted (arg : Str) (hn : 0x0a ∉ arg) :
    (∃ q, parseQuery arg = some q) ↔
      terms arg ≠ [] ∧ (∀ t ∈ terms arg, bare t = everything ∨ Identifier true (bare t)) ∧
      (terms arg).Pairwise (fun a b => ¬ SameName (bare a) (bare b)) := by
  have hv : ∀ t ∈ terms arg, (tagIsValid (bare t) = true ↔ Identifier true (bare t)) := by
    intro t ht
    refine (C41_exact (bare t) ?_).1
    intro hm
    refine hn (mem_terms_sub ht 0x0a ?_)
    unfold bare at hm
    split at hm
    · simp at hm
    · split at hm
      · exact List.mem_cons_of_mem _ hm
      · exact hm
  have hl := parseQueryLoop_eq (strtokComma [] arg) [] false
  simp only at hl
  rw [terms_eq] at hl
  have hacc : Accept (terms arg) [] ↔ (∀ t ∈ terms arg, bare t = everything ∨ Identifier true (bare t)) ∧
      (terms arg).Pairwise (fun a b => ¬ SameName (bare a) (bare b)) := by
    unfold Accept
    constructor
    · rintro ⟨a, -, c⟩; exact ⟨fun t ht => (a t ht).imp_right (hv t ht).1, c⟩
    · rintro ⟨a, c⟩; exact ⟨fun t ht => (a t ht).imp_right (hv t ht).2, by simp, c⟩
  rw [← hacc]
  unfold parseQuery
  by_cases ha : Accept (terms arg) []
  · rw [hl.1 ha]
    simp only [Option.bind_eq_bind, Option.bind_some, List.nil_append]
    by_cases hz : terms arg = []
    · simp [hz]
    · rw [if_neg (by simpa using hz)]
      constructor
      · exact fun _ => ⟨hz, ha⟩
      · intro _; split <;> exact ⟨_, rfl⟩
  · rw [hl.2 ha]
    simp only [Option.bind_eq_bind, Option.bind_none]
    constructor
    · rintro ⟨q, hq⟩; simp at hq
    · rintro ⟨-, h⟩; exact absurd h ha

/-- C32: the query consists of the terms in their order; when all of them are exclusions, the text for "all" is added. -/
theorem C32_query (arg : Str) {q : List Str} (h : parseQuery arg = some q) :
    ((∃ t ∈ terms arg, ∀ u, ¬ Minus t u) → q = terms arg) ∧
    ((∀ t ∈ terms arg, ∃ u, Minus t u) → q = terms arg ++ [everything]) := by
  have hl := parseQueryLoop_eq (strtokComma [] arg) [] false
  simp only at hl
  rw [terms_eq] at hl
  have hm : ∀ t : Str, t.head? = some chMinus ↔ ∃ u, Minus t u := by
    intro t
    cases t with
    | nil => simp [Minus]
    | cons a b =>
      simp only [List.head?_cons, Option.some.injEq, Minus, List.cons.injEq]
      exact ⟨fun e => ⟨b, e, rfl⟩, fun ⟨_, e, _⟩ => e⟩
  have hne : ∀ t : Str, (t.head? != some chMinus) = true ↔ ∀ u, ¬ Minus t u := by
    intro t
    rw [bne_iff_ne, ne_eq, hm, not_exists]
  unfold parseQuery at h
  by_cases ha : Accept (terms arg) []
  · rw [hl.1 ha] at h
    simp only [Option.bind_eq_bind, Option.bind_some, List.nil_append, Bool.false_or] at h
    split at h
    · simp at h
    · constructor
      · rintro ⟨t, ht, hu⟩
        have : (terms arg).any (fun t => t.head? != some chMinus) = true :=
          List.any_eq_true.2 ⟨t, ht, (hne t).2 hu⟩
        rw [this] at h
        simpa using h.symm
      · intro hall
        have : (terms arg).any (fun t => t.head? != some chMinus) = false := by
          rw [← Bool.not_eq_true, List.any_eq_true]
          rintro ⟨t, ht, hu⟩
          obtain ⟨u, hu'⟩ := hall t ht
          exact (hne t).1 hu u hu'
        rw [this] at h
        have h' : q = terms arg ++ [queryAll] := by simpa using h.symm
        exact h'
  · rw [hl.2 ha] at h; simp at h

/-- texts of which the first is accepted and the others are refused -/
example : parseQuery (lit " +a ,,-b,c") = some [lit "+a", lit "-b", lit "c"] ∧ parseQuery (lit "-b") = some [lit "-b", lit "(all)"] ∧
    parseQuery (lit "a,+a") = none ∧ parseQuery (lit " , ") = none ∧ parseQuery (lit "a b") = none := by decide +kernel

example : ∃ q, parseQuery (lit " +a ,,-b,c") = some q :=
  (C32_accepted _ (by decide)).2 ⟨by decide, by
    have h1 : ∀ c, c ∈ [0x61, 0x62, 0x63] → Identifier true [c] := by
      intro c hc
      have := (C41_exact [c] (by intro h; simp at h; subst h; simp at hc)).1.1
      apply this
      simp at hc
      rcases hc with rfl | rfl | rfl <;> decide
    intro t ht
    right
    have : terms (lit " +a ,,-b,c") = [lit "+a", lit "-b", lit "c"] := by decide
    rw [this] at ht
    simp only [List.mem_cons, List.not_mem_nil, or_false] at ht
    rcases ht with rfl | rfl | rfl
    · exact h1 0x61 (by simp)
    · exact h1 0x62 (by simp)
    · exact h1 0x63 (by simp), by decide⟩

/-- In an accepted query, a term that only differs in case from the text for "all" is this text. -/
theorem contains_all {arg : Str} {q : List Str} (h : parseQuery arg = some q) :
    arrayContains0 q queryAll = true ↔ everything ∈ q := by
  rw [carries_iff]
  constructor
  · rintro ⟨e, he, hs⟩
    by_cases hev : e = everything
    · rw [← hev]; exact he
    · have hl := parseQueryLoop_eq (strtokComma [] arg) [] false
      simp only at hl
      rw [terms_eq] at hl
      have hin : e ∈ terms arg := by
        by_cases hx : ∀ t ∈ terms arg, ∃ u, Minus t u
        · rw [(C32_query arg h).2 hx] at he
          rcases List.mem_append.1 he with he | he
          · exact he
          · exact absurd (List.mem_singleton.1 he) hev
        · have hx' : ∃ t ∈ terms arg, ∀ u, ¬ Minus t u := by
            apply Classical.byContradiction
            intro hc
            apply hx
            intro t ht
            apply Classical.byContradiction
            intro hu
            exact hc ⟨t, ht, fun u hm => hu ⟨u, hm⟩⟩
          rw [(C32_query arg h).1 hx'] at he
          exact he
      have ha : Accept (terms arg) [] := by
        apply Classical.byContradiction
        intro hc
        unfold parseQuery at h
        rw [hl.2 hc] at h
        simp at h
      have hq : e.map lower = everything := by
        have : everything = queryAll.map lower := by decide
        rw [this]; exact hs
      cases e with
      | nil => simp [everything] at hq
      | cons c r =>
        have hcl : lower c = 0x28 := by
          have : (lower c :: r.map lower) = everything := hq
          have h2 : everything = 0x28 :: everything.drop 1 := by decide
          rw [h2] at this
          exact (List.cons.inj this).1
        have hc28 : c = 0x28 := by
          unfold lower at hcl
          split at hcl
          · rename_i hh
            have h1 : 'A'.toNat = 65 := rfl
            have h3 : 'Z'.toNat = 90 := rfl
            omega
          · exact hcl
        have hb : bare (c :: r) = c :: r := by
          unfold bare
          rw [hc28]
          simp
        have := ha.1 _ hin
        rw [hb] at this
        rcases this with e' | e'
        · exact absurd e' hev
        · have hid := (C41_tag _).1 e'
          rcases hid with hid | ⟨t, ht, hid⟩
          · obtain ⟨x, y, hxy, hle⟩ := hid.starts
            rw [List.cons.injEq] at hxy
            rw [← hxy.1, hc28] at hle
            simp [Letter] at hle
          · obtain ⟨x, y, hxy, hle⟩ := hid.starts
            rw [hxy, List.cons_append, List.cons.injEq] at ht
            rw [← ht.1, hc28] at hle
            simp [Letter] at hle
  · intro he; exact ⟨everything, he, by decide⟩

/-- C31: a design is selected if and only if it has no excluded and all required tags and, unless some tag is required, or the text
for "all" is given, or there are only exclusions, at least one of the tags without a sign. -/
theorem C31_selected (arg : Str) {q : List Str} (h : parseQuery arg = some q) (tags : List Str) :
    filterByTag q tags = true ↔
      (∀ e ∈ terms arg, ∀ t, Minus e t → ¬ Carries tags t) ∧ (∀ e ∈ terms arg, ∀ t, Plus e t → Carries tags t) ∧
      ((∃ e ∈ terms arg, ∃ t, Plus e t) ∨ everything ∈ terms arg ∨ (∀ e ∈ terms arg, ∃ t, Minus e t) ∨
        ∃ e ∈ terms arg, Unsigned e ∧ Carries tags e) := by
  unfold filterByTag
  rw [filterLoop_eq, contains_all h]
  obtain ⟨h1, h2⟩ := C32_query arg h
  by_cases hx : ∀ t ∈ terms arg, ∃ u, Minus t u
  · rw [h2 hx]
    have hM : ∀ u, ¬ Minus everything u := by intro u hu; simp [Minus, everything] at hu
    have hP : ∀ u, ¬ Plus everything u := by intro u hu; simp [Plus, everything] at hu
    constructor
    · rintro ⟨a, b, -⟩
      exact ⟨fun e he => a e (List.mem_append_left _ he), fun e he => b e (List.mem_append_left _ he), Or.inr (Or.inr (Or.inl hx))⟩
    · rintro ⟨a, b, -⟩
      refine ⟨?_, ?_, Or.inl (by simp)⟩
      · intro e he t ht
        rcases List.mem_append.1 he with he | he
        · exact a e he t ht
        · rw [List.mem_singleton.1 he] at ht; exact absurd ht (hM t)
      · intro e he t ht
        rcases List.mem_append.1 he with he | he
        · exact b e he t ht
        · rw [List.mem_singleton.1 he] at ht; exact absurd ht (hP t)
  · have hx' : ∃ t ∈ terms arg, ∀ u, ¬ Minus t u := by
      apply Classical.byContradiction
      intro hc
      apply hx
      intro t ht
      apply Classical.byContradiction
      intro hu
      exact hc ⟨t, ht, fun u hm => hu ⟨u, hm⟩⟩
    rw [h1 hx']
    constructor
    · rintro ⟨a, b, c⟩
      refine ⟨a, b, ?_⟩
      rcases c with c | ⟨e, he, c | c⟩
      · exact Or.inr (Or.inl c)
      · exact Or.inl ⟨e, he, c⟩
      · exact Or.inr (Or.inr (Or.inr ⟨e, he, c⟩))
    · rintro ⟨a, b, c⟩
      refine ⟨a, b, ?_⟩
      rcases c with ⟨e, he, c⟩ | c | c | ⟨e, he, c⟩
      · exact Or.inr ⟨e, he, Or.inl c⟩
      · exact Or.inl c
      · exact absurd c hx
      · exact Or.inr ⟨e, he, Or.inr c⟩

/-- C31: the order of the terms does not matter. -/
theorem C31_order {q q' : List Str} (h : q.Perm q') (tags : List Str) : filterByTag q tags = filterByTag q' tags := by
  rw [Bool.eq_iff_iff]
  unfold filterByTag
  rw [filterLoop_eq, filterLoop_eq, carries_iff, carries_iff]
  unfold Carries
  simp only [h.mem_iff]

/-- C31: exclusions alone select everything else. -/
theorem C31_exclusions (arg : Str) {q : List Str} (h : parseQuery arg = some q) (hx : ∀ e ∈ terms arg, ∃ t, Minus e t) (tags : List Str) :
    filterByTag q tags = true ↔ ∀ t, ('-'.toNat :: t) ∈ terms arg → ¬ Carries tags t := by
  rw [C31_selected arg h]
  constructor
  · rintro ⟨a, -⟩ t ht; exact a _ ht t rfl
  · intro a
    refine ⟨?_, ?_, Or.inr (Or.inr (Or.inl hx))⟩
    · intro e he t ht; rw [ht] at he; exact a t he
    · intro e he t ht
      obtain ⟨u, hu⟩ := hx e he
      rw [hu] at ht
      simp [Plus] at ht

/-- designs with different tags for a query -/
example : (parseQuery (lit "a,+b,-c")).map (fun q => [["b"], ["a"], ["a", "B"], ["b", "c"]].map (fun tags => filterByTag q (tags.map lit))) =
    some [true, false, true, false] ∧
    (parseQuery (lit "a,d,-c")).map (fun q => [["b"], ["a"], ["d", "b"], ["a", "c"]].map (fun tags => filterByTag q (tags.map lit))) =
    some [false, true, true, false] := by decide +kernel

/-- C31: the text for "all" cannot be required: with it, no design is found. -/
theorem C31_required_all_disagrees : (parseQuery (lit "+(all)")).isSome = true ∧
    ∀ q, parseQuery (lit "+(all)") = some q → ∀ tags : List Str, (∀ t ∈ tags, Identifier true t) → filterByTag q tags = false := by
  refine ⟨by decide +kernel, ?_⟩
  intro q h tags ht
  rw [← Bool.not_eq_true, C31_selected _ h]
  rintro ⟨-, b, -⟩
  obtain ⟨t, hm, hs⟩ := b (lit "+(all)") (by decide) everything rfl
  obtain ⟨c, r, rfl, hl⟩ := (ht t hm).starts
  have hlow : lower c = 0x28 := by
    have h2 : everything.map lower = 0x28 :: (everything.map lower).drop 1 := by decide
    have : (lower c :: r.map lower) = everything.map lower := hs
    rw [h2] at this
    exact (List.cons.inj this).1
  have h1 : 'A'.toNat = 65 := rfl
  have h3 : 'Z'.toNat = 90 := rfl
  have h4 : 'a'.toNat = 97 := rfl
  have h5 : 'z'.toNat = 122 := rfl
  simp only [Letter, Bool.true_eq_false, false_and, or_false] at hl
  unfold lower at hlow
  split at hlow <;> omega

/-! ## lists -/

/-- C39: the list of designs contains every design exactly once and is sorted by name. -/
theorem C39_sorted (ds : List DesignDef) :
    (sortDesignsByName ds).Perm ds ∧ (sortDesignsByName ds).Pairwise (fun a b => NameLe a.name b.name) :=
  ⟨qsort_perm _ _, sort_pairwise (·.name) ds⟩

/-- C39: when the names are different, there is only one such list. -/
theorem C39_unique (ds l : List DesignDef) (hd : ds.Pairwise (fun a b => ¬ SameName a.name b.name)) (hp : l.Perm ds)
    (hs : l.Pairwise (fun a b => NameLe a.name b.name)) : l = sortDesignsByName ds := by
  obtain ⟨h1, h2⟩ := C39_sorted ds
  refine (sorted_unique (·.name) (h1.trans hp.symm) h2 hs ?_).symm
  exact (h1.pairwise_iff (fun {a b} h h' => h (sameName_symm h'))).2 hd

/-- C31: what is printed: the selected designs in the order of their names, each with its name and its aliases. -/
theorem C31_printed (eol : Str) (ds : List DesignDef) (q : List Str) :
    ∃ found : List DesignDef, found.Perm (ds.filter (fun d => filterByTag q d.tags)) ∧ found.Pairwise (fun a b => NameLe a.name b.name) ∧
      queryByTag eol ds q =
        (found.map (fun d => d.name ++ eol ++ (d.aliases.map (fun a => a ++ lit " (alias)" ++ eol)).flatten)).flatten := by
  obtain ⟨h1, h2⟩ := C39_sorted ds
  refine ⟨(sortDesignsByName ds).filter (fun d => filterByTag q d.tags), h1.filter _, h2.filter _, ?_⟩
  unfold queryByTag
  generalize sortDesignsByName ds = l
  induction l with
  | nil => rfl
  | cons d r ih =>
    rw [List.map_cons, List.flatten_cons, ih]
    by_cases h : filterByTag q d.tags = true
    · rw [if_pos h, List.filter_cons, if_pos h, List.map_cons, List.flatten_cons]; rfl
    · rw [if_neg h, List.filter_cons, if_neg h]; rfl

/-- C39: all names of a design are shown, and the text fits in the memory allocated for it. -/
theorem C39_names (d : DesignDef) :
    (namesText d).map (·.data) =
      some (d.name ++ if d.aliases = [] then [] else lit " alias " ++ joined (lit ", ") d.aliases) := by
  unfold namesText analyzeNames
  rw [analyzeLoop_eq]
  simp only [Nat.zero_add, Nat.lt_irrefl, false_and, if_false, Nat.add_zero, gt_iff_lt]
  cases ha : d.aliases with
  | nil => simp [put_eq, joined]
  | cons a r =>
    rw [← ha]
    have hpos : 0 < d.aliases.length := by rw [ha]; simp
    rw [if_pos hpos, if_neg (by rw [ha]; simp)]
    have h7 : (lit " alias ").length = 7 := rfl
    rw [put_eq (by simp only [List.length_nil]; omega)]
    simp only [Option.bind_eq_bind, Option.bind_some]
    rw [if_pos hpos, put_eq (by simp only [List.length_append, List.length_nil]; omega)]
    simp only [Option.bind_some]
    rw [aliasLoop_eq _ _ 0 _ (by omega) (by simp only [List.length_append, List.length_nil]; omega)]
    simp

/-- C39: the tag statistics show every tag once, sorted, with the number of designs that carry it. -/
theorem C39_tags (ds : List DesignDef) (hd : ∀ d ∈ ds, d.tags.Pairwise (fun a b => ¬ SameName a b)) :
    (∀ e ∈ sortedTagStats ds, e.2 = ds.countP (fun d => decide (Carries d.tags e.1))) ∧
    (∀ e ∈ sortedTagStats ds, ∃ d ∈ ds, e.1 ∈ d.tags) ∧
    (∀ d ∈ ds, ∀ t ∈ d.tags, ∃ e ∈ sortedTagStats ds, SameName e.1 t) ∧
    (sortedTagStats ds).Pairwise (fun a b => ¬ SameName a.1 b.1) ∧ (sortedTagStats ds).Pairwise (fun a b => NameLe a.1 b.1) := by
  have hok := tagStats_ok (sortDesignsByName ds)
  have hperm : (sortDesignsByName ds).Perm ds := (C39_sorted ds).1
  have hp : (sortedTagStats ds).Perm (tagStats (sortDesignsByName ds)) := qsort_perm _ _
  refine ⟨?_, ?_, ?_, ?_, sort_pairwise (fun e : Str × Nat => e.1) _⟩
  · intro e he
    rw [hok.number e (hp.mem_iff.1 he), ← hperm.countP_eq]
    have hd' : ∀ d ∈ sortDesignsByName ds, d.tags.Pairwise (fun a b => ¬ SameName a b) :=
      fun d hm => hd d (hperm.mem_iff.1 hm)
    generalize sortDesignsByName ds = l at hd'
    induction l with
    | nil => rfl
    | cons d r ih =>
      rw [List.flatMap_cons, List.countP_append, List.countP_cons, ih (fun x hx => hd' x (List.mem_cons_of_mem _ hx)),
        countP_distinct _ _ (hd' d List.mem_cons_self)]
      by_cases hc : Carries d.tags e.1
      · rw [if_pos hc, if_pos (by simpa using hc)]; omega
      · rw [if_neg hc, if_neg (by simpa using hc)]; omega
  · intro e he
    obtain ⟨d, hm, ht⟩ := List.mem_flatMap.1 (hok.known e (hp.mem_iff.1 he))
    exact ⟨d, hperm.mem_iff.1 hm, ht⟩
  · intro d hm t ht
    obtain ⟨e, he, hs⟩ := hok.complete t (List.mem_flatMap.2 ⟨d, hperm.mem_iff.2 hm, ht⟩)
    exact ⟨e, hp.mem_iff.2 he, hs⟩
  · exact (hp.pairwise_iff (fun {a b} h h' => h (sameName_symm h'))).2 hok.once

theorem shown_output {db : CharDb} {color : Bool} {b : Bxs} {t : Str} (h : Shown db color b t) : b.toOutput color = some t := by
  obtain ⟨s, v, h1, h2, rfl⟩ := h
  cases color
  · exact (C03_output db h1 h2).2
  · exact (C03_output db h1 h2).1

/-- who made the design, as shown in the list; `out` is how a text is printed -/
def credits (out : Bxs → Str) (d : DesignDef) : Option Str :=
  match d.designer, d.author with
  | none, none => none
  | none, some a => some (lit "unknown artist, coded by " ++ out a)
  | some g, none => some (out g)
  | some g, some a => some (if g.memory = a.memory then out g else out g ++ lit ", coded by " ++ out a)

/-- C39: the entry of a design: all its names, the artist and the author, the sample. -/
theorem C39_entry (db : CharDb) (color : Bool) (eol : Str) (d : DesignDef) {b : Bxs} (hs : d.sample = some b) (out : Bxs → Str)
    (hout : ∀ x, d.sample = some x ∨ d.author = some x ∨ d.designer = some x → Shown db color x (out x)) :
    listEntry color eol d = some ((d.name ++ if d.aliases = [] then [] else lit " alias " ++ joined (lit ", ") d.aliases) ++
      ((credits out d).elim [] (eol ++ ·)) ++ lit ":" ++ eol ++ eol ++ out b ++ eol ++ eol) := by
  have hsb := shown_output (hout b (Or.inl hs))
  unfold listEntry credits
  rw [C39_names, hs]
  simp only [Option.bind_eq_bind, Option.bind_some, Option.map_some]
  cases ha : d.author with
  | none =>
    cases hg : d.designer with
    | none => simp [hsb]
    | some g => simp [hsb, shown_output (hout g (Or.inr (Or.inr hg)))]
  | some a =>
    have hsa := shown_output (hout a (Or.inr (Or.inl ha)))
    cases hg : d.designer with
    | none => simp [hsb, hsa]
    | some g =>
      have hsg := shown_output (hout g (Or.inr (Or.inr hg)))
      by_cases h : a.memory = g.memory
      · simp [h, hsb, hsa, hsg]
      · have h' : ¬ g.memory = a.memory := fun e => h e.symm
        simp [h, h', hsb, hsa, hsg]

theorem tagStatsText_eq : ∀ (l : List (Str × Nat)) (i : Nat), tagStatsText l i =
    (if i > 0 ∧ l ≠ [] then lit " | " else []) ++ joined (lit " | ") (l.map (fun e => e.1 ++ lit " (" ++ decimal e.2 ++ lit ")")) := by
  intro l
  induction l with
  | nil => intro i; simp [tagStatsText, joined]
  | cons a r ih =>
    intro i
    rw [tagStatsText, ih]
    cases r with
    | nil => by_cases h : i > 0 <;> simp [joined, h]
    | cons c r' => by_cases h : i > 0 <;> simp [joined, h]

/-- C39: the text of the tag statistics. -/
theorem C39_tags_text (eol : Str) (stats : List (Str × Nat)) : printTags eol stats =
    if stats = [] then [] else joined (lit " | ") (stats.map (fun e => e.1 ++ lit " (" ++ decimal e.2 ++ lit ")")) ++ eol := by
  unfold printTags
  rw [tagStatsText_eq]
  cases stats <;> simp

/-- C39: the whole list: heading, the entries of all designs in the order of their names, tag statistics. -/
theorem C39_list (db : CharDb) (color : Bool) (eol : Str) (first : Bxs) (parents : List Bxs) (ds : List DesignDef)
    (hs : ∀ d ∈ ds, d.sample ≠ none) (out : Bxs → Str)
    (hout : ∀ d ∈ ds, ∀ x, d.sample = some x ∨ d.author = some x ∨ d.designer = some x → Shown db color x (out x)) :
    ∃ texts : List Str, (sortDesignsByName ds).map (listEntry color eol) = texts.map some ∧
      listDesigns color eol first parents ds =
        some (designListHeader eol ds.length first parents ++ texts.flatten ++ printTags eol (sortedTagStats ds)) := by
  have hperm : (sortDesignsByName ds).Perm ds := (C39_sorted ds).1
  have hs' : ∀ d ∈ sortDesignsByName ds, d.sample ≠ none ∧ d ∈ ds := fun d hm => ⟨hs d (hperm.mem_iff.1 hm), hperm.mem_iff.1 hm⟩
  have : ∀ l : List DesignDef, (∀ d ∈ l, d.sample ≠ none ∧ d ∈ ds) →
      ∃ texts : List Str, l.map (listEntry color eol) = texts.map some ∧ listEntries color eol l = some texts.flatten := by
    intro l
    induction l with
    | nil => intro _; exact ⟨[], rfl, rfl⟩
    | cons d r ih =>
      intro h
      obtain ⟨b, hb⟩ := Option.ne_none_iff_exists'.1 (h d List.mem_cons_self).1
      obtain ⟨ts, e1, e2⟩ := ih (fun x hx => h x (List.mem_cons_of_mem _ hx))
      have hent := C39_entry db color eol d hb out (hout d (h d List.mem_cons_self).2)
      obtain ⟨t, ht⟩ : ∃ t, listEntry color eol d = some t := ⟨_, hent⟩
      refine ⟨t :: ts, ?_, ?_⟩
      · rw [List.map_cons, e1, ht, List.map_cons]
      · rw [listEntries, ht, e2]; rfl
  obtain ⟨texts, e1, e2⟩ := this _ hs'
  refine ⟨texts, e1, ?_⟩
  unfold listDesigns
  rw [e2]
  rfl

/-- C39: the heading names the number of designs and the configuration file, or files, and is underlined over the width of the
heading. -/
theorem C39_heading (eol : Str) (n : Nat) (first : Bxs) (parents : List Bxs) :
    ∃ title line rest : Str, designListHeader eol n first parents = title ++ eol ++ line ++ eol ++ rest ∧
      (∀ c ∈ line, c = '-'.toNat) ∧
      (parents = [] →
        title = decimal n ++ lit " Available Style" ++ (if n = 1 then [] else lit "s") ++ lit " in \"" ++ first.memory ++ lit "\":" ∧
        line.length + first.memory.length = title.length + first.cols ∧ rest = eol) ∧
      (parents ≠ [] →
        title = decimal n ++ lit " Available Style" ++ (if n = 1 then [] else lit "s") ++ lit ":" ∧ line.length = title.length ∧
        rest = eol ++ lit "Configuration Files:" ++ eol ++ lit "    - " ++ first.memory ++ eol ++
            (parents.map (fun p => lit "    - " ++ p.memory ++ lit " (parent)" ++ eol)).flatten ++ eol ++ eol) := by
  have hm : chMinus = '-'.toNat := rfl
  have hl1 : (lit "-----------------------").length = 23 := rfl
  have hl2 : (lit "-----------------").length = 17 := rfl
  have hl3 : (lit " Available Style").length = 16 := rfl
  have hl4 : (lit " in \"").length = 5 := rfl
  have hl5 : (lit "\":").length = 2 := rfl
  have hl6 : (lit ":").length = 1 := rfl
  have hl7 : (lit "-").length = 1 := rfl
  have hl8 : (lit "s").length = 1 := rfl
  have hd : ∀ c ∈ (if n = 1 then [] else lit "-"), c = '-'.toNat := by
    intro c hc; split at hc
    · simp at hc
    · revert c; decide
  have hd1 : ∀ c ∈ lit "-----------------------", c = '-'.toNat := by decide
  have hd2 : ∀ c ∈ lit "-----------------", c = '-'.toNat := by decide
  unfold designListHeader
  cases parents with
  | nil =>
    refine ⟨decimal n ++ lit " Available Style" ++ (if n = 1 then [] else lit "s") ++ lit " in \"" ++ first.memory ++ lit "\":",
      lit "-----------------------" ++ (if n = 1 then [] else lit "-") ++ List.replicate (first.cols + (decimal n).length) chMinus,
      eol, ?_, ?_, ?_, ?_⟩
    · simp [List.append_assoc]
    · intro c hc
      rcases List.mem_append.1 hc with hc | hc
      · rcases List.mem_append.1 hc with hc | hc
        · exact hd1 c hc
        · exact hd c hc
      · rw [← hm]; exact (List.mem_replicate.1 hc).2
    · intro _
      refine ⟨rfl, ?_, rfl⟩
      by_cases h : n = 1
      · simp only [h, if_true, List.length_append, List.length_replicate, List.length_nil, hl1, hl3, hl4, hl5]; omega
      · simp only [h, if_false, List.length_append, List.length_replicate, List.length_nil, hl1, hl3, hl4, hl5, hl7, hl8]; omega
    · intro h; exact absurd rfl h
  | cons p ps =>
    refine ⟨decimal n ++ lit " Available Style" ++ (if n = 1 then [] else lit "s") ++ lit ":",
      lit "-----------------" ++ (if n = 1 then [] else lit "-") ++ List.replicate (decimal n).length chMinus,
      _, ?_, ?_, ?_, fun _ => ⟨rfl, ?_, rfl⟩⟩
    · simp [List.append_assoc]
    · intro c hc
      rcases List.mem_append.1 hc with hc | hc
      · rcases List.mem_append.1 hc with hc | hc
        · exact hd2 c hc
        · exact hd c hc
      · rw [← hm]; exact (List.mem_replicate.1 hc).2
    · intro h; simp at h
    · by_cases h : n = 1
      · simp only [h, if_true, List.length_append, List.length_replicate, List.length_nil, hl2, hl3, hl6]; omega
      · simp only [h, if_false, List.length_append, List.length_replicate, List.length_nil, hl2, hl3, hl6, hl7, hl8]; omega

/-- three designs with names and tags -/
def listSample : List DesignDef :=
  [{ name := lit "stone", tags := [lit "simple", lit "unicode"] }, { name := lit "Boxes", aliases := [lit "std", lit "b2"], tags := [lit "simple"] },
   { name := lit "c", tags := [lit "programming"] }]

example : queryByTag (lit "\n") listSample [lit "simple"] = lit "Boxes\nstd (alias)\nb2 (alias)\nstone\n" ∧
    (namesText (listSample.getD 1 {})).map (·.data) = some (lit "Boxes alias std, b2") := by decide +kernel

/-- the entry of a design with a coloured sample, with and without colours -/
example : let d : DesignDef := { name := lit "stone", aliases := [lit "st"], author := some (fromAscii (lit "Ann")),
                                 designer := some (fromAscii (lit "Bo")), sample := fromUnicode sampleDb sampleText }
    listEntry false (lit "\n") d = some (lit "stone alias st\nBo, coded by Ann:\n\n" ++ sampleVis ++ lit "\n\n") ∧
    listEntry true (lit "\n") d = some (lit "stone alias st\nBo, coded by Ann:\n\n" ++ sampleText ++ lit "\n\n") := by decide +kernel

example : printTags (lit "\n") (sortedTagStats listSample) = lit "programming (1) | simple (2) | unicode (1)\n" := by decide +kernel

example : (∀ d ∈ listSample, d.tags.Pairwise (fun a b => ¬ SameName a b)) ∧ listSample.Pairwise (fun a b => ¬ SameName a.name b.name) := by
  constructor
  · intro d hd
    simp only [listSample, List.mem_cons, List.not_mem_nil, or_false] at hd
    rcases hd with rfl | rfl | rfl <;> decide
  · exact (List.pairwise_map (f := DesignDef.name) (R := fun a b => ¬ SameName a b)).1 (by decide)

end Boxes
