import Verif.Lemmas.Config

/-! # Lemmas about indentation, padding, sample and tags of a parsed design -/
namespace Boxes
open Spec ShapeName
set_option linter.unusedSimpArgs false

/-! ## indentation mode -/

/-- how an entry changes the indentation mode -/
def indentStep (db : CharDb) (m : Char) : Item → Char
  | .keyword k v => if Word "indent" k then Char.ofNat ((asciiForm db v).headD 0) else m
  | _ => m

theorem indent_step {env : ParseEnv} (st st' : ParseState) (i : Item) (h : parseItem env st i = .ok st') :
    st'.cur.core.indentmode = indentStep env.db st.cur.core.indentmode i := by
  cases i with
  | keyword k v =>
    obtain ⟨d, hd, h2⟩ := Res.bind_eq_ok.1 h
    simp only [Res.ok.injEq] at h2; subst h2
    have hi := (keyword_step hd).indent
    show d.core.indentmode = _
    unfold indentStep
    split at hi
    · rename_i hk; simp only; rw [if_pos hk]; exact hi.1
    · rename_i hk; simp only; rw [if_neg hk]; exact hi
  | tags vs =>
    obtain ⟨d, hd, h2⟩ := Res.bind_eq_ok.1 h
    simp only [Res.ok.injEq] at h2; subst h2; rfl
  | sample t => obtain ⟨_, l, rfl⟩ := sample_frame h; rfl
  | shapes defs => obtain ⟨_, _, _, _, _, rfl⟩ := (shapes_frame h).same; rfl
  | elastic names => obtain ⟨_, _, _, _, _, rfl⟩ := (elasticItem_frame h).same; rfl
  | replace f s r =>
    obtain ⟨d, hd, h2⟩ := Res.bind_eq_ok.1 h
    simp only [Res.ok.injEq] at h2; subst h2; rfl
  | reverse f s r =>
    obtain ⟨d, hd, h2⟩ := Res.bind_eq_ok.1 h
    simp only [Res.ok.injEq] at h2; subst h2; rfl
  | padding es => simp only [parseItem, Res.ok.injEq] at h; subst h; rfl
  | other => simp only [parseItem, Res.ok.injEq] at h; subst h; rfl
  | bad => simp [parseItem] at h

theorem indent_fold (db : CharDb) (items : List Item) : ∀ m : Char, items.foldl (indentStep db) m =
    match (settings "indent" items).getLast? with
    | some v => Char.ofNat ((asciiForm db v).headD 0)
    | none => m := by
  induction items with
  | nil => intro m; rfl
  | cons i rest ih =>
    intro m
    rw [List.foldl_cons, ih]
    cases i with
    | keyword k v =>
      by_cases h1 : Word "indent" k
      · have e : settings "indent" (Item.keyword k v :: rest) = v :: settings "indent" rest := by simp [settings, h1]
        rw [e, getLast?_cons_or]
        cases hl : (settings "indent" rest).getLast? with
        | none => simp [indentStep, h1]
        | some w => simp
      · have e : settings "indent" (Item.keyword k v :: rest) = settings "indent" rest := by simp [settings, h1]
        rw [e]; simp [indentStep, h1]
    | _ => rfl

/-- values of accepted entries -/
theorem parseItems_values {env : ParseEnv} : ∀ {items : List Item} {st st' : ParseState}, parseItems env items st = .ok st' →
    ∀ v ∈ settings "indent" items, Word "text" (asciiForm env.db v) ∨ Word "box" (asciiForm env.db v) ∨ Word "none" (asciiForm env.db v)
  | [], _, _, _ => by intro v hv; simp [settings] at hv
  | i :: rest, st, st', h => by
    rw [parseItems] at h
    obtain ⟨st1, h1, h2⟩ := Res.bind_eq_ok.1 h
    have ih := parseItems_values h2
    intro v hv
    cases i with
    | keyword k w =>
      by_cases hk : Word "indent" k
      · have e : settings "indent" (Item.keyword k w :: rest) = w :: settings "indent" rest := by simp [settings, hk]
        rw [e, List.mem_cons] at hv
        rcases hv with rfl | hv
        · obtain ⟨d, hd, _⟩ := Res.bind_eq_ok.1 h1
          have := (keyword_step hd).indent
          rw [if_pos hk] at this
          exact this.2
        · exact ih v hv
      · have e : settings "indent" (Item.keyword k w :: rest) = settings "indent" rest := by simp [settings, hk]
        rw [e] at hv; exact ih v hv
    | _ => exact ih v hv

/-! ## padding -/

theorem areaIs_iff (w : String) (hw : (lit w).map toLower = lit w) (area : Str) : areaIs (lit w) area = true ↔ Abbreviates area w := by
  have hl : (lower : Nat → Nat) = toLower := funext lower_eq
  unfold areaIs strnCaseEq Abbreviates
  rw [Bool.and_eq_true, decide_eq_true_eq, strnEq_take _ _ _ (by simp), hw, hl]
  have e : lit w = w.toList.map Char.toNat := rfl
  rw [← e, List.prefix_iff_eq_take, List.length_map, ← List.length_map (f := toLower) (as := area), List.take_length]
  constructor
  · rintro ⟨_, h⟩; exact h.symm
  · intro h
    refine ⟨?_, h.symm⟩
    have := congrArg List.length h
    simp at this ⊢
    omega

theorem abbreviates_head {area : Str} {w : String} {c : Nat} (hc : (w.toList.map Char.toNat).head? = some c) (h : Abbreviates area w) :
    area = [] ∨ (area.map lower).head? = some c := by
  cases area with
  | nil => exact Or.inl rfl
  | cons a t =>
    right
    unfold Abbreviates at h
    cases hw : w.toList.map Char.toNat with
    | nil => rw [hw] at hc; simp at hc
    | cons b u =>
      rw [hw] at hc h
      simp only [List.head?_cons, Option.some.injEq] at hc
      rw [List.map_cons] at h ⊢
      rw [List.cons_prefix_cons] at h
      simp [h.1, hc]

theorem not_both {area : Str} {w w' : String} {c c' : Nat} (hall : ¬ Abbreviates area "all") (hc : (w.toList.map Char.toNat).head? = some c)
    (hc' : (w'.toList.map Char.toNat).head? = some c') (hne : c ≠ c') (h : Abbreviates area w) : ¬ Abbreviates area w' := by
  intro h'
  have h0 : area ≠ [] := by intro e; subst e; exact hall (by decide)
  rcases abbreviates_head hc h with e | e
  · exact h0 e
  · rcases abbreviates_head hc' h' with e' | e'
    · exact h0 e'
    · rw [e] at e'; simp at e'; exact hne e'

/-- areas that include the top side, etc. -/
def topWords : List String := ["all", "vertical", "top"]
def rightWords : List String := ["all", "horizontal", "right"]
def bottomWords : List String := ["all", "vertical", "bottom"]
def leftWords : List String := ["all", "horizontal", "left"]

theorem paddingEntry_eq (p : Sides Nat) (area : Str) (v : Int) : paddingEntry p area v =
    ⟨if Concerns topWords (area, v) then v.toNat else p.top, if Concerns rightWords (area, v) then v.toNat else p.right,
      if Concerns bottomWords (area, v) then v.toNat else p.bottom, if Concerns leftWords (area, v) then v.toNat else p.left⟩ := by
  unfold paddingEntry
  split
  · rename_i hneg
    have : ∀ w, ¬ Concerns w (area, v) := by intro w h; have := h.1; simp only at this; omega
    simp only [this, if_false]
  · rename_i hpos
    have hc : ∀ w, Concerns w (area, v) ↔ ∃ x ∈ w, Abbreviates area x := by
      intro w; exact ⟨fun h => h.2, fun h => ⟨by show 0 ≤ v; omega, h⟩⟩
    have hc3 : ∀ a b c : String, (Concerns [a, b, c] (area, v) ↔ (Abbreviates area a ∨ Abbreviates area b ∨ Abbreviates area c)) := by
      intro a b c; rw [hc]; simp
    have c1 : Concerns topWords (area, v) ↔ _ := hc3 _ _ _
    have c2 : Concerns rightWords (area, v) ↔ _ := hc3 _ _ _
    have c3 : Concerns bottomWords (area, v) ↔ _ := hc3 _ _ _
    have c4 : Concerns leftWords (area, v) ↔ _ := hc3 _ _ _
    simp only [c1, c2, c3, c4]
    have i1 := areaIs_iff "all" (by decide) area
    have i2 := areaIs_iff "horizontal" (by decide) area
    have i3 := areaIs_iff "vertical" (by decide) area
    have i4 := areaIs_iff "top" (by decide) area
    have i5 := areaIs_iff "right" (by decide) area
    have i6 := areaIs_iff "left" (by decide) area
    have i7 := areaIs_iff "bottom" (by decide) area
    simp only [i1, i2, i3, i4, i5, i6, i7]
    by_cases h1 : Abbreviates area "all"
    · simp [h1]
    · by_cases h2 : Abbreviates area "horizontal"
      · have a := not_both h1 (c := 'h'.toNat) (w' := "vertical") (c' := 'v'.toNat) (by decide) (by decide) (by decide) h2
        have b := not_both h1 (c := 'h'.toNat) (w' := "top") (c' := 't'.toNat) (by decide) (by decide) (by decide) h2
        have c := not_both h1 (c := 'h'.toNat) (w' := "right") (c' := 'r'.toNat) (by decide) (by decide) (by decide) h2
        have d := not_both h1 (c := 'h'.toNat) (w' := "left") (c' := 'l'.toNat) (by decide) (by decide) (by decide) h2
        have e := not_both h1 (c := 'h'.toNat) (w' := "bottom") (c' := 'b'.toNat) (by decide) (by decide) (by decide) h2
        simp [h1, h2, a, b, c, d, e]
      · by_cases h3 : Abbreviates area "vertical"
        · have b := not_both h1 (c := 'v'.toNat) (w' := "top") (c' := 't'.toNat) (by decide) (by decide) (by decide) h3
          have c := not_both h1 (c := 'v'.toNat) (w' := "right") (c' := 'r'.toNat) (by decide) (by decide) (by decide) h3
          have d := not_both h1 (c := 'v'.toNat) (w' := "left") (c' := 'l'.toNat) (by decide) (by decide) (by decide) h3
          have e := not_both h1 (c := 'v'.toNat) (w' := "bottom") (c' := 'b'.toNat) (by decide) (by decide) (by decide) h3
          simp [h1, h2, h3, b, c, d, e]
        · by_cases h4 : Abbreviates area "top"
          · have c := not_both h1 (c := 't'.toNat) (w' := "right") (c' := 'r'.toNat) (by decide) (by decide) (by decide) h4
            have d := not_both h1 (c := 't'.toNat) (w' := "left") (c' := 'l'.toNat) (by decide) (by decide) (by decide) h4
            have e := not_both h1 (c := 't'.toNat) (w' := "bottom") (c' := 'b'.toNat) (by decide) (by decide) (by decide) h4
            simp [h1, h2, h3, h4, c, d, e]
          · by_cases h5 : Abbreviates area "right"
            · have d := not_both h1 (c := 'r'.toNat) (w' := "left") (c' := 'l'.toNat) (by decide) (by decide) (by decide) h5
              have e := not_both h1 (c := 'r'.toNat) (w' := "bottom") (c' := 'b'.toNat) (by decide) (by decide) (by decide) h5
              simp [h1, h2, h3, h4, h5, d, e]
            · by_cases h6 : Abbreviates area "left"
              · have e := not_both h1 (c := 'l'.toNat) (w' := "bottom") (c' := 'b'.toNat) (by decide) (by decide) (by decide) h6
                simp [h1, h2, h3, h4, h5, h6, e]
              · by_cases h7 : Abbreviates area "bottom" <;> simp [h1, h2, h3, h4, h5, h6, h7]

/-- the last entry decides, `init` is the value before -/
def lastOr (words : List String) (entries : List (Str × Int)) (init : Nat) : Nat :=
  match (entries.filter (fun e => decide (Concerns words e))).getLast? with
  | some e => e.2.toNat
  | none => init

theorem lastOr_cons (words : List String) (e : Str × Int) (es : List (Str × Int)) (init : Nat) :
    lastOr words (e :: es) init = lastOr words es (if Concerns words e then e.2.toNat else init) := by
  unfold lastOr
  by_cases h : Concerns words e
  · rw [List.filter_cons_of_pos (by simpa using h), getLast?_cons_or]
    cases (es.filter (fun e => decide (Concerns words e))).getLast? <;> simp [h]
  · rw [List.filter_cons_of_neg (by simpa using h)]
    cases (es.filter (fun e => decide (Concerns words e))).getLast? <;> simp [h]

theorem padding_fold (es : List (Str × Int)) : ∀ p : Sides Nat, es.foldl (fun p e => paddingEntry p e.1 e.2) p =
    ⟨lastOr topWords es p.top, lastOr rightWords es p.right, lastOr bottomWords es p.bottom, lastOr leftWords es p.left⟩ := by
  induction es with
  | nil => intro p; rfl
  | cons e es ih =>
    intro p
    rw [List.foldl_cons, ih, paddingEntry_eq]
    simp only [lastOr_cons]

theorem padding_items {env : ParseEnv} {items : List Item} {st st' : ParseState} (h : parseItems env items st = .ok st') :
    st'.cur.core.padding = (paddings items).foldl (fun p e => paddingEntry p e.1 e.2) st.cur.core.padding := by
  have key := parseItems_fold (env := env) (fun st => st.cur.core.padding)
    (fun p i => (match i with | .padding es => es | _ => ([] : List (Str × Int))).foldl (fun p (e : Str × Int) => paddingEntry p e.1 e.2) p) (by
      intro st st' i h
      cases i with
      | keyword k v =>
        obtain ⟨d, hd, h2⟩ := Res.bind_eq_ok.1 h
        simp only [Res.ok.injEq] at h2; subst h2
        obtain ⟨a, b, t, m, rfl⟩ := (keyword_step hd).same
        rfl
      | tags vs =>
        obtain ⟨d, hd, h2⟩ := Res.bind_eq_ok.1 h
        simp only [Res.ok.injEq] at h2; subst h2; rfl
      | sample t => obtain ⟨_, l, rfl⟩ := sample_frame h; rfl
      | shapes defs => obtain ⟨_, _, _, _, _, rfl⟩ := (shapes_frame h).same; rfl
      | elastic names => obtain ⟨_, _, _, _, _, rfl⟩ := (elasticItem_frame h).same; rfl
      | replace f s r =>
        obtain ⟨d, hd, h2⟩ := Res.bind_eq_ok.1 h
        simp only [Res.ok.injEq] at h2; subst h2; rfl
      | reverse f s r =>
        obtain ⟨d, hd, h2⟩ := Res.bind_eq_ok.1 h
        simp only [Res.ok.injEq] at h2; subst h2; rfl
      | padding es => simp only [parseItem, Res.ok.injEq] at h; subst h; rfl
      | other => simp only [parseItem, Res.ok.injEq] at h; subst h; rfl
      | bad => simp [parseItem] at h) h
  rw [key, paddings, List.foldl_flatMap]
  congr 1

/-! ## tags -/

theorem commaSplit_append {a b : Str} (ha : ','.toNat ∉ a) : commaSplit (a ++ ','.toNat :: b) = a :: commaSplit b := by
  induction a with
  | nil => simp [commaSplit]
  | cons c a ih =>
    rw [List.cons_append, commaSplit, if_neg (by intro e; exact ha (by simp [e])), ih (fun h => ha (List.mem_cons_of_mem _ h))]

theorem commaSplit_none {a : Str} (ha : ','.toNat ∉ a) : commaSplit a = [a] := by
  induction a with
  | nil => rfl
  | cons c a ih =>
    rw [commaSplit, if_neg (by intro e; exact ha (by simp [e])), ih (fun h => ha (List.mem_cons_of_mem _ h))]

/-- `trimBlanks` in the form needed for `C06_trimdup` -/
theorem trimBlanks_split (db : CharDb) (l : Str) : ∃ x y, l = x ++ trimBlanks db l ++ y ∧ (∀ c ∈ x, db.ucBlank c = true) ∧
    (∀ c ∈ y, db.ucBlank c = true) ∧
    (trimBlanks db l = [] ∨ (∃ a, (trimBlanks db l).head? = some a ∧ db.ucBlank a = false) ∧
      ∃ z, (trimBlanks db l).getLast? = some z ∧ db.ucBlank z = false) := by
  have h1 : l.takeWhile db.ucBlank ++ l.dropWhile db.ucBlank = l := List.takeWhile_append_dropWhile
  have h2 : (l.dropWhile db.ucBlank).reverse.takeWhile db.ucBlank ++ (l.dropWhile db.ucBlank).reverse.dropWhile db.ucBlank =
      (l.dropWhile db.ucBlank).reverse := List.takeWhile_append_dropWhile
  have h3 := congrArg List.reverse h2
  rw [List.reverse_append, List.reverse_reverse] at h3
  refine ⟨l.takeWhile db.ucBlank, ((l.dropWhile db.ucBlank).reverse.takeWhile db.ucBlank).reverse, ?_, ?_, ?_, ?_⟩
  · unfold trimBlanks
    rw [List.append_assoc, h3, h1]
  · intro c hc; exact List.all_eq_true.1 List.all_takeWhile c hc
  · intro c hc; exact List.all_eq_true.1 List.all_takeWhile c (List.mem_reverse.1 hc)
  · by_cases ht : trimBlanks db l = []
    · exact Or.inl ht
    · right
      have hd : ∀ (p : Str) (a : Nat), (p.dropWhile db.ucBlank).head? = some a → db.ucBlank a = false := by
        intro p a h
        have := List.head?_dropWhile_not db.ucBlank p
        rw [h] at this
        simpa using this
      constructor
      · cases hh : (trimBlanks db l).head? with
        | none => exact absurd (List.head?_eq_none_iff.1 hh) ht
        | some a =>
          refine ⟨a, rfl, hd l a ?_⟩
          rw [← h3, List.head?_append]
          show Option.or (trimBlanks db l).head? _ = _
          rw [hh]; rfl
      · cases hh : (trimBlanks db l).getLast? with
        | none => exact absurd (List.getLast?_eq_none_iff.1 hh) ht
        | some a =>
          refine ⟨a, rfl, hd (l.dropWhile db.ucBlank).reverse a ?_⟩
          rw [← hh]
          unfold trimBlanks
          rw [List.getLast?_reverse]

open Classical in
/-- one more tag -/
noncomputable def addTag (known : List Str) (t : Str) : List Str :=
  if Identifier true t ∧ ¬ ∃ k ∈ known, SameName k t then known ++ [t] else known

theorem collectTags_foldl (l : List Str) : ∀ known : List Str, collectTags known l = l.foldl addTag known := by
  induction l with
  | nil => intro k; rfl
  | cons t rest ih =>
    intro k
    rw [List.foldl_cons, collectTags, addTag]
    split <;> exact ih _

theorem identifier_ascii {s : Str} (h : Identifier true s) : ∀ c ∈ s, 0x20 ≤ c ∧ c < 0x7f := by
  intro c hc
  rcases h.chars c hc with h | h | h
  · rcases h with h | ⟨h, _⟩
    · simp at h; omega
    · simp at h
  · simp [Digit] at h; omega
  · simp [Separator] at h; omega

theorem asciiForm_id {db : CharDb} {s : Str} (h : ∀ c ∈ s, 0x20 ≤ c ∧ c < 0x7f) : asciiForm db s = s := by
  unfold asciiForm
  induction s with
  | nil => rfl
  | cons c s ih =>
    rw [List.flatMap_cons, if_pos (h c (by simp)), ih (fun x hx => h x (by simp [hx]))]; rfl

theorem trimdup_sub {db : CharDb} {b r : Bxs} {i j : Nat} (h : b.trimdup db i j = some r) : ∀ c ∈ r.memory, c ∈ b.memory := by
  unfold Bxs.trimdup at h
  split at h
  · simp at h
  · split at h
    · simp at h
    · split at h
      · simp at h
      · simp only [bind, Option.bind_eq_some_iff] at h
        obtain ⟨s, _, e, _, p, _, h⟩ := h
        split at h
        · simp only [Option.bind_eq_some_iff] at h
          obtain ⟨q, _, h⟩ := h
          rw [fromUnicode_memory h]
          intro c hc
          exact List.mem_of_mem_take (List.mem_of_mem_drop hc)
        · rw [fromUnicode_memory h]
          intro c hc
          exact List.mem_of_mem_drop hc

theorem tagAddPart_eq (db : CharDb) {s : Str} {b : Bxs} (h : 0x1b ∉ s) (hb : fromUnicode db s = some b) (hn : 0x0a ∉ s) (i j : Nat)
    (hij : i ≤ j) (hj : j ≤ s.length) (tags : List Str) :
    tagAddPart db b i j tags = addTag tags (trimBlanks db ((s.take j).drop i)) := by
  obtain ⟨x, y, hl, hx, hy, hm⟩ := trimBlanks_split db ((s.take j).drop i)
  obtain ⟨r, h1, h2, h3⟩ := C06_trimdup db (text_of_no_esc h) hb i j hij hj hl hx hy hm
  generalize trimBlanks db ((s.take j).drop i) = m at *
  have hsub : ∀ c ∈ r.memory, c ∈ s := by
    intro c hc
    have := trimdup_sub h1 c hc
    rwa [fromUnicode_memory hb] at this
  have hr : r.memory = m := Spec.Text.unique (text_of_no_esc (fun hc => h (hsub _ hc))) h3
  have hid : isAsciiId r.memory true = true ↔ Identifier true m := by
    rw [← hr]; exact (C41_exact _ (fun hc => hn (hsub _ hc))).2 true
  unfold tagAddPart addTag tagAdd
  rw [h1]
  simp only
  by_cases hv : Identifier true m
  · rw [if_pos (hid.2 hv)]
    have ha : r.ascii = m := by
      rw [C01_ascii db h3 h2, asciiForm_id (identifier_ascii hv)]
    rw [ha]
    have hcon : arrayContains0 tags m = true ↔ ∃ k ∈ tags, SameName k m := by
      unfold arrayContains0
      rw [List.any_eq_true]
      constructor
      · rintro ⟨k, hk, he⟩; exact ⟨k, hk, (sameName_iff _ _).1 he⟩
      · rintro ⟨k, hk, he⟩; exact ⟨k, hk, (sameName_iff _ _).2 he⟩
    by_cases hk : ∃ k ∈ tags, SameName k m
    · rw [if_neg (by simp [hcon.2 hk]), if_neg (fun h => h.2 hk)]
    · have hf : arrayContains0 tags m = false := by
        cases hc : arrayContains0 tags m with
        | false => rfl
        | true => exact absurd (hcon.1 hc) hk
      rw [if_pos (by simp [hf]), if_pos ⟨hv, hk⟩]
  · rw [if_neg (fun h => hv (hid.1 h)), if_neg (fun h => hv h.1)]

theorem fromUnicode_vis {db : CharDb} {s : Str} {b : Bxs} (h : 0x1b ∉ s) (hb : fromUnicode db s = some b) : b.vis = s.length ∧ b.invis = 0 := by
  obtain ⟨_, _, m1, m2, _⟩ := C01_metrics db (text_of_no_esc h) hb
  exact ⟨by omega, by omega⟩

theorem tagSplitAdd_eq (db : CharDb) {s : Str} {b : Bxs} (h : 0x1b ∉ s) (hb : fromUnicode db s = some b) (hn : 0x0a ∉ s) :
    ∀ (fuel start : Nat) (tags : List Str), start ≤ s.length → s.length - start < fuel →
      tagSplitAdd db b fuel start tags = ((commaSplit (s.drop start)).map (trimBlanks db)).foldl addTag tags := by
  intro fuel
  induction fuel with
  | zero => intro start tags _ hf; omega
  | succ fuel ih =>
    intro start tags hs hf
    obtain ⟨hv, _⟩ := fromUnicode_vis h hb
    obtain ⟨c1, c2⟩ := C06_strchr db (text_of_no_esc h) hb chComma start
    rw [tagSplitAdd]
    cases hc : b.strchr chComma start with
    | none =>
      simp only
      have hno : ','.toNat ∉ s.drop start := by
        intro hm
        obtain ⟨k, hk, he⟩ := List.mem_iff_getElem.1 hm
        rw [List.getElem_drop] at he
        refine c2 hc (start + k) (by omega) ?_
        rw [List.getElem?_eq_some_iff]
        exact ⟨by simp at hk; omega, he⟩
      rw [commaSplit_none hno, hv, tagAddPart_eq db h hb hn start s.length hs (by omega), List.take_length]
      rfl
    | some cursor =>
      simp only
      obtain ⟨h1, h2, h3⟩ := c1 cursor hc
      obtain ⟨hlt, he⟩ := List.getElem?_eq_some_iff.1 h2
      have hsplit : s.drop start = (s.take cursor).drop start ++ ','.toNat :: s.drop (cursor + 1) := by
        have e1 : s.drop start = (s.drop start).take (cursor - start) ++ (s.drop start).drop (cursor - start) := (List.take_append_drop _ _).symm
        rw [List.drop_drop, show start + (cursor - start) = cursor from by omega, List.drop_eq_getElem_cons hlt, he, ← List.drop_take] at e1
        exact e1
      have hno : ','.toNat ∉ (s.take cursor).drop start := by
        intro hm
        obtain ⟨k, hk, hke⟩ := List.mem_iff_getElem.1 hm
        rw [List.getElem_drop, List.getElem_take] at hke
        simp at hk
        refine h3 (start + k) (by omega) (by omega) ?_
        rw [List.getElem?_eq_some_iff]
        exact ⟨by omega, hke⟩
      rw [hsplit, commaSplit_append hno, List.map_cons, List.foldl_cons, ih (cursor + 1) _ (by omega) (by omega),
        tagAddPart_eq db h hb hn start cursor h1 (by omega)]

theorem Spec.Text.length_le {s v : Str} (h : Text s v) : v.length ≤ s.length := by
  induction h with
  | nil => simp
  | vis c _ _ ih => simp; omega
  | esc e _ _ ih => simp; omega

theorem Spec.Text.length_lt {s v : Str} (h : Text s v) (he : 0x1b ∈ s) : v.length < s.length := by
  induction h with
  | nil => simp at he
  | @vis c s v hc h ih =>
    have := ih (by rcases List.mem_cons.1 he with h | h
                   · exact absurd h.symm hc
                   · exact h)
    simp; omega
  | @esc e s v hesc h ih =>
    have h1 := h.length_le
    have h2 : 0 < e.length := by cases hesc <;> simp
    simp; omega

theorem esc_invis {db : CharDb} {s v : Str} {b : Bxs} (h : Text s v) (hb : fromUnicode db s = some b) (he : 0x1b ∈ s) : 0 < b.invis := by
  obtain ⟨_, _, m1, m2, _⟩ := C01_metrics db h hb
  have := h.length_lt he
  omega

/-- C54 for one text -/
theorem tagRecord_eq {db : CharDb} {tags tags' : List Str} {s : Str} (hw : ∃ v, Text s v) (hn : 0x0a ∉ s)
    (h : tagRecord db tags s = .ok tags') : tags' = (tagCandidates db s).foldl addTag tags := by
  unfold tagRecord at h
  unfold tagCandidates
  cases hb : fromUnicode db s with
  | none => rw [hb] at h; simp at h
  | some b =>
    rw [hb] at h
    simp only at h
    by_cases he : 0x1b ∈ s
    · obtain ⟨v, hv⟩ := hw
      rw [if_pos (esc_invis hv hb he)] at h
      simp only [Res.ok.injEq] at h
      rw [if_pos he, ← h]; rfl
    · obtain ⟨hv, hi⟩ := fromUnicode_vis he hb
      rw [if_neg (by omega)] at h
      rw [if_neg he]
      split at h
      · simp only [Res.ok.injEq] at h
        rw [← h, hv, tagSplitAdd_eq db he hb hn _ _ _ (by omega) (by omega)]; rfl
      · rename_i hc
        simp only [Res.ok.injEq] at h
        have hnone : b.strchr chComma 0 = none := by
          cases hh : b.strchr chComma 0 with
          | none => rfl
          | some x => rw [hh] at hc; simp at hc
        have := tagSplitAdd_eq db he hb hn (s.length + 1) 0 tags (by omega) (by omega)
        rw [tagSplitAdd, hnone] at this
        simp only at this
        rw [← h, this]; rfl

theorem tagList_eq {db : CharDb} : ∀ {vs : List Str} {tags tags' : List Str}, (∀ s ∈ vs, (∃ v, Text s v) ∧ 0x0a ∉ s) →
    tagList db vs tags = .ok tags' → tags' = (vs.flatMap (tagCandidates db)).foldl addTag tags
  | [], tags, tags', _, h => by simp only [tagList, Res.ok.injEq] at h; rw [← h]; rfl
  | t :: rest, tags, tags', hw, h => by
    rw [tagList] at h
    obtain ⟨t1, h1, h2⟩ := Res.bind_eq_ok.1 h
    rw [List.flatMap_cons, List.foldl_append, ← tagRecord_eq (hw t (by simp)).1 (hw t (by simp)).2 h1]
    exact tagList_eq (fun s hs => hw s (by simp [hs])) h2

theorem tags_items {env : ParseEnv} : ∀ {items : List Item} {st st' : ParseState},
    (∀ s ∈ tagTexts items, (∃ v, Text s v) ∧ 0x0a ∉ s) → parseItems env items st = .ok st' →
    st'.cur.tags = ((tagTexts items).flatMap (tagCandidates env.db)).foldl addTag st.cur.tags
  | [], st, st', _, h => by simp only [parseItems, Res.ok.injEq] at h; rw [← h]; rfl
  | i :: rest, st, st', hw, h => by
    rw [parseItems] at h
    obtain ⟨st1, h1, h2⟩ := Res.bind_eq_ok.1 h
    have hcons : tagTexts (i :: rest) = tagTexts [i] ++ tagTexts rest := by simp [tagTexts]
    rw [hcons] at hw ⊢
    rw [tags_items (fun s hs => hw s (by simp [hs])) h2, List.flatMap_append, List.foldl_append]
    congr 1
    have hw1 : ∀ s ∈ tagTexts [i], (∃ v, Text s v) ∧ 0x0a ∉ s := fun s hs => hw s (by simp [hs])
    cases i with
    | keyword k v =>
      obtain ⟨d, hd, h2⟩ := Res.bind_eq_ok.1 h1
      simp only [Res.ok.injEq] at h2; subst h2
      have := (keyword_step hd).tags
      by_cases hk : Word "tags" k
      · rw [if_pos hk] at this
        have e : tagTexts [Item.keyword k v] = [v] := by simp [tagTexts, hk]
        rw [e] at hw1 ⊢
        rw [List.flatMap_cons, List.flatMap_nil, List.append_nil]
        exact tagRecord_eq (hw1 v (by simp)).1 (hw1 v (by simp)).2 this
      · rw [if_neg hk] at this
        have e : tagTexts [Item.keyword k v] = [] := by simp [tagTexts, hk]
        rw [e]; exact this
    | tags vs =>
      obtain ⟨d, hd, h2⟩ := Res.bind_eq_ok.1 h1
      simp only [Res.ok.injEq] at h2; subst h2
      have e : tagTexts [Item.tags vs] = vs := by simp [tagTexts]
      rw [e] at hw1 ⊢
      exact tagList_eq hw1 hd
    | sample t => obtain ⟨_, l, rfl⟩ := sample_frame h1; rfl
    | shapes defs => obtain ⟨_, _, _, _, _, rfl⟩ := (shapes_frame h1).same; rfl
    | elastic names => obtain ⟨_, _, _, _, _, rfl⟩ := (elasticItem_frame h1).same; rfl
    | replace f s r =>
      obtain ⟨d, hd, h2⟩ := Res.bind_eq_ok.1 h1
      simp only [Res.ok.injEq] at h2; subst h2; rfl
    | reverse f s r =>
      obtain ⟨d, hd, h2⟩ := Res.bind_eq_ok.1 h1
      simp only [Res.ok.injEq] at h2; subst h2; rfl
    | padding es => simp only [parseItem, Res.ok.injEq] at h1; subst h1; rfl
    | other => simp only [parseItem, Res.ok.injEq] at h1; subst h1; rfl
    | bad => simp [parseItem] at h1

end Boxes
