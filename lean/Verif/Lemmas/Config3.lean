import Verif.Lemmas.Config2

/-! # Lemmas about the shapes, the names and the sample of a parsed design -/
namespace Boxes
open Spec ShapeName
set_option linter.unusedSimpArgs false

theorem FromTexts.memories {db : CharDb} {texts : List Str} {s : Shape} (h : FromTexts db texts s) : s.lines.map (·.memory) = texts := by
  have key : ∀ (lines : List Bxs) (texts : List Str), lines.map some = texts.map (fromUnicode db) → lines.map (·.memory) = texts := by
    intro lines
    induction lines with
    | nil => intro texts h; cases texts with
      | nil => rfl
      | cons t r => simp at h
    | cons b rest ih =>
      intro texts h
      cases texts with
      | nil => simp at h
      | cons t r =>
        simp only [List.map_cons, List.cons.injEq] at h ⊢
        exact ⟨fromUnicode_memory h.1.symm, ih r h.2⟩
  exact key _ _ h.lines

theorem shapeDef_given {db : CharDb} {t : Str} {rest : List Str} {s : Shape} (h : shapeDef db (t :: rest) = .ok s) {v : Str}
    (hv : Text t v) (hc : 0 < columns db v) : FromTexts db (t :: rest) s ∧ 0 < s.width ∧ Present s := by
  unfold shapeDef at h
  obtain ⟨s1, h1, h2⟩ := Res.bind_eq_ok.1 h
  obtain ⟨s2, h3, h4⟩ := Res.bind_eq_ok.1 h2
  have f1 := firstShapeLine_ok h1
  obtain ⟨f2, -⟩ := addShapeLines_ok rest [t] f1 h3
  have f3 : FromTexts db (t :: rest) s2 := by simpa using f2
  simp only [Res.ok.injEq] at h4
  have hw : 0 < s2.width := by
    cases hl : s2.lines with
    | nil => have := f3.lines; rw [hl] at this; simp at this
    | cons b bs =>
      have := f3.lines
      rw [hl] at this
      simp only [List.map_cons, List.cons.injEq] at this
      have hb := (f3.cols b (by rw [hl]; simp)).1
      obtain ⟨_, _, _, _, hcols, _⟩ := C01_metrics db hv this.1.symm
      omega
  have hh : s2.height = rest.length + 1 := by rw [f3.height]; simp
  rw [if_neg (by simp; omega)] at h4
  subst h4
  refine ⟨f3, hw, ?_, hw, by omega⟩
  intro hn
  have := f3.lines
  rw [hn] at this; simp at this

theorem shapeDef_elastic {db : CharDb} {texts : List Str} {s : Shape} (h : shapeDef db texts = .ok s) : s.elastic = false := by
  rcases shapeDef_ok h with rfl | ⟨_, f, _⟩
  · rfl
  · rw [f.rest]; rfl

/-- `lines` are given for `n`, and take some space -/
def GivenIn (db : CharDb) (defs : List (ShapeName × List Str)) (n : ShapeName) (lines : List Str) : Prop :=
  (n, lines) ∈ defs ∧ ∃ t rest v, lines = t :: rest ∧ Text t v ∧ 0 < columns db v

/-- The shapes so far are those given so far, and generated ones. -/
structure Written (db : CharDb) (defs : List (ShapeName × List Str)) (shape : ShapeName → Shape) : Prop where
  given : ∀ n lines, GivenIn db defs n lines → Present (shape n) ∧ (shape n).lines.map (·.memory) = lines
  source : ∀ n, Present (shape n) → (n, (shape n).lines.map (·.memory)) ∈ defs ∨
    (n ∈ [NW, NE, SE, SW, N, E, S, W] ∧ ∀ b ∈ (shape n).lines, ∀ c ∈ b.memory, c = 0x20)

theorem slistEntry_written {db : CharDb} {defs : List (ShapeName × List Str)} {st st' : ParseState} {n : ShapeName} {lines : List Str}
    (hw : Written db defs st.cur.core.shape) (h : slistEntry db st n lines = .ok st') :
    Written db (defs ++ [(n, lines)]) st'.cur.core.shape := by
  unfold slistEntry at h
  obtain ⟨s, hs, h2⟩ := Res.bind_eq_ok.1 h
  split at h2
  · rename_i hem
    simp only [Res.ok.injEq] at h2
    subst h2
    have hnp := (isEmpty_iff_not_present _).1 hem
    have hsh : ∀ m, (st.cur.core.setShape n s).shape m = if m = n then s else st.cur.core.shape m := by
      intro m; simp [Design.setShape]
    refine ⟨?_, ?_⟩
    · intro m ls hg
      show Present ((st.cur.core.setShape n s).shape m) ∧ ((st.cur.core.setShape n s).shape m).lines.map (·.memory) = ls
      rw [hsh]
      obtain ⟨hm, t, rest, v, rfl, hv, hc⟩ := hg
      rw [List.mem_append, List.mem_singleton] at hm
      rcases hm with hm | hm
      · have := hw.given m _ ⟨hm, t, rest, v, rfl, hv, hc⟩
        by_cases he : m = n
        · subst he; exact absurd this.1 hnp
        · rw [if_neg he]; exact this
      · simp only [Prod.mk.injEq] at hm
        obtain ⟨rfl, rfl⟩ := hm
        rw [if_pos rfl]
        obtain ⟨f, _, hp⟩ := shapeDef_given hs hv hc
        exact ⟨hp, f.memories⟩
    · intro m hp
      have hp' : Present ((st.cur.core.setShape n s).shape m) := hp
      show (m, ((st.cur.core.setShape n s).shape m).lines.map (·.memory)) ∈ _ ∨ _ ∧ ∀ b ∈ ((st.cur.core.setShape n s).shape m).lines, _
      rw [hsh] at hp' ⊢
      by_cases he : m = n
      · subst he
        rw [if_pos rfl] at hp' ⊢
        rcases shapeDef_ok hs with rfl | ⟨_, f, _⟩
        · exact absurd rfl hp'.1
        · left; rw [f.memories]; simp
      · rw [if_neg he] at hp' ⊢
        rcases hw.source m hp' with h | h
        · left; simp [h]
        · exact Or.inr h
  · simp at h2

theorem slist_written {db : CharDb} : ∀ {defs0 defs : List (ShapeName × List Str)} {st st' : ParseState},
    Written db defs0 st.cur.core.shape → slist db defs st = .ok st' → Written db (defs0 ++ defs) st'.cur.core.shape
  | defs0, [], st, st', hw, h => by simp only [slist, Res.ok.injEq] at h; rw [← h]; simpa using hw
  | defs0, (n, ls) :: rest, st, st', hw, h => by
    rw [slist] at h
    obtain ⟨st1, h1, h2⟩ := Res.bind_eq_ok.1 h
    have := slist_written (slistEntry_written hw h1) h2
    simpa using this

theorem completion_written {db : CharDb} {defs : List (ShapeName × List Str)} {a b : ShapeName → Shape} (hw : Written db defs a)
    (hc : Completion a b) : Written db defs (fun n => { b n with name := n }) := by
  refine ⟨?_, ?_⟩
  · intro n ls hg
    obtain ⟨hp, hl⟩ := hw.given n ls hg
    have he := hc.keep n hp
    show Present { b n with name := n } ∧ (b n).lines.map (·.memory) = ls
    rw [he]; exact ⟨hp, hl⟩
  · intro n hp
    show (n, (b n).lines.map (·.memory)) ∈ defs ∨ _ ∧ ∀ x ∈ (b n).lines, _
    by_cases ho : Present (a n)
    · rw [hc.keep n ho]; exact hw.source n ho
    · rcases hc.made n ho with he | ⟨w, h, e, _, _, _, hn, he⟩
      · have : Present (b n) := hp
        rw [he] at this; exact absurd this ho
      · right
        refine ⟨hn, ?_⟩
        rw [he]
        intro x hx c hcm
        rw [List.eq_of_mem_replicate hx] at hcm
        exact List.eq_of_mem_replicate hcm

theorem parseItem_written {env : ParseEnv} {defs : List (ShapeName × List Str)} {st st' : ParseState} {i : Item}
    (hw : Written env.db defs st.cur.core.shape) (h : parseItem env st i = .ok st') :
    Written env.db (defs ++ givenShapes [i]) st'.cur.core.shape := by
  cases i with
  | keyword k v =>
    obtain ⟨d, hd, h2⟩ := Res.bind_eq_ok.1 h
    simp only [Res.ok.injEq] at h2; subst h2
    obtain ⟨a, b, t, m, rfl⟩ := (keyword_step hd).same
    simpa [givenShapes] using hw
  | tags vs =>
    obtain ⟨d, hd, h2⟩ := Res.bind_eq_ok.1 h
    simp only [Res.ok.injEq] at h2; subst h2; simpa [givenShapes] using hw
  | sample t => obtain ⟨_, l, rfl⟩ := sample_frame h; simpa [givenShapes] using hw
  | shapes ds =>
    rw [parseItem] at h
    obtain ⟨st1, h1, h2⟩ := Res.bind_eq_ok.1 h
    have hw1 := slist_written hw h1
    obtain ⟨sh2, hc, _, _, _, _, _, rfl⟩ := finalize_ok h2
    have := completion_written hw1 hc
    simpa [givenShapes] using this
  | elastic names =>
    unfold parseItem elasticBlock at h
    obtain ⟨f, hf, hfn⟩ := elist_foldl names st
    simp only [hf] at h
    split at h
    · simp at h
    · simp only [Res.ok.injEq] at h
      subst h
      have e1 : ∀ n, (Present (f n) ↔ Present (st.cur.core.shape n)) ∧ (f n).lines = (st.cur.core.shape n).lines := by
        intro n; rw [hfn]; exact ⟨Iff.rfl, rfl⟩
      have e0 : givenShapes [Item.elastic names] = [] := rfl
      rw [e0, List.append_nil]
      refine ⟨?_, ?_⟩
      · intro n ls hg
        obtain ⟨hp, hl⟩ := hw.given n ls hg
        show Present (f n) ∧ (f n).lines.map _ = ls
        rw [(e1 n).2]; exact ⟨(e1 n).1.2 hp, hl⟩
      · intro n hp
        have hp' : Present (f n) := hp
        show (n, (f n).lines.map _) ∈ defs ∨ _ ∧ ∀ b ∈ (f n).lines, _
        rw [(e1 n).2]; exact hw.source n ((e1 n).1.1 hp')
  | replace f s r =>
    obtain ⟨d, hd, h2⟩ := Res.bind_eq_ok.1 h
    simp only [Res.ok.injEq] at h2; subst h2; simpa [givenShapes] using hw
  | reverse f s r =>
    obtain ⟨d, hd, h2⟩ := Res.bind_eq_ok.1 h
    simp only [Res.ok.injEq] at h2; subst h2; simpa [givenShapes] using hw
  | padding es => simp only [parseItem, Res.ok.injEq] at h; subst h; simpa [givenShapes] using hw
  | other => simp only [parseItem, Res.ok.injEq] at h; subst h; simpa [givenShapes] using hw
  | bad => simp [parseItem] at h

theorem parseItems_written {env : ParseEnv} : ∀ {items : List Item} {defs : List (ShapeName × List Str)} {st st' : ParseState},
    Written env.db defs st.cur.core.shape → parseItems env items st = .ok st' →
    Written env.db (defs ++ givenShapes items) st'.cur.core.shape
  | [], defs, st, st', hw, h => by simp only [parseItems, Res.ok.injEq] at h; rw [← h]; simpa [givenShapes] using hw
  | i :: rest, defs, st, st', hw, h => by
    rw [parseItems] at h
    obtain ⟨st1, h1, h2⟩ := Res.bind_eq_ok.1 h
    have := parseItems_written (parseItem_written hw h1) h2
    have e : givenShapes (i :: rest) = givenShapes [i] ++ givenShapes rest := by simp [givenShapes]
    rw [e, ← List.append_assoc]; exact this

/-! ## elastic shapes -/

theorem parseItems_append {env : ParseEnv} : ∀ (a b : List Item) (st : ParseState),
    parseItems env (a ++ b) st = (parseItems env a st).bind (parseItems env b)
  | [], b, st => rfl
  | i :: rest, b, st => by
    rw [List.cons_append, parseItems, parseItems]
    cases h : parseItem env st i with
    | ok st1 => exact parseItems_append rest b st1
    | fail c => rfl
    | ub => rfl

/-- the shapes are not touched by other entries -/
theorem parseItem_shape {env : ParseEnv} {st st' : ParseState} {i : Item} (h : parseItem env st i = .ok st')
    (hs : shapeBlocks [i] = 0) : ∀ n, st'.cur.core.shape n =
      { st.cur.core.shape n with elastic := (st.cur.core.shape n).elastic || decide (n ∈ givenElastic [i]) } := by
  cases i with
  | keyword k v =>
    obtain ⟨d, hd, h2⟩ := Res.bind_eq_ok.1 h
    simp only [Res.ok.injEq] at h2; subst h2
    obtain ⟨a, b, t, m, rfl⟩ := (keyword_step hd).same
    simp [givenElastic]
  | tags vs =>
    obtain ⟨d, hd, h2⟩ := Res.bind_eq_ok.1 h
    simp only [Res.ok.injEq] at h2; subst h2; simp [givenElastic]
  | sample t => obtain ⟨_, l, rfl⟩ := sample_frame h; simp [givenElastic]
  | shapes ds => simp [shapeBlocks] at hs
  | elastic names =>
    unfold parseItem elasticBlock at h
    obtain ⟨f, hf, hfn⟩ := elist_foldl names st
    simp only [hf] at h
    split at h
    · simp at h
    · simp only [Res.ok.injEq] at h
      subst h
      intro n
      show f n = _
      rw [hfn]; simp [givenElastic]
  | replace f s r =>
    obtain ⟨d, hd, h2⟩ := Res.bind_eq_ok.1 h
    simp only [Res.ok.injEq] at h2; subst h2; simp [givenElastic]
  | reverse f s r =>
    obtain ⟨d, hd, h2⟩ := Res.bind_eq_ok.1 h
    simp only [Res.ok.injEq] at h2; subst h2; simp [givenElastic]
  | padding es => simp only [parseItem, Res.ok.injEq] at h; subst h; simp [givenElastic]
  | other => simp only [parseItem, Res.ok.injEq] at h; subst h; simp [givenElastic]
  | bad => simp [parseItem] at h

theorem parseItems_shape {env : ParseEnv} : ∀ {items : List Item} {st st' : ParseState}, parseItems env items st = .ok st' →
    shapeBlocks items = 0 → ∀ n, st'.cur.core.shape n =
      { st.cur.core.shape n with elastic := (st.cur.core.shape n).elastic || decide (n ∈ givenElastic items) }
  | [], st, st', h, _ => by simp only [parseItems, Res.ok.injEq] at h; rw [← h]; simp [givenElastic]
  | i :: rest, st, st', h, hs => by
    rw [parseItems] at h
    obtain ⟨st1, h1, h2⟩ := Res.bind_eq_ok.1 h
    have hs' : shapeBlocks [i] = 0 ∧ shapeBlocks rest = 0 := by
      simp only [shapeBlocks, List.countP_cons, List.countP_nil] at hs ⊢; omega
    intro n
    rw [parseItems_shape h2 hs'.2 n, parseItem_shape h1 hs'.1 n]
    have e : givenElastic (i :: rest) = givenElastic [i] ++ givenElastic rest := by simp [givenElastic]
    rw [e]
    simp only [Bool.or_assoc]
    congr 2
    simp [Bool.decide_or]

theorem slist_elastic {db : CharDb} : ∀ {defs : List (ShapeName × List Str)} {st st' : ParseState}, slist db defs st = .ok st' →
    (∀ n, (st.cur.core.shape n).elastic = false) → ∀ n, (st'.cur.core.shape n).elastic = false
  | [], st, st', h, he => by simp only [slist, Res.ok.injEq] at h; rw [← h]; exact he
  | (m, ls) :: rest, st, st', h, he => by
    rw [slist] at h
    obtain ⟨st1, h1, h2⟩ := Res.bind_eq_ok.1 h
    apply slist_elastic h2
    unfold slistEntry at h1
    obtain ⟨s, hs, h3⟩ := Res.bind_eq_ok.1 h1
    split at h3
    · simp only [Res.ok.injEq] at h3
      subst h3
      intro n
      show ((st.cur.core.setShape m s).shape n).elastic = false
      simp only [Design.setShape]
      split
      · exact shapeDef_elastic hs
      · exact he n
    · simp at h3

theorem slist_source {db : CharDb} : ∀ {defs0 defs : List (ShapeName × List Str)} {st st' : ParseState}, slist db defs st = .ok st' →
    (∀ n, Present (st.cur.core.shape n) → ∃ texts, (n, texts) ∈ defs0 ∧ FromTexts db texts (st.cur.core.shape n)) →
    ∀ n, Present (st'.cur.core.shape n) → ∃ texts, (n, texts) ∈ defs0 ++ defs ∧ FromTexts db texts (st'.cur.core.shape n)
  | defs0, [], st, st', h, he => by simp only [slist, Res.ok.injEq] at h; rw [← h]; simpa using he
  | defs0, (m, ls) :: rest, st, st', h, he => by
    rw [slist] at h
    obtain ⟨st1, h1, h2⟩ := Res.bind_eq_ok.1 h
    have e : defs0 ++ (m, ls) :: rest = (defs0 ++ [(m, ls)]) ++ rest := by simp
    rw [e]
    apply slist_source h2
    unfold slistEntry at h1
    obtain ⟨s, hs, h3⟩ := Res.bind_eq_ok.1 h1
    split at h3
    · simp only [Res.ok.injEq] at h3
      subst h3
      intro n hp
      have hp' : Present ((st.cur.core.setShape m s).shape n) := hp
      show ∃ texts, _ ∧ FromTexts db texts ((st.cur.core.setShape m s).shape n)
      simp only [Design.setShape] at hp' ⊢
      by_cases hn : n = m
      · rw [if_pos hn] at hp' ⊢
        rcases shapeDef_ok hs with rfl | ⟨_, f, _⟩
        · exact absurd rfl hp'.1
        · exact ⟨ls, by simp [hn], f⟩
      · rw [if_neg hn] at hp' ⊢
        obtain ⟨t, ht, f⟩ := he n hp'
        exact ⟨t, by simp [ht], f⟩
    · simp at h3

/-- the shapes that exist before the completion are those that are given -/
theorem slist_given {db : CharDb} {defs : List (ShapeName × List Str)} {st st' : ParseState} (h : slist db defs st = .ok st')
    (h0 : ∀ n, st.cur.core.shape n = emptyShape) (hesc : ∀ x ∈ defs, ∀ t ∈ x.2, ∃ v, Text t v) (n : ShapeName)
    (hp : Present (st'.cur.core.shape n)) : ∃ lines, GivenIn db defs n lines := by
  obtain ⟨texts, hm, f⟩ := slist_source (defs0 := []) h (fun n hp => by rw [h0] at hp; exact absurd rfl hp.1) n hp
  rw [List.nil_append] at hm
  cases texts with
  | nil =>
    have := f.height
    have hpos := hp.2.2
    simp at this; omega
  | cons t rest =>
    obtain ⟨v, hv⟩ := hesc _ hm t (by simp)
    refine ⟨t :: rest, hm, t, rest, v, rfl, hv, ?_⟩
    cases hl : (st'.cur.core.shape n).lines with
    | nil => exact absurd hl hp.1
    | cons b bs =>
      have := f.lines
      rw [hl] at this
      simp only [List.map_cons, List.cons.injEq] at this
      have hb := (f.cols b (by rw [hl]; simp)).1
      obtain ⟨_, _, _, _, hcols, _⟩ := C01_metrics db hv this.1.symm
      have := hp.2.1
      omega

theorem givenElastic_nil : ∀ {items : List Item}, elasticBlocks items = 0 → givenElastic items = []
  | [], _ => rfl
  | i :: rest, hz => by
    have hr : elasticBlocks rest = 0 ∧ elasticBlocks [i] = 0 := by
      simp only [elasticBlocks, List.countP_cons, List.countP_nil] at hz ⊢; omega
    have : givenElastic (i :: rest) = givenElastic [i] ++ givenElastic rest := by simp [givenElastic]
    rw [this, givenElastic_nil hr.1, List.append_nil]
    cases i with
    | elastic names => have := hr.2; simp [elasticBlocks] at this
    | _ => rfl

end Boxes
