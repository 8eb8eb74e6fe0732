import Verif.Lemmas.ParseInv
import Verif.Spec.Config
import Verif.Props.Ident
import Verif.Props.Text
import Verif.Lemmas.Remove

/-! # Lemmas about the fields of a parsed design -/
namespace Boxes
open Spec ShapeName
set_option linter.unusedSimpArgs false

theorem lower_eq (c : Nat) : lower c = toLower c := by
  unfold lower toLower; rfl

theorem sameName_iff (a b : Str) : strCaseEq a b = true ↔ SameName a b := by
  have : (lower : Nat → Nat) = toLower := funext lower_eq
  unfold strCaseEq SameName
  rw [this]; simp

theorem word_iff (w : String) (s : Str) (hw : (lit w).map toLower = lit w) : strCaseEq s (lit w) = true ↔ Word w s := by
  have : (lower : Nat → Nat) = toLower := funext lower_eq
  unfold strCaseEq Word
  rw [hw, this]; simp [lit]

theorem word_iff' (w : String) (s : Str) (hw : (lit w).map toLower = lit w) : (Word w s : Prop) = (strCaseEq s (lit w) = true) :=
  propext (word_iff w s hw).symm

theorem called_iff (d : DesignDef) (n : Str) : d.hasName n = true ↔ Called d n := by
  unfold DesignDef.hasName DesignDef.hasAlias Called DesignDef.names
  rw [Bool.or_eq_true, List.any_eq_true, sameName_iff]
  constructor
  · rintro (h | ⟨a, ha, h⟩)
    · exact ⟨d.name, by simp, h⟩
    · exact ⟨a, by simp [ha], (sameName_iff _ _).1 h⟩
  · rintro ⟨m, hm, h⟩
    rcases List.mem_cons.1 hm with rfl | hm
    · exact Or.inl h
    · exact Or.inr ⟨m, hm, (sameName_iff _ _).2 h⟩

theorem Spec.SameName.symm {a b : Str} (h : SameName a b) : SameName b a := Eq.symm h
theorem Spec.SameName.trans {a b c : Str} (h : SameName a b) (h2 : SameName b c) : SameName a c := Eq.trans h h2

/-! ## frames -/

theorem slist_frame {db : CharDb} : ∀ {defs : List (ShapeName × List Str)} {st st' : ParseState}, slist db defs st = .ok st' →
    ∃ sh k, st' = { st with cur := { st.cur with core := { st.cur.core with shape := sh } }, shapeSpecs := k }
  | [], st, st', h => by
    simp only [slist, Res.ok.injEq] at h
    exact ⟨st.cur.core.shape, st.shapeSpecs, by rw [← h]⟩
  | (n, ls) :: rest, st, st', h => by
    rw [slist] at h
    obtain ⟨st1, h1, h2⟩ := Res.bind_eq_ok.1 h
    obtain ⟨sh, k, rfl⟩ := slist_frame h2
    unfold slistEntry at h1
    obtain ⟨s, hs, h3⟩ := Res.bind_eq_ok.1 h1
    split at h3
    · simp only [Res.ok.injEq] at h3
      subst h3
      exact ⟨sh, k, rfl⟩
    · simp at h3

theorem elastic_frame {st st' : ParseState} {names : List ShapeName} (h : elasticBlock st names = .ok st') :
    ∃ sh, st' = { st with cur := { st.cur with core := { st.cur.core with shape := sh } }, mandatory := st.mandatory + 1, seChecks := st.seChecks + 1 } := by
  have key : ∀ (names : List ShapeName) (st : ParseState), ∃ sh, names.foldl elistEntry st = { st with cur := { st.cur with core := { st.cur.core with shape := sh } } } := by
    intro names
    induction names with
    | nil => intro st; exact ⟨st.cur.core.shape, rfl⟩
    | cons n rest ih =>
      intro st
      obtain ⟨sh, he⟩ := ih (elistEntry st n)
      exact ⟨sh, by rw [List.foldl_cons, he]; rfl⟩
  obtain ⟨sh, he⟩ := key names st
  unfold elasticBlock at h
  simp only [he] at h
  split at h
  · simp at h
  · simp only [Res.ok.injEq] at h
    exact ⟨sh, h.symm⟩

/-- the state change of a block of shapes or elastic shapes -/
structure ShapeStep (st st' : ParseState) : Prop where
  same : ∃ sh k mw mh ms, st' = { st with
    cur := { st.cur with maxshapeheight := ms, core := { st.cur.core with shape := sh, minwidth := mw, minheight := mh } },
    mandatory := st.mandatory + 1, seChecks := st.seChecks + 1, shapeSpecs := k }

theorem shapes_frame {env : ParseEnv} {st st' : ParseState} {defs : List (ShapeName × List Str)}
    (h : parseItem env st (.shapes defs) = .ok st') : ShapeStep st st' := by
  rw [parseItem] at h
  obtain ⟨st1, h1, h2⟩ := Res.bind_eq_ok.1 h
  obtain ⟨sh, k, rfl⟩ := slist_frame h1
  obtain ⟨sh2, _, _, _, _, _, _, rfl⟩ := finalize_ok h2
  exact ⟨⟨_, _, _, _, _, rfl⟩⟩

theorem elasticItem_frame {env : ParseEnv} {st st' : ParseState} {names : List ShapeName}
    (h : parseItem env st (.elastic names) = .ok st') : ShapeStep st st' := by
  obtain ⟨sh, rfl⟩ := elastic_frame h
  exact ⟨⟨_, _, _, _, _, rfl⟩⟩

theorem sample_frame {env : ParseEnv} {st st' : ParseState} {t : Str} (h : sampleBlock env st t = .ok st') :
    st.cur.sample = none ∧ ∃ line, st' = { st with cur := { st.cur with sample := some line }, mandatory := st.mandatory + 1 } := by
  unfold sampleBlock at h
  split at h
  · simp at h
  · split at h
    · simp at h
    · rename_i hs
      split at h
      · simp at h
      · split at h
        · simp at h
        · split at h
          · simp at h
          · simp only [Res.ok.injEq] at h
            exact ⟨by simpa using hs, _, h.symm⟩

theorem addRule_ok {db : CharDb} {rules rules' : List Rule} {s r : Str} {m : Char} (h : addRule db rules s r m = .ok rules') :
    ∃ bs br, rules' = rules ++ [⟨bs, br, m⟩] ∧ bs.memory = s ∧ br.memory = r := by
  unfold addRule at h
  split at h
  · rename_i bs br hs hr
    simp only [Res.ok.injEq] at h
    exact ⟨bs, br, h.symm, fromUnicode_memory hs, fromUnicode_memory hr⟩
  · simp at h

/-- the effect of a keyword -/
structure KeywordStep (db : CharDb) (d d' : DesignDef) (k v : Str) : Prop where
  value : ∃ b, fromUnicode db v = some b
  author : d'.author.map (·.memory) = if Word "author" k then some v else d.author.map (·.memory)
  designer : d'.designer.map (·.memory) = if Word "designer" k then some v else d.designer.map (·.memory)
  tags : if Word "tags" k then tagRecord db d.tags v = .ok d'.tags else d'.tags = d.tags
  indent : if Word "indent" k then d'.core.indentmode = Char.ofNat ((asciiForm db v).headD 0) ∧
      (Word "text" (asciiForm db v) ∨ Word "box" (asciiForm db v) ∨ Word "none" (asciiForm db v))
    else d'.core.indentmode = d.core.indentmode
  same : ∃ a b t m, d' = { d with author := a, designer := b, tags := t, core := { d.core with indentmode := m } }


theorem not_two_words {a b : String} (hab : lit a ≠ lit b) {s : Str} (h : Word a s) : ¬ Word b s := by
  intro h2
  exact hab (h.symm.trans h2)

theorem text_of_no_esc : ∀ {s : Str}, 0x1b ∉ s → Text s s
  | [], _ => .nil
  | c :: s, h => .vis c (by intro e; exact h (by simp [e])) (text_of_no_esc (fun hm => h (by simp [hm])))

theorem kv_no_esc {db : CharDb} {v : Bxs} (h : v.validIn (isAllowedInKvString db) = true) : 0x1b ∉ v.memory := by
  intro hm
  have := List.all_eq_true.1 h _ hm
  simp [isAllowedInKvString, chEsc] at this

theorem keyword_step {db : CharDb} {d d' : DesignDef} {k v : Str} (h : recordKeyword db d k v = .ok d') :
    KeywordStep db d d' k v := by
  unfold recordKeyword at h
  split at h
  · simp at h
  · rename_i b hb
    have hm := fromUnicode_memory hb
    split at h
    · simp at h
    · rename_i hv
      have hne : 0x1b ∉ v := by rw [← hm]; exact kv_no_esc (by simpa using hv)
      have hasc : b.ascii = asciiForm db v := C01_ascii db (text_of_no_esc hne) hb
      rw [hasc] at h
      simp only [← word_iff' "author" k (by decide), ← word_iff' "designer" k (by decide), ← word_iff' "tags" k (by decide),
        ← word_iff' "indent" k (by decide), Bool.or_eq_true, ← word_iff' "text" _ (by decide), ← word_iff' "box" _ (by decide),
        ← word_iff' "none" _ (by decide)] at h
      split at h
      · rename_i hk
        simp only [Res.ok.injEq] at h
        subst h
        have n1 := not_two_words (b := "designer") (by decide) hk
        have n2 := not_two_words (b := "tags") (by decide) hk
        have n3 := not_two_words (b := "indent") (by decide) hk
        refine ⟨⟨b, hb⟩, ?_, ?_, ?_, ?_, ⟨_, _, _, _, rfl⟩⟩ <;> simp [hk, n1, n2, n3, hm]
      · rename_i n0
        split at h
        · rename_i hk
          simp only [Res.ok.injEq] at h
          subst h
          have n2 := not_two_words (b := "tags") (by decide) hk
          have n3 := not_two_words (b := "indent") (by decide) hk
          refine ⟨⟨b, hb⟩, ?_, ?_, ?_, ?_, ⟨_, _, _, _, rfl⟩⟩ <;> simp [hk, n0, n2, n3, hm]
        · rename_i n1
          split at h
          · rename_i hk
            obtain ⟨tags, ht, h2⟩ := Res.bind_eq_ok.1 h
            simp only [Res.ok.injEq] at h2
            subst h2
            have n3 := not_two_words (b := "indent") (by decide) hk
            refine ⟨⟨b, hb⟩, ?_, ?_, ?_, ?_, ⟨_, _, _, _, rfl⟩⟩ <;> simp [hk, n0, n1, n3, hm, ht]
          · rename_i n2
            split at h
            · rename_i hk
              split at h
              · rename_i hw
                simp only [Res.ok.injEq] at h
                subst h
                refine ⟨⟨b, hb⟩, ?_, ?_, ?_, ?_, ⟨_, _, _, _, rfl⟩⟩ <;> simp [hk, n0, n1, n2, hm]
                rcases hw with (hw | hw) | hw <;> simp [hw]
              · simp at h
            · simp at h

/-! ## fields of the design after a number of entries -/

/-- What is left alone by all entries -/
theorem parseItem_same {env : ParseEnv} {st st' : ParseState} {i : Item} (h : parseItem env st i = .ok st') :
    st'.cur.name = st.cur.name ∧ st'.cur.aliases = st.cur.aliases ∧ st'.designs = st.designs ∧ st'.parents = st.parents := by
  cases i with
  | keyword k v =>
    obtain ⟨d, hd, h2⟩ := Res.bind_eq_ok.1 h
    simp only [Res.ok.injEq] at h2; subst h2
    obtain ⟨a, b, t, m, rfl⟩ := (keyword_step hd).same
    exact ⟨rfl, rfl, rfl, rfl⟩
  | tags vs =>
    obtain ⟨d, hd, h2⟩ := Res.bind_eq_ok.1 h
    simp only [Res.ok.injEq] at h2; subst h2
    exact ⟨rfl, rfl, rfl, rfl⟩
  | sample t => obtain ⟨_, l, rfl⟩ := sample_frame h; exact ⟨rfl, rfl, rfl, rfl⟩
  | shapes defs => obtain ⟨_, _, _, _, _, rfl⟩ := (shapes_frame h).same; exact ⟨rfl, rfl, rfl, rfl⟩
  | elastic names => obtain ⟨_, _, _, _, _, rfl⟩ := (elasticItem_frame h).same; exact ⟨rfl, rfl, rfl, rfl⟩
  | replace f s r =>
    obtain ⟨d, hd, h2⟩ := Res.bind_eq_ok.1 h
    simp only [Res.ok.injEq] at h2; subst h2
    exact ⟨rfl, rfl, rfl, rfl⟩
  | reverse f s r =>
    obtain ⟨d, hd, h2⟩ := Res.bind_eq_ok.1 h
    simp only [Res.ok.injEq] at h2; subst h2
    exact ⟨rfl, rfl, rfl, rfl⟩
  | padding es => simp only [parseItem, Res.ok.injEq] at h; subst h; exact ⟨rfl, rfl, rfl, rfl⟩
  | other => simp only [parseItem, Res.ok.injEq] at h; subst h; exact ⟨rfl, rfl, rfl, rfl⟩
  | bad => simp [parseItem] at h

/-- A field of the state that each entry changes by `f` -/
theorem parseItems_fold {β : Type} {env : ParseEnv} (g : ParseState → β) (f : β → Item → β)
    (hstep : ∀ st st' i, parseItem env st i = .ok st' → g st' = f (g st) i) :
    ∀ {items : List Item} {st st' : ParseState}, parseItems env items st = .ok st' → g st' = items.foldl f (g st)
  | [], st, st', h => by simp only [parseItems, Res.ok.injEq] at h; rw [h]; rfl
  | i :: rest, st, st', h => by
    rw [parseItems] at h
    obtain ⟨st1, h1, h2⟩ := Res.bind_eq_ok.1 h
    rw [List.foldl_cons, ← hstep _ _ _ h1]
    exact parseItems_fold g f hstep h2

/-- the parts of a design that are set by simple entries -/
structure Plainly where
  author : Option Str
  designer : Option Str
  replace : List (Str × Str × Char)
  reverse : List (Str × Str × Char)
  mandatory : Nat

/-- the state's simple parts -/
def plainly (st : ParseState) : Plainly :=
  ⟨st.cur.author.map (·.memory), st.cur.designer.map (·.memory), st.cur.reprules.map ruleText, st.cur.revrules.map ruleText, st.mandatory⟩

/-- how an entry changes them -/
def plainlyStep (p : Plainly) : Item → Plainly
  | .keyword k v => { p with author := if Word "author" k then some v else p.author, designer := if Word "designer" k then some v else p.designer }
  | .replace f s r => { p with replace := p.replace ++ [(s, r, f.getD 'g')] }
  | .reverse f s r => { p with reverse := p.reverse ++ [(s, r, f.getD 'g')] }
  | .sample _ => { p with mandatory := p.mandatory + 1 }
  | .shapes _ => { p with mandatory := p.mandatory + 1 }
  | .elastic _ => { p with mandatory := p.mandatory + 1 }
  | _ => p

theorem plainly_step {env : ParseEnv} (st st' : ParseState) (i : Item) (h : parseItem env st i = .ok st') :
    plainly st' = plainlyStep (plainly st) i := by
  cases i with
  | keyword k v =>
    obtain ⟨d, hd, h2⟩ := Res.bind_eq_ok.1 h
    simp only [Res.ok.injEq] at h2; subst h2
    have hk := keyword_step hd
    obtain ⟨a, b, t, m, rfl⟩ := hk.same
    have h1 := hk.author
    have h2 := hk.designer
    unfold plainly plainlyStep
    simp only at h1 h2 ⊢
    rw [h1, h2]
  | tags vs =>
    obtain ⟨d, hd, h2⟩ := Res.bind_eq_ok.1 h
    simp only [Res.ok.injEq] at h2; subst h2; rfl
  | sample t => obtain ⟨_, l, rfl⟩ := sample_frame h; rfl
  | shapes defs => obtain ⟨_, _, _, _, _, rfl⟩ := (shapes_frame h).same; rfl
  | elastic names => obtain ⟨_, _, _, _, _, rfl⟩ := (elasticItem_frame h).same; rfl
  | replace f s r =>
    obtain ⟨d, hd, h2⟩ := Res.bind_eq_ok.1 h
    simp only [Res.ok.injEq] at h2; subst h2
    obtain ⟨bs, br, rfl, h1, h2⟩ := addRule_ok hd
    simp [plainly, plainlyStep, ruleText, h1, h2]
  | reverse f s r =>
    obtain ⟨d, hd, h2⟩ := Res.bind_eq_ok.1 h
    simp only [Res.ok.injEq] at h2; subst h2
    obtain ⟨bs, br, rfl, h1, h2⟩ := addRule_ok hd
    simp [plainly, plainlyStep, ruleText, h1, h2]
  | padding es => simp only [parseItem, Res.ok.injEq] at h; subst h; rfl
  | other => simp only [parseItem, Res.ok.injEq] at h; subst h; rfl
  | bad => simp [parseItem] at h

theorem getLast?_cons_or {α : Type} (a : α) (l : List α) : (a :: l).getLast? = l.getLast?.or (some a) := by
  cases l with
  | nil => rfl
  | cons b t => rw [List.getLast?_cons_cons]; cases h : (b :: t).getLast? <;> simp_all

theorem plainly_fold (items : List Item) : ∀ p : Plainly, items.foldl plainlyStep p =
    ⟨(settings "author" items).getLast?.or p.author, (settings "designer" items).getLast?.or p.designer,
      p.replace ++ replaceRules items, p.reverse ++ reverseRules items,
      p.mandatory + samples items + shapeBlocks items + elasticBlocks items⟩ := by
  induction items with
  | nil => intro p; simp [settings, replaceRules, reverseRules, samples, shapeBlocks, elasticBlocks]
  | cons i rest ih =>
    intro p
    rw [List.foldl_cons, ih]
    cases i with
    | keyword k v =>
      simp only [settings, replaceRules, reverseRules, samples, shapeBlocks, elasticBlocks, plainlyStep, List.filterMap_cons, List.countP_cons]
      by_cases h1 : Word "author" k <;> by_cases h2 : Word "designer" k <;> simp [h1, h2, getLast?_cons_or]
    | _ =>
      simp [settings, replaceRules, reverseRules, samples, shapeBlocks, elasticBlocks, plainlyStep, List.filterMap_cons, List.countP_cons] <;> omega

end Boxes
