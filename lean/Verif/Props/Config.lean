import Verif.Lemmas.Config3
import Verif.Props.Parse

/-!
# C52-C56: the contents of a configuration file

`parseDesign env { designs := prior, parents := ps } name aliases items nameAtEnd` reads one design, `prior` being the designs of
the file which were read before it.
-/
namespace Boxes
open Spec ShapeName
set_option linter.unusedSimpArgs false

/-- the state between two designs -/
abbrev between (prior : List DesignDef) (ps : List Bxs) : ParseState := { designs := prior, parents := ps }

theorem addAliases_ok {env : ParseEnv} : ∀ {aliases : List Str} {st st' : ParseState}, addAliases env aliases st = .ok st' →
    (∀ a ∈ aliases, ∀ e ∈ st.designs, ¬ Called e a) ∧
    st' = { st with cur := { st.cur with aliases := st.cur.aliases ++ keptAliases env.childConfigs aliases } }
  | [], st, st', h => by simp only [addAliases, Res.ok.injEq] at h; subst h; simp [keptAliases]
  | a :: rest, st, st', h => by
    rw [addAliases] at h
    obtain ⟨st1, h1, h2⟩ := Res.bind_eq_ok.1 h
    obtain ⟨i1, i2⟩ := addAliases_ok h2
    unfold addAlias at h1
    split at h1
    · simp at h1
    · rename_i hex
      have hno : ∀ e ∈ st.designs, ¬ Called e a := by
        intro e he hc
        apply hex
        unfold designNameExists
        rw [List.any_eq_true]
        exact ⟨e, he, (called_iff e a).2 hc⟩
      have hch : aliasInChildConfigs env a = true ↔ ∃ c ∈ env.childConfigs, ∃ x ∈ c.aliases, SameName a x := by
        unfold aliasInChildConfigs DesignDef.hasAlias
        rw [List.any_eq_true]
        constructor
        · rintro ⟨c, hc, h⟩
          obtain ⟨x, hx, h⟩ := List.any_eq_true.1 h
          exact ⟨c, hc, x, hx, (sameName_iff _ _).1 h⟩
        · rintro ⟨c, hc, x, hx, h⟩
          exact ⟨c, hc, List.any_eq_true.2 ⟨x, hx, (sameName_iff _ _).2 h⟩⟩
      split at h1
      · rename_i hc
        simp only [Res.ok.injEq] at h1
        subst h1
        refine ⟨?_, ?_⟩
        · intro x hx
          rcases List.mem_cons.1 hx with rfl | hx
          · exact hno
          · exact i1 x hx
        · rw [i2, keptAliases, keptAliases, List.filter_cons_of_neg]
          simp only [decide_eq_true_eq]
          exact fun hn => hn (hch.1 hc)
      · rename_i hc
        simp only [Res.ok.injEq] at h1
        subst h1
        refine ⟨?_, ?_⟩
        · intro x hx
          rcases List.mem_cons.1 hx with rfl | hx
          · exact hno
          · exact i1 x hx
        · rw [i2, keptAliases, keptAliases, List.filter_cons_of_pos]
          · simp
          · simp only [decide_eq_true_eq]
            exact fun h => hc (hch.2 h)

/-- how a design that is read comes about -/
theorem parseDesign_ok {env : ParseEnv} {st : ParseState} {name : Str} {aliases : List Str} {items : List Item} {nameAtEnd : Str}
    {d : DesignDef} (h : parseDesign env st name aliases items nameAtEnd = .ok d) :
    ∃ st3, parseItems env items { st with cur := { st.cur with name := name, aliases := st.cur.aliases ++ keptAliases env.childConfigs aliases } } = .ok st3 ∧
      d = st3.cur ∧ SameName name nameAtEnd ∧ 3 ≤ st3.mandatory ∧ (∀ e ∈ st.designs, ¬ Called e name) ∧
      (∀ a ∈ aliases, ∀ e ∈ st.designs, ¬ Called e a) ∧
      (∀ c, env.choice = some c → SameName c name ∨ ∃ a ∈ st.cur.aliases ++ keptAliases env.childConfigs aliases, SameName c a) ∧
      (env.choice = none → fullParseRequired env = true ∨ st.designs = []) := by
  unfold parseDesign at h
  obtain ⟨st1, h1, h'⟩ := Res.bind_eq_ok.1 h
  obtain ⟨st2, h2, h''⟩ := Res.bind_eq_ok.1 h'
  obtain ⟨st3, h3, h4⟩ := Res.bind_eq_ok.1 h''
  obtain ⟨a1, rfl⟩ := addAliases_ok h1
  unfold startDesign at h2
  simp only at h2
  split at h2
  · simp at h2
  · rename_i hneed
    simp only [Res.ok.injEq] at h2
    have hfr : st3.cur.name = st2.cur.name ∧ st3.designs = st2.designs := by
      have key : ∀ {items : List Item} {st st' : ParseState}, parseItems env items st = .ok st' →
          st'.cur.name = st.cur.name ∧ st'.designs = st.designs := by
        intro items
        induction items with
        | nil => intro st st' h; simp only [parseItems, Res.ok.injEq] at h; subst h; exact ⟨rfl, rfl⟩
        | cons i rest ih =>
          intro st st' h
          rw [parseItems] at h
          obtain ⟨s1, g1, g2⟩ := Res.bind_eq_ok.1 h
          obtain ⟨e1, _, e2, _⟩ := parseItem_same g1
          obtain ⟨e3, e4⟩ := ih g2
          exact ⟨e3.trans e1, e4.trans e2⟩
      exact key h3
    rw [← h2] at h3 hfr
    simp only at hfr
    refine ⟨st3, h3, ?_⟩
    unfold addDesign at h4
    split at h4
    · simp at h4
    · rename_i hn
      split at h4
      · simp at h4
      · rename_i hm
        split at h4
        · simp at h4
        · rename_i hex
          simp only [Res.ok.injEq] at h4
          refine ⟨h4.symm, ?_, by omega, ?_, a1, ?_, ?_⟩
          · rw [hfr.1] at hn
            exact (sameName_iff _ _).1 (by simpa using hn)
          · intro e he hc
            apply hex
            unfold designNameExists
            rw [List.any_eq_true, hfr.1, hfr.2]
            exact ⟨e, he, (called_iff e name).2 hc⟩
          · unfold designNeeded at hneed
            simp only at hneed
            intro c hch
            rw [hch] at hneed
            simp only at hneed
            obtain ⟨n, hn, he⟩ := (called_iff _ c).1 (by simpa using hneed)
            unfold DesignDef.names at hn
            rcases List.mem_cons.1 hn with rfl | hn
            · exact Or.inl he
            · exact Or.inr ⟨n, hn, he⟩
          · unfold designNeeded at hneed
            intro hch
            rw [hch] at hneed
            have hneed' : fullParseRequired env = false → st.designs = [] := by simpa using hneed
            cases hf : fullParseRequired env with
            | true => exact Or.inl rfl
            | false => exact Or.inr (hneed' hf)

/-- the names of the design -/
theorem parseDesign_names {env : ParseEnv} {st : ParseState} {name : Str} {aliases : List Str} {items : List Item} {nameAtEnd : Str}
    {d : DesignDef} (h : parseDesign env st name aliases items nameAtEnd = .ok d) :
    d.name = name ∧ d.aliases = st.cur.aliases ++ keptAliases env.childConfigs aliases := by
  obtain ⟨st3, h3, rfl, -⟩ := parseDesign_ok h
  have key : ∀ {items : List Item} {st st' : ParseState}, parseItems env items st = .ok st' →
      st'.cur.name = st.cur.name ∧ st'.cur.aliases = st.cur.aliases := by
    intro items
    induction items with
    | nil => intro st st' h; simp only [parseItems, Res.ok.injEq] at h; subst h; exact ⟨rfl, rfl⟩
    | cons i rest ih =>
      intro st st' h
      rw [parseItems] at h
      obtain ⟨s1, g1, g2⟩ := Res.bind_eq_ok.1 h
      obtain ⟨e1, e2, _⟩ := parseItem_same g1
      obtain ⟨e3, e4⟩ := ih g2
      exact ⟨e3.trans e1, e4.trans e2⟩
  exact key h3

/-! ## C52: mandatory parts -/

/-- C52: a design is accepted only if it has three blocks out of SAMPLE, SHAPES and ELASTIC, and ends with the name that it
begins with. -/
theorem C52_blocks {env : ParseEnv} {prior : List DesignDef} {ps : List Bxs} {name : Str} {aliases : List Str} {items : List Item}
    {nameAtEnd : Str} {d : DesignDef} (h : parseDesign env (between prior ps) name aliases items nameAtEnd = .ok d) :
    3 ≤ samples items + shapeBlocks items + elasticBlocks items ∧ samples items ≤ 1 ∧ 1 ≤ shapeBlocks items ∧ SameName name nameAtEnd := by
  have hg := parseDesign_names h
  obtain ⟨st3, h3, hd, hn, hm, -⟩ := parseDesign_ok h
  have hp := parseItems_fold (env := env) plainly plainlyStep plainly_step h3
  rw [plainly_fold] at hp
  have hmm : st3.mandatory = 0 + samples items + shapeBlocks items + elasticBlocks items := congrArg Plainly.mandatory hp
  have hsamp : ∀ {items : List Item} {st st' : ParseState}, parseItems env items st = .ok st' →
      samples items + (if st.cur.sample.isSome then 1 else 0) = if st'.cur.sample.isSome then 1 else 0 := by
    intro items
    induction items with
    | nil => intro st st' h; simp only [parseItems, Res.ok.injEq] at h; subst h; simp [samples]
    | cons i rest ih =>
      intro st st' h
      rw [parseItems] at h
      obtain ⟨s1, g1, g2⟩ := Res.bind_eq_ok.1 h
      have e := ih g2
      rw [← e]
      cases i with
      | sample t =>
        obtain ⟨hnone, l, rfl⟩ := sample_frame g1
        simp [samples, hnone, List.countP_cons]
      | keyword k v =>
        obtain ⟨d, hd, h2⟩ := Res.bind_eq_ok.1 g1
        simp only [Res.ok.injEq] at h2; subst h2
        obtain ⟨a, b, t, m, rfl⟩ := (keyword_step hd).same
        simp [samples, List.countP_cons]
      | tags vs =>
        obtain ⟨d, hd, h2⟩ := Res.bind_eq_ok.1 g1
        simp only [Res.ok.injEq] at h2; subst h2; simp [samples, List.countP_cons]
      | shapes defs => obtain ⟨_, _, _, _, _, rfl⟩ := (shapes_frame g1).same; simp [samples, List.countP_cons]
      | elastic names => obtain ⟨_, _, _, _, _, rfl⟩ := (elasticItem_frame g1).same; simp [samples, List.countP_cons]
      | replace f s r =>
        obtain ⟨d, hd, h2⟩ := Res.bind_eq_ok.1 g1
        simp only [Res.ok.injEq] at h2; subst h2; simp [samples, List.countP_cons]
      | reverse f s r =>
        obtain ⟨d, hd, h2⟩ := Res.bind_eq_ok.1 g1
        simp only [Res.ok.injEq] at h2; subst h2; simp [samples, List.countP_cons]
      | padding es => simp only [parseItem, Res.ok.injEq] at g1; subst g1; simp [samples, List.countP_cons]
      | other => simp only [parseItem, Res.ok.injEq] at g1; subst g1; simp [samples, List.countP_cons]
      | bad => simp [parseItem] at g1
  have h1 := hsamp h3
  have hs1 : samples items ≤ 1 := by split at h1 <;> split at h1 <;> omega
  refine ⟨by omega, hs1, ?_, hn⟩
  -- without a SHAPES block there is no corner
  rcases Nat.eq_zero_or_pos (shapeBlocks items) with h0 | h0
  · exfalso
    obtain ⟨_, hf, _⟩ := parseDesign_inv (Q := fun _ => True) (fun _ => trivial) (fun _ _ _ _ _ => trivial) h
    have hc := hf.corner NW (by simp)
    rw [hd, parseItems_shape h3 h0 NW] at hc
    exact hc.1 rfl
  · exact h0

/-- C52: if there is at most one block of each kind, all three have to be there. -/
theorem C52_mandatory_partial {env : ParseEnv} {prior : List DesignDef} {ps : List Bxs} {name : Str} {aliases : List Str} {items : List Item}
    {nameAtEnd : Str} {d : DesignDef} (h : parseDesign env (between prior ps) name aliases items nameAtEnd = .ok d)
    (h2 : shapeBlocks items ≤ 1) (h3 : elasticBlocks items ≤ 1) :
    samples items = 1 ∧ shapeBlocks items = 1 ∧ elasticBlocks items = 1 := by
  obtain ⟨h4, h5, h6, _⟩ := C52_blocks h
  omega

/-- the design is accepted -/
def accepted {α : Type} : Res α → Bool
  | .ok _ => true
  | _ => false

example : accepted (parsed sampleEnv sampleItems) = true ∧ shapeBlocks sampleItems ≤ 1 ∧ elasticBlocks sampleItems ≤ 1 := by decide +kernel

/-- C52: the blocks are counted, not checked: a second ELASTIC block replaces the SAMPLE, a second SHAPES block replaces ELASTIC
(if the shapes which were generated make the design elastic), and each of the blocks alone is refused. -/
theorem C52_mandatory_disagrees :
    accepted (parsed sampleEnv [.shapes [(N, [lit "*"])], .elastic [N], .elastic [N]]) = true ∧
    accepted (parsed sampleEnv [.sample (lit "x\n"), .shapes [(NW, [lit "*"])], .shapes []]) = true ∧
    accepted (parsed sampleEnv [.shapes [(N, [lit "*"])], .elastic [N]]) = false ∧
    accepted (parsed sampleEnv [.sample (lit "x\n"), .elastic [N]]) = false := by decide +kernel


/-! ## C53: names -/

/-- every design of a result was read from a declaration of the file, after some others -/
inductive ReadFrom (env : ParseEnv) (decls : List Decl) : List DesignDef → Prop
  | nil : ReadFrom env decls []
  | snoc {prior : List DesignDef} {ps : List Bxs} {name : Str} {aliases : List Str} {items : List Item} {nameAtEnd : Str} {d : DesignDef} :
      ReadFrom env decls prior → .box name aliases items nameAtEnd ∈ decls →
      parseDesign env (between prior ps) name aliases items nameAtEnd = .ok d →
      (prior = [] ∨ fullParseRequired env = true) → ReadFrom env decls (prior ++ [d])

theorem parseDecls_readFrom {env : ParseEnv} {all : List Decl} : ∀ {decls : List Decl} {ds : List DesignDef} {ps : List Bxs} {r : List DesignDef × List Bxs × Bool},
    (∀ d ∈ decls, d ∈ all) → ReadFrom env all ds → (ds = [] ∨ fullParseRequired env = true) → parseDecls env decls ds ps = .ok r →
    ReadFrom env all r.1 ∧ (r.1.length ≤ 1 ∨ fullParseRequired env = true)
  | [], ds, ps, r, _, hr, h0, h => by
    simp only [parseDecls, Res.ok.injEq] at h
    subst h
    exact ⟨hr, h0.imp (fun e => by simp [e]) id⟩
  | .parent path :: rest, ds, ps, r, hsub, hr, h0, h => by
    rw [parseDecls] at h
    exact parseDecls_readFrom (fun d hd => hsub d (by simp [hd])) hr h0 h
  | .box name aliases items nameAtEnd :: rest, ds, ps, r, hsub, hr, h0, h => by
    rw [parseDecls] at h
    have hsub' : ∀ d ∈ rest, d ∈ all := fun d hd => hsub d (by simp [hd])
    split at h
    · simp at h
    · split at h
      · simp at h
      · exact parseDecls_readFrom hsub' hr h0 h
    · rename_i d hd
      have hr' : ReadFrom env all (ds ++ [d]) := .snoc hr (hsub _ (by simp)) hd h0
      split at h
      · rename_i hf
        simp only [Res.ok.injEq] at h
        subst h
        refine ⟨hr', ?_⟩
        rcases h0 with rfl | h0
        · left; simp
        · exact Or.inr h0
      · rename_i hf
        exact parseDecls_readFrom hsub' hr' (Or.inr (by simpa using hf)) h

theorem parseConfig_readFrom {env : ParseEnv} {decls : List Decl} {ps ps' : List Bxs} {ds : List DesignDef}
    (h : parseConfig env decls ps = .ok (ds, ps')) : ReadFrom env decls ds ∧ (ds.length ≤ 1 ∨ fullParseRequired env = true) := by
  unfold parseConfig at h
  obtain ⟨⟨ds1, ps1, early⟩, h1, h2⟩ := Res.bind_eq_ok.1 h
  have := parseDecls_readFrom (fun _ h => h) .nil (Or.inl rfl) h1
  simp only at h2 this
  split at h2
  · simp only [Res.ok.injEq, Prod.mk.injEq] at h2
    obtain ⟨rfl, _⟩ := h2; exact this
  · split at h2
    · simp at h2
    · simp only [Res.ok.injEq, Prod.mk.injEq] at h2
      obtain ⟨rfl, _⟩ := h2; exact this

/-- C53: no two designs of a configuration file can be confused: no name (or alias) of one is, ignoring case, a name or alias of
another one. -/
theorem C53_distinct (env : ParseEnv) (decls : List Decl) (ps ps' : List Bxs) (ds : List DesignDef)
    (h : parseConfig env decls ps = .ok (ds, ps')) :
    ds.Pairwise (fun d e => ∀ n ∈ d.names, ∀ m ∈ e.names, ¬ SameName n m) := by
  have hr := (parseConfig_readFrom h).1
  clear h
  induction hr with
  | nil => exact List.Pairwise.nil
  | @snoc prior ps name aliases items nameAtEnd d hr hm hd _ ih =>
    rw [List.pairwise_append]
    refine ⟨ih, List.pairwise_singleton _ _, ?_⟩
    intro e he d' hd'
    rw [List.mem_singleton] at hd'
    subst hd'
    obtain ⟨n1, n2⟩ := parseDesign_names hd
    obtain ⟨_, _, _, _, _, c1, c2, _, _⟩ := parseDesign_ok hd
    intro n hn m hm hs
    unfold DesignDef.names at hm
    rw [n1, n2] at hm
    rcases List.mem_cons.1 hm with rfl | hm
    · exact c1 e he ⟨n, hn, hs.symm⟩
    · simp only [List.nil_append] at hm
      exact c2 m (List.mem_filter.1 hm).1 e he ⟨n, hn, hs.symm⟩

/-- C53: the names of each design are those of a declaration in the file, without aliases that a child configuration has. -/
theorem C53_names (env : ParseEnv) (decls : List Decl) (ps ps' : List Bxs) (ds : List DesignDef)
    (h : parseConfig env decls ps = .ok (ds, ps')) : ∀ d ∈ ds, ∃ name aliases items nameAtEnd,
    .box name aliases items nameAtEnd ∈ decls ∧ d.name = name ∧ d.aliases = keptAliases env.childConfigs aliases ∧ SameName name nameAtEnd := by
  have hr := (parseConfig_readFrom h).1
  clear h
  induction hr with
  | nil => simp
  | @snoc prior ps name aliases items nameAtEnd d hr hm hd _ ih =>
    intro d' hd'
    rw [List.mem_append, List.mem_singleton] at hd'
    rcases hd' with hd' | rfl
    · exact ih d' hd'
    · obtain ⟨n1, n2⟩ := parseDesign_names hd
      obtain ⟨_, _, _, hn, _⟩ := parseDesign_ok hd
      exact ⟨name, aliases, items, nameAtEnd, hm, n1, by rw [n2]; rfl, hn⟩

/-- the names of the designs -/
def namesOf (r : Res (List DesignDef × List Bxs)) : Option (List (List Str)) :=
  match r with
  | .ok (ds, _) => some (ds.map DesignDef.names)
  | _ => none

/-- smallest acceptable entries of a design -/
def minimalItems : List Item := [.sample (lit "x\n"), .shapes [(N, [lit "*"])], .elastic [N]]

example : namesOf (parseConfig sampleEnv [.box (lit "a") [lit "b"] minimalItems (lit "A"), .box (lit "c") [lit "B"] minimalItems (lit "c"),
    .box (lit "d") [lit "e"] minimalItems (lit "x"), .box (lit "f") [] minimalItems (lit "f")] []) =
    some [[lit "a", lit "b"], [lit "f"]] := by decide +kernel

/-- C53: within one design nothing is checked: aliases may be repeated and may equal the name of the design. -/
theorem C53_own_names_disagrees :
    namesOf (parseConfig sampleEnv [.box (lit "a") [lit "b", lit "B", lit "a"] minimalItems (lit "a")] []) =
      some [[lit "a", lit "b", lit "B", lit "a"]] := by decide +kernel

/-! ## C54: tags -/

/-- C54: the tags of a design are the valid ones among the comma-separated parts of the tag texts, each once, in order of their
first occurrence; texts with escape sequences are ignored.  (Newlines do not occur in strings of a configuration file.) -/
theorem C54_tags {env : ParseEnv} {prior : List DesignDef} {ps : List Bxs} {name : Str} {aliases : List Str} {items : List Item}
    {nameAtEnd : Str} {d : DesignDef} (hw : ∀ s ∈ tagTexts items, (∃ v, Text s v) ∧ 0x0a ∉ s)
    (h : parseDesign env (between prior ps) name aliases items nameAtEnd = .ok d) :
    d.tags = collectTags [] ((tagTexts items).flatMap (tagCandidates env.db)) := by
  obtain ⟨st3, h3, rfl, -⟩ := parseDesign_ok h
  rw [collectTags_foldl]
  exact tags_items hw h3

/-- C54: so tags are valid and distinct. -/
theorem C54_valid (l : List Str) : (∀ t ∈ collectTags [] l, Identifier true t) ∧
    (collectTags [] l).Pairwise (fun a b => ¬ SameName a b) ∧ ∀ t ∈ collectTags [] l, t ∈ l := by
  rw [collectTags_foldl]
  have key : ∀ (l : List Str) (k : List Str), (∀ t ∈ k, Identifier true t) → k.Pairwise (fun a b => ¬ SameName a b) →
      (∀ t ∈ l.foldl addTag k, Identifier true t) ∧ (l.foldl addTag k).Pairwise (fun a b => ¬ SameName a b) ∧
      ∀ t ∈ l.foldl addTag k, t ∈ k ∨ t ∈ l := by
    intro l
    induction l with
    | nil => intro k h1 h2; exact ⟨h1, h2, fun t ht => Or.inl ht⟩
    | cons x rest ih =>
      intro k h1 h2
      rw [List.foldl_cons]
      unfold addTag
      split
      · rename_i hx
        obtain ⟨i1, i2, i3⟩ := ih (k ++ [x]) (by
          intro t ht; rw [List.mem_append, List.mem_singleton] at ht
          rcases ht with ht | rfl
          · exact h1 t ht
          · exact hx.1) (by
          rw [List.pairwise_append]
          refine ⟨h2, List.pairwise_singleton _ _, ?_⟩
          intro a ha b hb hs
          rw [List.mem_singleton] at hb
          subst hb
          exact hx.2 ⟨a, ha, hs⟩)
        refine ⟨i1, i2, ?_⟩
        intro t ht
        rcases i3 t ht with h | h
        · rw [List.mem_append, List.mem_singleton] at h
          rcases h with h | rfl
          · exact Or.inl h
          · exact Or.inr (by simp)
        · exact Or.inr (by simp [h])
      · obtain ⟨i1, i2, i3⟩ := ih k h1 h2
        refine ⟨i1, i2, ?_⟩
        intro t ht
        rcases i3 t ht with h | h
        · exact Or.inl h
        · exact Or.inr (by simp [h])
  obtain ⟨k1, k2, k3⟩ := key l [] (by simp) List.Pairwise.nil
  exact ⟨k1, k2, fun t ht => (k3 t ht).resolve_left (by simp)⟩

/-- the tags of a design -/
def tagsOf (r : Res DesignDef) : Option (List Str) := match r with | .ok d => some d.tags | _ => none

example : tagsOf (parsed sampleEnv (minimalItems ++ [.tags [lit "a, b ,A,c--d,,a,none", lit "e2-f", lit "b"]])) =
    some [lit "a", lit "b", lit "e2-f"] := by decide +kernel
example : ∀ s ∈ tagTexts (minimalItems ++ [.tags [lit "a, b ,A,c--d,,a,none", lit "e2-f"]]), (∃ v, Text s v) ∧ 0x0a ∉ s := by
  have : ∀ s ∈ tagTexts (minimalItems ++ [.tags [lit "a, b ,A,c--d,,a,none", lit "e2-f"]]), 0x1b ∉ s ∧ 0x0a ∉ s := by decide
  intro s hs
  exact ⟨⟨s, text_of_no_esc (this s hs).1⟩, (this s hs).2⟩

/-! ## C55: the entries of a design -/

/-- C55: author and designer are those given last; rules are kept in order, with their kind; padding of each side is given by the
last entry which concerns that side, 0 by default; the mode of indentation is the first letter of the last setting, `b` by
default. -/
theorem C55_entries {env : ParseEnv} {prior : List DesignDef} {ps : List Bxs} {name : Str} {aliases : List Str} {items : List Item}
    {nameAtEnd : Str} {d : DesignDef} (h : parseDesign env (between prior ps) name aliases items nameAtEnd = .ok d) :
    d.author.map (·.memory) = (settings "author" items).getLast? ∧ d.designer.map (·.memory) = (settings "designer" items).getLast? ∧
    d.reprules.map ruleText = replaceRules items ∧ d.revrules.map ruleText = reverseRules items ∧
    d.core.padding = ⟨paddingOf ["all", "vertical", "top"] (paddings items), paddingOf ["all", "horizontal", "right"] (paddings items),
      paddingOf ["all", "vertical", "bottom"] (paddings items), paddingOf ["all", "horizontal", "left"] (paddings items)⟩ := by
  obtain ⟨st3, h3, rfl, -⟩ := parseDesign_ok h
  have hp := parseItems_fold (env := env) plainly plainlyStep plainly_step h3
  rw [plainly_fold] at hp
  have a1 := congrArg Plainly.author hp
  have a2 := congrArg Plainly.designer hp
  have a3 := congrArg Plainly.replace hp
  have a4 := congrArg Plainly.reverse hp
  simp only [plainly, Option.map_none, Option.or_none, List.map_nil, List.nil_append] at a1 a2 a3 a4
  refine ⟨a1, a2, a3, a4, ?_⟩
  rw [padding_items h3, padding_fold]
  rfl

/-- C55: the mode of indentation -/
theorem C55_indent_partial {env : ParseEnv} {prior : List DesignDef} {ps : List Bxs} {name : Str} {aliases : List Str} {items : List Item}
    {nameAtEnd : Str} {d : DesignDef} (h : parseDesign env (between prior ps) name aliases items nameAtEnd = .ok d) :
    (settings "indent" items = [] → d.core.indentmode = 'b') ∧
    (∀ v ∈ settings "indent" items, Word "text" (asciiForm env.db v) ∨ Word "box" (asciiForm env.db v) ∨ Word "none" (asciiForm env.db v)) ∧
    ((settings "indent" items).getLast? = some (lit "text") → d.core.indentmode = 't') ∧
    ((settings "indent" items).getLast? = some (lit "box") → d.core.indentmode = 'b') ∧
    ((settings "indent" items).getLast? = some (lit "none") → d.core.indentmode = 'n') := by
  obtain ⟨st3, h3, rfl, -⟩ := parseDesign_ok h
  have hi := parseItems_fold (env := env) (fun st => st.cur.core.indentmode) (indentStep env.db) indent_step h3
  rw [indent_fold] at hi
  refine ⟨?_, parseItems_values h3, ?_, ?_, ?_⟩
  · intro hn; rw [hn] at hi; exact hi
  all_goals
    intro hl
    rw [hl] at hi
    simp only at hi
    rw [hi, asciiForm_id (by decide)]
    decide

/-- C55: written with a capital letter, the mode is accepted but is none of the modes the program knows; and characters outside
of ASCII stand for the letter `x`. -/
theorem C55_indent_disagrees :
    (match parsed sampleEnv (minimalItems ++ [.keyword (lit "indent") (lit "Text")]) with
      | .ok d => decide (d.core.indentmode = 'T') | _ => false) = true ∧
    (match parsed sampleEnv (minimalItems ++ [.keyword (lit "indent") (lit "boé")]) with
      | .ok d => decide (d.core.indentmode = 'b') | _ => false) = true := by decide +kernel

example : (match parsed sampleEnv (minimalItems ++ [.padding [(lit "A", 4), (lit "hor", 2), (lit "t", 1), (lit "horizontally", 9), (lit "l", -1)],
      .replace none (lit "a") (lit "b"), .replace (some 'o') (lit "c") (lit "d"), .keyword (lit "Author") (lit "A. B."), .keyword (lit "author") (lit "C"),
      .keyword (lit "indent") (lit "none")]) with
    | .ok d => decide (d.core.padding = ⟨1, 2, 4, 2⟩ ∧ d.reprules.map ruleText = [(lit "a", lit "b", 'g'), (lit "c", lit "d", 'o')] ∧
      d.author.map (·.memory) = some (lit "C") ∧ d.core.indentmode = 'n')
    | _ => false) = true := by decide +kernel

/-- C55: shapes are stored as they are given, and all other shapes are blank. -/
theorem C55_shapes {env : ParseEnv} {prior : List DesignDef} {ps : List Bxs} {name : Str} {aliases : List Str} {items : List Item}
    {nameAtEnd : Str} {d : DesignDef} (h : parseDesign env (between prior ps) name aliases items nameAtEnd = .ok d) :
    (∀ n lines, Given env.db items n lines → Present (d.core.shape n) ∧ (d.core.shape n).lines.map (·.memory) = lines) ∧
    (∀ n, Present (d.core.shape n) → (n, (d.core.shape n).lines.map (·.memory)) ∈ givenShapes items ∨
      (n ∈ [NW, NE, SE, SW, N, E, S, W] ∧ ∀ b ∈ (d.core.shape n).lines, ∀ c ∈ b.memory, c = 0x20)) := by
  obtain ⟨st3, h3, rfl, -⟩ := parseDesign_ok h
  have h0 : Written env.db [] (fun _ => emptyShape) := by
    refine ⟨?_, ?_⟩
    · intro n ls hg; have := hg.1; simp at this
    · intro n hp; exact absurd rfl hp.1
  have hw := parseItems_written (defs := []) h0 h3
  simp only [List.nil_append] at hw
  exact ⟨fun n ls hg => hw.given n ls hg, hw.source⟩

/-- C55: if ELASTIC comes after SHAPES, the elastic shapes are those which are named there, and the ones that were generated
in the middle of a side. -/
theorem C55_elastic_partial {env : ParseEnv} {prior : List DesignDef} {ps : List Bxs} {name : Str} {aliases : List Str}
    {before after : List Item} {defs : List (ShapeName × List Str)} {nameAtEnd : Str} {d : DesignDef}
    (hb : shapeBlocks before = 0 ∧ elasticBlocks before = 0) (ha : shapeBlocks after = 0)
    (hesc : ∀ x ∈ defs, ∀ t ∈ x.2, ∃ v, Text t v)
    (h : parseDesign env (between prior ps) name aliases (before ++ .shapes defs :: after) nameAtEnd = .ok d) :
    ∀ n, (d.core.shape n).elastic = true ↔ n ∈ givenElastic after ∨
      (n ∈ [N, E, S, W] ∧ Present (d.core.shape n) ∧ ¬ ∃ lines, Given env.db [.shapes defs] n lines) := by
  obtain ⟨st3, h3, rfl, -⟩ := parseDesign_ok h
  rw [parseItems_append] at h3
  obtain ⟨st1, h1, h4⟩ := Res.bind_eq_ok.1 h3
  rw [parseItems] at h4
  obtain ⟨st2, h2, h5⟩ := Res.bind_eq_ok.1 h4
  rw [parseItem] at h2
  obtain ⟨sa, h6, h7⟩ := Res.bind_eq_ok.1 h2
  have hfresh : ∀ n, st1.cur.core.shape n = emptyShape := by
    intro n
    rw [parseItems_shape h1 hb.1 n]
    rw [givenElastic_nil hb.2]; rfl
  have hel := slist_elastic h6 (fun n => by rw [hfresh]; rfl)
  have hw : Written env.db ([] ++ defs) sa.cur.core.shape := by
    refine slist_written (defs0 := []) ⟨?_, ?_⟩ h6
    · intro n ls hg; have := hg.1; simp at this
    · intro n hp; rw [hfresh] at hp; exact absurd rfl hp.1
  rw [List.nil_append] at hw
  -- which shapes exist before the completion
  have hex : ∀ n, Present (sa.cur.core.shape n) ↔ ∃ lines, Given env.db [.shapes defs] n lines := by
    intro n
    constructor
    · intro hp
      obtain ⟨lines, hm, rest⟩ := slist_given h6 hfresh hesc n hp
      exact ⟨lines, by simpa [givenShapes] using hm, rest⟩
    · rintro ⟨lines, hg, rest⟩
      have : (n, lines) ∈ defs := by simpa [givenShapes] using hg
      exact (hw.given n lines ⟨this, rest⟩).1
  obtain ⟨sh2, hc, _, _, _, _, _, rfl⟩ := finalize_ok h7
  intro n
  rw [parseItems_shape h5 ha n]
  simp only [Bool.or_eq_true, decide_eq_true_eq]
  have hpres : Present { sh2 n with name := n, elastic := (sh2 n).elastic || decide (n ∈ givenElastic after) } ↔ Present (sh2 n) := Iff.rfl
  rw [← hex]
  constructor
  · rintro (he | he)
    · right
      have hno : ¬ Present (sa.cur.core.shape n) := by
        intro hp
        rw [hc.keep n hp, hel] at he; simp at he
      rcases hc.made n hno with e | ⟨w, ht, e, h1', h2', h3', h4', he'⟩
      · rw [e, hel] at he; simp at he
      · rw [he'] at he
        have hnc := h3'.1 he
        refine ⟨?_, ?_, hno⟩
        · simp only [List.mem_cons, List.not_mem_nil, or_false, not_or] at hnc h4' ⊢
          obtain ⟨c1, c2, c3, c4⟩ := hnc
          simpa [c1, c2, c3, c4] using h4'
        · show Present (sh2 n)
          rw [he']; exact present_blank _ _ _ _ h1' h2'
    · exact Or.inl he
  · rintro (he | ⟨hn, hp, hno⟩)
    · exact Or.inr he
    · left
      have hp' : Present (sh2 n) := hp
      rcases hc.made n hno with e | ⟨w, ht, e, h1', h2', h3', h4', he'⟩
      · rw [e] at hp'; exact absurd hp' hno
      · rw [he']
        exact h3'.2 (by
          simp only [List.mem_cons, List.not_mem_nil, or_false] at hn
          rcases hn with rfl | rfl | rfl | rfl <;> simp)


example : shapeBlocks [.sample (lit "x\n")] = 0 ∧ elasticBlocks [.sample (lit "x\n")] = 0 ∧ shapeBlocks [.elastic [N]] = 0 ∧
    (match parsed sampleEnv ([.sample (lit "x\n")] ++ .shapes [(N, [lit "*"]), (NNE, [lit "+"])] :: [.elastic [N]]) with
      | .ok d => decide (allShapes.filter (fun n => (d.core.shape n).elastic) = [N, E, S, W])
      | _ => false) = true := by decide +kernel

/-- C55: the order of the blocks matters: with ELASTIC in front of SHAPES the design is refused. -/
theorem C55_elastic_first_disagrees :
    accepted (parsed sampleEnv [.sample (lit "x\n"), .shapes [(N, [lit "*"])], .elastic [N]]) = true ∧
    accepted (parsed sampleEnv [.sample (lit "x\n"), .elastic [N], .shapes [(N, [lit "*"])]]) = false := by decide +kernel

/-! ## C56: which designs are kept -/

/-- All designs are wanted: no design is chosen, and a box is to be removed, designs are to be listed, or searched by tags. -/
def AllWanted (env : ParseEnv) : Prop := env.choice = none ∧ (env.r = true ∨ env.l = true ∨ (env.query = true ∧ env.qundoc = false))

theorem allWanted_iff (env : ParseEnv) : fullParseRequired env = true ↔ AllWanted env := by
  unfold fullParseRequired AllWanted
  cases env.choice <;> simp [or_assoc]

/-- C56: unless all designs are wanted, at most one design is kept; if a design is chosen, it has that name or alias. -/
theorem C56_one (env : ParseEnv) (decls : List Decl) (ps ps' : List Bxs) (ds : List DesignDef)
    (h : parseConfig env decls ps = .ok (ds, ps')) :
    (ds.length ≤ 1 ∨ AllWanted env) ∧ ∀ c, env.choice = some c → ∀ d ∈ ds, Called d c := by
  obtain ⟨hr, h1⟩ := parseConfig_readFrom h
  refine ⟨h1.imp id (allWanted_iff env).1, ?_⟩
  intro c hc
  clear h h1
  induction hr with
  | nil => simp
  | @snoc prior ps name aliases items nameAtEnd d hr hm hd _ ih =>
    intro d' hd'
    rw [List.mem_append, List.mem_singleton] at hd'
    rcases hd' with hd' | rfl
    · exact ih d' hd'
    · obtain ⟨n1, n2⟩ := parseDesign_names hd
      obtain ⟨_, _, _, _, _, _, _, hch, _⟩ := parseDesign_ok hd
      unfold Called DesignDef.names
      rw [n1, n2]
      rcases hch c hc with h | ⟨a, ha, h⟩
      · exact ⟨name, by simp, h⟩
      · exact ⟨a, List.mem_cons_of_mem _ ha, h⟩

theorem parseDecls_complete {env : ParseEnv} : ∀ {decls : List Decl} {ds : List DesignDef} {ps : List Bxs} {ds' : List DesignDef} {ps' : List Bxs} {early : Bool},
    parseDecls env decls ds ps = .ok (ds', ps', early) → ds <+: ds' ∧ (early = true → fullParseRequired env = false ∧ ds' ≠ []) ∧
    ∃ done rest, decls = done ++ rest ∧ (early = false → rest = []) ∧
    (∀ name aliases items nameAtEnd, .box name aliases items nameAtEnd ∈ done →
      (∃ d ∈ ds', ∃ prior ps1, prior <+: ds' ∧ parseDesign env (between prior ps1) name aliases items nameAtEnd = .ok d) ∨
      ∃ prior ps1 c, prior <+: ds' ∧ parseDesign env (between prior ps1) name aliases items nameAtEnd = .fail c)
  | [], ds, ps, ds', ps', early, h => by
    simp only [parseDecls, Res.ok.injEq, Prod.mk.injEq] at h
    obtain ⟨rfl, rfl, rfl⟩ := h
    exact ⟨List.prefix_refl _, by simp, [], [], by simp⟩
  | .parent path :: rest, ds, ps, ds', ps', early, h => by
    rw [parseDecls] at h
    obtain ⟨h1, h2, done, r, e, h3, h4⟩ := parseDecls_complete h
    refine ⟨h1, h2, .parent path :: done, r, by rw [e]; rfl, h3, ?_⟩
    intro name aliases items nameAtEnd hm
    rcases List.mem_cons.1 hm with hm | hm
    · simp at hm
    · exact h4 name aliases items nameAtEnd hm
  | .box nm as is ne :: rest, ds, ps, ds', ps', early, h => by
    rw [parseDecls] at h
    split at h
    · simp at h
    · rename_i code hd
      split at h
      · simp at h
      · obtain ⟨h1, h2, done, r, e, h3, h4⟩ := parseDecls_complete h
        refine ⟨h1, h2, .box nm as is ne :: done, r, by rw [e]; rfl, h3, ?_⟩
        intro name aliases items nameAtEnd hm
        rcases List.mem_cons.1 hm with hm | hm
        · simp only [Decl.box.injEq] at hm
          obtain ⟨rfl, rfl, rfl, rfl⟩ := hm
          exact Or.inr ⟨ds, ps, code, h1, hd⟩
        · exact h4 name aliases items nameAtEnd hm
    · rename_i d hd
      split at h
      · rename_i hf
        simp only [Res.ok.injEq, Prod.mk.injEq] at h
        obtain ⟨rfl, rfl, rfl⟩ := h
        refine ⟨List.prefix_append _ _, fun _ => ⟨by simpa using hf, by simp⟩, [.box nm as is ne], rest, rfl, by simp, ?_⟩
        intro name aliases items nameAtEnd hm
        rw [List.mem_singleton] at hm
        simp only [Decl.box.injEq] at hm
        obtain ⟨rfl, rfl, rfl, rfl⟩ := hm
        exact Or.inl ⟨d, by simp, ds, ps, List.prefix_append _ _, hd⟩
      · obtain ⟨h1, h2, done, r, e, h3, h4⟩ := parseDecls_complete h
        have hpre : ds <+: ds' := (List.prefix_append ds [d]).trans h1
        refine ⟨hpre, h2, .box nm as is ne :: done, r, by rw [e]; rfl, h3, ?_⟩
        intro name aliases items nameAtEnd hm
        rcases List.mem_cons.1 hm with hm | hm
        · simp only [Decl.box.injEq] at hm
          obtain ⟨rfl, rfl, rfl, rfl⟩ := hm
          exact Or.inl ⟨d, h1.subset (by simp), ds, ps, hpre, hd⟩
        · exact h4 name aliases items nameAtEnd hm

/-- C56: if all designs are wanted (or none was found), every design definition of the file yields a design of the result, unless it
is refused by itself, in view of the designs before it.  A refused design never affects the others. -/
theorem C56_all (env : ParseEnv) (decls : List Decl) (ps ps' : List Bxs) (ds : List DesignDef)
    (h : parseConfig env decls ps = .ok (ds, ps')) (hall : AllWanted env ∨ ds = []) :
    ∀ name aliases items nameAtEnd, .box name aliases items nameAtEnd ∈ decls →
      (∃ d ∈ ds, ∃ prior ps1, prior <+: ds ∧ parseDesign env (between prior ps1) name aliases items nameAtEnd = .ok d) ∨
      ∃ prior ps1 c, prior <+: ds ∧ parseDesign env (between prior ps1) name aliases items nameAtEnd = .fail c := by
  unfold parseConfig at h
  obtain ⟨⟨ds1, ps1, early⟩, h1, h2⟩ := Res.bind_eq_ok.1 h
  obtain ⟨_, he, done, rest, e, h3, h4⟩ := parseDecls_complete h1
  have hds : ds1 = ds := by
    simp only at h2
    split at h2
    · simp only [Res.ok.injEq, Prod.mk.injEq] at h2; exact h2.1
    · split at h2
      · simp at h2
      · simp only [Res.ok.injEq, Prod.mk.injEq] at h2; exact h2.1
  subst hds
  have hfalse : early = false := by
    cases early with
    | false => rfl
    | true =>
      obtain ⟨f1, f2⟩ := he rfl
      rcases hall with ha | ha
      · rw [← allWanted_iff, f1] at ha; simp at ha
      · exact absurd ha f2
  rw [h3 hfalse, List.append_nil] at e
  rw [e]
  exact h4

example : AllWanted sampleEnv := ⟨rfl, Or.inr (Or.inl rfl)⟩
/-- without a request for all designs only the first good design is kept, or the one asked for -/
example : namesOf (parseConfig { db := sampleDb } [.box (lit "bad") [] [] (lit "bad"), .box (lit "a") [] minimalItems (lit "a"),
      .box (lit "b") [] minimalItems (lit "b")] []) = some [[lit "a"]] ∧
    namesOf (parseConfig { db := sampleDb, choice := some (lit "C") } [.box (lit "a") [] minimalItems (lit "a"),
      .box (lit "b") [lit "c"] minimalItems (lit "b")] []) = some [[lit "b", lit "c"]] ∧
    namesOf (parseConfig { db := sampleDb, l := true } [.box (lit "a") [] minimalItems (lit "a"),
      .box (lit "b") [lit "c"] minimalItems (lit "b")] []) = some [[lit "a"], [lit "b", lit "c"]] := by decide +kernel

end Boxes
