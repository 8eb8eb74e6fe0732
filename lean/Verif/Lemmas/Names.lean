import Verif.Props.Help
import Verif.Props.Getopt
import Verif.Spec.Names

/-! # Lemmas: designs chosen by different names (C91) -/

set_option linter.unusedVariables false
set_option linter.unusedSimpArgs false

namespace Boxes
open Spec

theorem strCaseEq_left {n n' : Str} (h : SameName n n') (x : Str) : strCaseEq n x = strCaseEq n' x := by
  rw [Bool.eq_iff_iff, sameName_iff, sameName_iff]
  unfold SameName at *
  rw [h]

theorem hasName_same {n n' : Str} (h : SameName n n') (d : DesignDef) : d.hasName n = d.hasName n' := by
  unfold DesignDef.hasName DesignDef.hasAlias
  rw [strCaseEq_left h]
  simp only [strCaseEq_left h]

/-- two names that mean the same for each of the designs in a file -/
def Alike (env : ParseEnv) (n n' : Str) (decls : List Decl) : Prop :=
  ∀ name aliases items ne, Decl.box name aliases items ne ∈ decls → ∀ ds ps st, addAliases env aliases { designs := ds, parents := ps } = .ok st →
    ({ st.cur with name := name } : DesignDef).hasName n = ({ st.cur with name := name } : DesignDef).hasName n'

theorem parseDesign_alike {env : ParseEnv} {n n' : Str} (hc : env.choice = some n) {decls : List Decl} (ha : Alike env n n' decls) {name aliases items ne}
    (hm : Decl.box name aliases items ne ∈ decls) (ds : List DesignDef) (ps : List Bxs) :
    parseDesign { env with choice := some n' } { designs := ds, parents := ps } name aliases items ne =
      parseDesign env { designs := ds, parents := ps } name aliases items ne := by
  unfold parseDesign
  rw [addAliases_choice]
  cases h1 : addAliases env aliases { designs := ds, parents := ps } with
  | fail e => rfl
  | ub => rfl
  | ok st1 =>
    simp only [Res.ok_bind, parseItems_choice]
    have e := ha _ _ _ _ hm _ _ _ h1
    have : startDesign { env with choice := some n' } st1 name = startDesign env st1 name := by
      unfold startDesign designNeeded
      simp only [hc, e]
    rw [this]

theorem resolveParent_choice (env : ParseEnv) (n : Option Str) (p : Str) : resolveParent { env with choice := n } p = resolveParent env p := rfl

theorem parseDecls_alike {env : ParseEnv} {n n' : Str} (hc : env.choice = some n) : ∀ (decls : List Decl), Alike env n n' decls → ∀ ds ps,
    parseDecls { env with choice := some n' } decls ds ps = parseDecls env decls ds ps := by
  intro decls
  induction decls with
  | nil => intros; rfl
  | cons x rest ih =>
    intro ha ds ps
    have hr : Alike env n n' rest := fun a b c d hm => ha a b c d (List.mem_cons_of_mem _ hm)
    cases x with
    | parent path =>
      rw [parseDecls, parseDecls, ih hr]
      rfl
    | box name aliases items ne =>
      rw [parseDecls, parseDecls, parseDesign_alike hc ha (by simp)]
      simp only [ih hr]
      have : fullParseRequired { env with choice := some n' } = fullParseRequired env := by
        unfold fullParseRequired
        simp [hc]
      rw [this]

theorem parseConfigFile_alike {env : ParseEnv} {n n' : Str} (hc : env.choice = some n) {contents : Bxs → Option (List Decl)} {file : Bxs} {children : List DesignDef}
    (ha : ∀ decls, contents file = some decls → Alike { env with childConfigs := children } n n' decls) :
    parseConfigFile { env with choice := some n' } contents file children = parseConfigFile env contents file children := by
  unfold parseConfigFile
  cases h : contents file with
  | none => rfl
  | some decls =>
    have := parseDecls_alike (env := { env with childConfigs := children }) hc decls (ha _ h) [] []
    simp only at this ⊢
    unfold parseConfig
    simp only [this]
    rw [hc]
    rfl

theorem mergeLoop_alike {env : ParseEnv} {n n' : Str} (hc : env.choice = some n) {contents : Bxs → Option (List Decl)}
    (ha : ∀ file children decls, contents file = some decls → Alike { env with childConfigs := children } n n' decls) :
    ∀ fuel file result parents parsed,
      mergeLoop { env with choice := some n' } contents fuel file result parents parsed = mergeLoop env contents fuel file result parents parsed := by
  intro fuel
  induction fuel with
  | zero => intros; rfl
  | succ fuel ih =>
    intro file result parents parsed
    unfold mergeLoop
    rw [parseConfigFile_alike hc (fun d hd => ha _ _ d hd)]
    simp only [ih]

theorem definingFile_alike {env : ParseEnv} {n n' : Str} (hc : env.choice = some n) {contents : Bxs → Option (List Decl)} {files : List Bxs}
    (ha : ∀ file ∈ files, ∀ decls, contents file = some decls → Alike { env with childConfigs := [] } n n' decls) :
    definingFile { env with choice := some n' } contents files = definingFile env contents files := by
  unfold definingFile
  induction files with
  | nil => rfl
  | cons f fs ih =>
    rw [List.find?_cons, List.find?_cons, parseConfigFile_alike hc (fun d hd => ha f (by simp) d hd), ih (fun g hg => ha g (List.mem_cons_of_mem _ hg))]

theorem loadDesigns_same {m : Machine} {a : Args} {n n' : Str} (hc : a.design = some n) (hs : SameName n n') (file : Bxs) (fuel : Nat) :
    loadDesigns m { a with design := some n' } file fuel = loadDesigns m a file fuel := by
  have ha : ∀ (env : ParseEnv) decls, Alike env n n' decls := fun env decls name aliases items ne hm ds ps st h => hasName_same hs _
  have e : parseEnv m { a with design := some n' } = { parseEnv m a with choice := some n' } := rfl
  unfold loadDesigns parseConfigFiles
  simp only [e]
  rw [mergeLoop_alike (env := parseEnv m a) hc (fun _ _ _ _ => ha _ _)]
  simp only [definingFile_alike (env := parseEnv m a) hc (fun _ _ _ _ => ha _ _)]

theorem alike_of_same {env : ParseEnv} (hch : env.childConfigs = []) {n n' : Str} {decls : List Decl} (h : SameDesigns n n' decls) : Alike env n n' decls := by
  intro name aliases items ne hm ds ps st hst
  obtain ⟨-, e⟩ := addAliases_ok hst
  have hk : keptAliases env.childConfigs aliases = aliases := by
    unfold keptAliases
    rw [hch]
    apply List.filter_eq_self.2
    intro a ha
    simp
  rw [hk] at e
  rw [Bool.eq_iff_iff, called_iff, called_iff, e]
  exact h name aliases items ne hm

theorem parseDecls_noParents {env : ParseEnv} : ∀ (decls : List Decl), (∀ p, Decl.parent p ∉ decls) → ∀ ds ds' ps ps' e,
    parseDecls env decls ds ps = .ok (ds', ps', e) → ps' = ps := by
  intro decls
  induction decls with
  | nil => intro _ ds ds' ps ps' e h; simp [parseDecls] at h; exact h.2.1.symm
  | cons x rest ih =>
    intro hn ds ds' ps ps' e h
    have hr : ∀ p, Decl.parent p ∉ rest := fun p hp => hn p (List.mem_cons_of_mem _ hp)
    cases x with
    | parent p => exact absurd (by simp) (hn p)
    | box name aliases items ne =>
      rw [parseDecls] at h
      split at h
      · simp at h
      · split at h
        · simp at h
        · exact ih hr _ _ _ _ _ h
      · split at h
        · simp only [Res.ok.injEq, Prod.mk.injEq] at h
          exact h.2.1.symm
        · exact ih hr _ _ _ _ _ h

theorem parseConfigFile_noParents {env : ParseEnv} {contents : Bxs → Option (List Decl)} {file : Bxs} {children ds : List DesignDef} {ps : List Bxs}
    (hn : ∀ decls, contents file = some decls → ∀ p, Decl.parent p ∉ decls) (h : parseConfigFile env contents file children = .ok (ds, ps)) : ps = [] := by
  unfold parseConfigFile at h
  cases hd : contents file with
  | none =>
    rw [hd] at h
    simp only [Res.ok.injEq, Prod.mk.injEq] at h
    exact h.2.symm
  | some decls =>
  rw [hd] at h
  simp only at h
  split at h
  · simp at h
  · simp only [Res.ok.injEq, Prod.mk.injEq] at h
    exact h.2.symm
  · rename_i r hr
    unfold parseConfig at hr
    rw [Res.bind_eq_ok] at hr
    obtain ⟨⟨ds', ps', e'⟩, h1, h2⟩ := hr
    have := parseDecls_noParents decls (hn decls hd) _ _ _ _ _ h1
    subst this
    simp only [Res.ok.injEq] at h
    subst h
    simp only at h2
    split at h2
    · simp only [Res.ok.injEq, Prod.mk.injEq] at h2; exact h2.2.symm
    · split at h2
      · simp at h2
      · simp only [Res.ok.injEq, Prod.mk.injEq] at h2; exact h2.2.symm

theorem loadDesigns_alias {m : Machine} {a : Args} {n n' : Str} (hc : a.design = some n) {file : Bxs}
    (hn : ∀ decls, m.contents file = some decls → SameDesigns n n' decls ∧ ∀ p, Decl.parent p ∉ decls) (fuel : Nat) :
    loadDesigns m { a with design := some n' } file fuel = loadDesigns m a file fuel := by
  have ha : ∀ decls', m.contents file = some decls' → Alike { parseEnv m a with childConfigs := [] } n n' decls' := by
    intro decls' h'
    exact alike_of_same rfl (hn _ h').1
  have e : parseEnv m { a with design := some n' } = { parseEnv m a with choice := some n' } := rfl
  unfold loadDesigns
  simp only [e]
  cases hcl : a.cld with
  | some c => rfl
  | none =>
    simp only
    cases fuel with
    | zero => rfl
    | succ fuel =>
      unfold parseConfigFiles
      rw [mergeLoop, mergeLoop, parseConfigFile_alike (env := parseEnv m a) hc ha]
      cases h1 : parseConfigFile (parseEnv m a) m.contents file [] with
      | ub => rfl
      | fail e => rfl
      | ok r =>
        obtain ⟨ds, ps⟩ := r
        have := parseConfigFile_noParents (fun d hd => (hn d hd).2) h1
        subst this
        simp only [recordParentConfigFiles, List.reverse_nil, List.foldl_nil, List.getElem?_nil]
        split
        · rfl
        · simp only [Option.map_some, Res.ok_bind]
          rw [definingFile_alike (env := parseEnv m a) hc (files := [file]) (by simpa using ha)]

/-! options -/

theorem handleOption_design (a : Args) (x : Option Str) (o : Option') (ho : ∀ s, o ≠ .design s) :
    handleOption { a with design := x } o = (handleOption a o).map (fun b => { b with design := x }) := by
  cases o with
  | design s => exact absurd rfl (ho s)
  | align s => simp only [handleOption]; cases alignment a.opt s <;> rfl
  | create s => simp only [handleOption, commandLineDesign]; split <;> rfl
  | eol s => simp only [handleOption, eolOverride]; split; rfl; split; rfl; split <;> rfl
  | indent s => simp only [handleOption]; cases indentationMode a.opt s <;> rfl
  | kill s => simp only [handleOption]; cases killblankOption a.opt s <;> rfl
  | killBlank => simp only [handleOption, Option.map_some]; split <;> rfl
  | noKillBlank => simp only [handleOption, Option.map_some]; split <;> rfl
  | padding s => simp only [handleOption]; cases paddingOption a.opt s <;> rfl
  | query s => simp only [handleOption]; cases parseQuery s <;> rfl
  | size s => simp only [handleOption]; cases sizeOfBox a.opt s <;> rfl
  | tabs s => simp only [handleOption]; cases tabHandling a.opt s <;> rfl
  | extra s =>
    have he : ∀ (b : Args) t, extraDebug { b with design := x } t = (extraDebug b t).map (fun c => { c with design := x }) := by
      intro b t
      unfold extraDebug
      split
      · split
        · cases debugAreas b.debug none <;> rfl
        · split
          · rename_i rest _ _
            cases debugAreas b.debug (some rest) <;> rfl
          · rfl
      · rfl
    simp only [handleOption, undocumentedOptions]
    have h1 := he { a with qundoc := true } (s.drop 7)
    simp only at h1
    rw [h1, he]
    split
    · cases extraDebug { a with qundoc := true } (s.drop 7) with
      | none => rfl
      | some b => simp only [Option.map_some, Option.bind_some]; split <;> rfl
    · cases extraDebug a s with
      | none => rfl
      | some b => simp only [Option.map_some, Option.bind_some]; split <;> rfl
  | _ => rfl

theorem handleOption_keeps {a b : Args} {o : Option'} (ho : ∀ s, o ≠ .design s) (h : handleOption a o = some b) : b.design = a.design := by
  have := handleOption_design a a.design o ho
  rw [show ({ a with design := a.design } : Args) = a from rfl, h] at this
  simp only [Option.map_some, Option.some.injEq] at this
  rw [this]

theorem optionLoop_design (y : Option Str) : ∀ (rest : List Option') (a : Args),
    optionLoop rest { a with design := y } = optionLoop rest a ∨
    ((∀ r, optionLoop rest a = some r → r.1.design = a.design) ∧
      optionLoop rest { a with design := y } = (optionLoop rest a).map (fun r => ({ r.1 with design := y }, r.2))) := by
  intro rest
  induction rest with
  | nil =>
    intro a
    refine .inr ⟨?_, rfl⟩
    intro r h
    simp only [optionLoop, Option.some.injEq] at h
    rw [← h]
  | cons o rest ih =>
    intro a
    have key : ∀ o', o' = o → o' ≠ .help → o' ≠ .version → o' ≠ .bad → ∀ b, optionLoop (o' :: rest) b = (handleOption b o').bind (fun a => optionLoop rest a) := by
      intro o' _ h1 h2 h3 b
      cases o' <;> first | exact absurd rfl h1 | exact absurd rfl h2 | exact absurd rfl h3 | rfl
    by_cases h1 : o = .help
    · subst h1
      refine .inr ⟨?_, rfl⟩
      intro r h
      simp only [optionLoop, Option.some.injEq] at h
      rw [← h]
    by_cases h2 : o = .version
    · subst h2
      refine .inr ⟨?_, rfl⟩
      intro r h
      simp only [optionLoop, Option.some.injEq] at h
      rw [← h]
    by_cases h3 : o = .bad
    · subst h3
      exact .inl rfl
    rw [key o rfl h1 h2 h3, key o rfl h1 h2 h3]
    by_cases hd : ∃ s, o = .design s
    · obtain ⟨s, rfl⟩ := hd
      exact .inl rfl
    · have hd' : ∀ s, o ≠ .design s := fun s e => hd ⟨s, e⟩
      rw [handleOption_design a y o hd']
      cases hb : handleOption a o with
      | none => exact .inl rfl
      | some b =>
        have hk := handleOption_keeps hd' hb
        simp only [Option.map_some, Option.bind_some]
        rw [← hk]
        exact ih b

theorem optionLoop_named (n n' : Str) (post : List Option') : ∀ (pre : List Option') (a : Args),
    optionLoop (pre ++ .design n' :: post) a = optionLoop (pre ++ .design n :: post) a ∨
    ((∀ r, optionLoop (pre ++ .design n :: post) a = some r → r.1.design = some n) ∧
      optionLoop (pre ++ .design n' :: post) a = (optionLoop (pre ++ .design n :: post) a).map (fun r => ({ r.1 with design := some n' }, r.2))) := by
  intro pre
  induction pre with
  | nil => intro a; exact optionLoop_design (some n') post (designChoice a n)
  | cons o pre ih =>
    intro a
    by_cases h1 : o = .help
    · subst h1; exact .inl rfl
    by_cases h2 : o = .version
    · subst h2; exact .inl rfl
    by_cases h3 : o = .bad
    · subst h3; exact .inl rfl
    have key : ∀ rest o', o' = o → o' ≠ .help → o' ≠ .version → o' ≠ .bad → ∀ b, optionLoop (o' :: rest) b = (handleOption b o').bind (fun a => optionLoop rest a) := by
      intro rest o' _ h1 h2 h3 b
      cases o' <;> first | exact absurd rfl h1 | exact absurd rfl h2 | exact absurd rfl h3 | rfl
    rw [List.cons_append, List.cons_append, key _ o rfl h1 h2 h3, key _ o rfl h1 h2 h3]
    cases handleOption a o with
    | none => exact .inl rfl
    | some b => exact ih b

theorem inputOutputFiles_design (canRead canWrite : Str → Bool) (a : Args) (x : Option Str) (fs : List Str) :
    inputOutputFiles canRead canWrite { a with design := x } fs = (inputOutputFiles canRead canWrite a fs).map (fun b => { b with design := x }) := by
  unfold inputOutputFiles
  split
  · rfl
  · rfl
  · rename_i inf more _
    by_cases h1 : inf = lit "-"
    · simp only [h1, if_true, Option.bind_eq_bind, Option.bind_some]
      split
      · rfl
      · split
        · rfl
        · split <;> rfl
    · by_cases h2 : canRead inf = true
      · simp only [if_neg h1, h2, if_true, Option.bind_eq_bind, Option.bind_some]
        split
        · rfl
        · split
          · rfl
          · split <;> rfl
      · simp [h1, h2]

theorem inputOutputFiles_keeps {canRead canWrite : Str → Bool} {a b : Args} {fs : List Str} (h : inputOutputFiles canRead canWrite a fs = some b) :
    b = { a with infile := b.infile, outfile := b.outfile } := by
  unfold inputOutputFiles at h
  split at h
  · cases h; rfl
  · cases h
  · rename_i inf more _
    by_cases h1 : inf = lit "-"
    · simp only [h1, if_true, Option.bind_eq_bind, Option.bind_some] at h
      split at h
      · cases h; rfl
      · split at h
        · cases h; rfl
        · split at h
          · cases h; rfl
          · cases h
    · by_cases h2 : canRead inf = true
      · simp only [if_neg h1, h2, if_true, Option.bind_eq_bind, Option.bind_some] at h
        split at h
        · cases h; rfl
        · split at h
          · cases h; rfl
          · split at h
            · cases h; rfl
            · cases h
      · simp [h1, h2] at h

/-- the part of `main` behind reading the command line -/
def afterCommandline (m : Machine) (a : Args) (fuel : Nat) : Option (Res Outcome) :=
    if a.help then some (.ok .usage)
    else if a.version then some (.ok .version)
    else
      match discoverConfigFile m.db { m.surroundings with optF := a.f } false with
      | none => some .ub
      | some none => some (.fail 1)
      | some (some file) =>
        match loadDesigns m a file fuel with
        | none => none
        | some (.fail _) => some (.fail 1)
        | some .ub => some .ub
        | some (.ok (ds, ps, definedIn)) =>
          match mainTask m a file ds ps definedIn fuel with
          | none => none
          | some (.fail _) => some (.fail 1)
          | some .ub => some .ub
          | some (.ok text) => some (.ok (.output a.outfile text))

theorem wholeProgram_after (m : Machine) (c : CommandLine) (fuel : Nat) :
    wholeProgram m c fuel = match processCommandline m.canRead m.canWrite c.first c.options c.files with
      | none => some (.fail 1)
      | some a => afterCommandline m a fuel := rfl

theorem after_named {m : Machine} {a : Args} {n' : Str} {fuel : Nat}
    (hload : a.help = false → a.version = false → ∀ file, discoverConfigFile m.db { m.surroundings with optF := a.f } false = some (some file) →
      loadDesigns m { a with design := some n' } file fuel = loadDesigns m a file fuel) :
    afterCommandline m { a with design := some n' } fuel = afterCommandline m a fuel := by
  unfold afterCommandline
  cases hh : a.help with
  | true => rfl
  | false =>
    cases hv : a.version with
    | true => rfl
    | false =>
      simp only [Bool.false_eq_true, if_false]
      cases hd : discoverConfigFile m.db { m.surroundings with optF := a.f } false with
      | none => rfl
      | some o =>
        cases o with
        | none => rfl
        | some file =>
          simp only
          have := hload hh hv file hd
          simp only [hh, hv] at this
          rw [this]
          rfl

/-- the program with another name of the design -/
theorem wholeProgram_named {m : Machine} {n n' : Str} {pre post : List Option'} {first : Option Str} {files : List Str} {fuel : Nat}
    (hload : ∀ a done file, optionLoop (pre ++ .design n :: post) createNewOpt = some (a, done) → a.help = false → a.version = false →
      discoverConfigFile m.db { m.surroundings with optF := a.f } false = some (some file) → a.design = some n →
      loadDesigns m { a with design := some n' } file fuel = loadDesigns m a file fuel) :
    wholeProgram m { first := first, options := pre ++ .design n' :: post, files := files } fuel =
      wholeProgram m { first := first, options := pre ++ .design n :: post, files := files } fuel := by
  rw [wholeProgram_after, wholeProgram_after]
  unfold processCommandline
  by_cases hq : first = some (lit "-?")
  · simp only [hq, if_true]
  simp only [if_neg hq]
  rcases optionLoop_named n n' post pre createNewOpt with h | ⟨h1, h2⟩
  · rw [h]
  · rw [h2]
    cases h3 : optionLoop (pre ++ .design n :: post) createNewOpt with
    | none => rfl
    | some r =>
      obtain ⟨a, done⟩ := r
      have hd := h1 _ h3
      simp only at hd
      simp only [Option.map_some, Option.bind_eq_bind, Option.bind_some]
      cases done with
      | true =>
        simp only [if_true]
        exact after_named fun hh hv file hf => hload a true file h3 hh hv hf hd
      | false =>
        simp only [Bool.false_eq_true, if_false]
        rw [inputOutputFiles_design]
        cases h4 : inputOutputFiles m.canRead m.canWrite a files with
        | none => rfl
        | some b =>
          have hb := inputOutputFiles_keeps h4
          simp only [Option.map_some]
          apply after_named
          intro hh hv file hf
          rw [hb] at hh hv hf
          have := hload a false file h3 hh hv hf hd
          rw [hb]
          exact this

theorem optionLoop_done : ∀ (l : List Option') (a b : Args), optionLoop l a = some (b, true) → b.help = true ∨ b.version = true := by
  intro l
  induction l with
  | nil => intro a b h; simp [optionLoop] at h
  | cons o rest ih =>
    intro a b h
    by_cases h1 : o = .help
    · subst h1
      simp only [optionLoop, Option.some.injEq, Prod.mk.injEq, and_true] at h
      exact .inl (by rw [← h])
    by_cases h2 : o = .version
    · subst h2
      simp only [optionLoop, Option.some.injEq, Prod.mk.injEq, and_true] at h
      exact .inr (by rw [← h])
    by_cases h3 : o = .bad
    · subst h3; simp [optionLoop] at h
    have key : ∀ o', o' = o → o' ≠ .help → o' ≠ .version → o' ≠ .bad → optionLoop (o' :: rest) a = (handleOption a o').bind (fun a => optionLoop rest a) := by
      intro o' _ h1 h2 h3
      cases o' <;> first | exact absurd rfl h1 | exact absurd rfl h2 | exact absurd rfl h3 | rfl
    rw [key o rfl h1 h2 h3] at h
    obtain ⟨c, -, hc⟩ := Option.bind_eq_some_iff.1 h
    exact ih c b hc

theorem reading_main {m : Machine} {fuel : Nat} {v : List Str} {os : List Option'} {fs : List Str} (hv : Reading v os fs) :
    boxesMain m v fuel = wholeProgram m { options := os, files := fs } fuel := by
  have hq := reading_question hv
  unfold boxesMain commandLineOf
  rw [wholeProgram_after, wholeProgram_after]
  unfold processCommandline
  simp only [(reading_words hv).1]
  rw [if_neg (show v.head? ≠ some (lit "-?") from hq), if_neg (show ¬ (none = some (lit "-?")) by simp)]

/-! a name that no design has -/

theorem addAliases_noUb (env : ParseEnv) : ∀ l st, addAliases env l st ≠ .ub ∧ ∀ c, addAliases env l st = .fail c → c = rcError
  | [], st => by simp [addAliases]
  | a :: l, st => by
    unfold addAliases addAlias
    split
    · simp only [Res.fail_bind]
      exact ⟨by simp, by rintro c h; cases h; rfl⟩
    · split
      · exact addAliases_noUb env l _
      · exact addAliases_noUb env l _

theorem parseDesign_unnamed {env : ParseEnv} {n : Str} (hc : env.choice = some n) {decls : List Decl} (hu : Unnamed n decls) {name aliases items ne}
    (hm : Decl.box name aliases items ne ∈ decls) (ds : List DesignDef) (ps : List Bxs) :
    parseDesign env { designs := ds, parents := ps } name aliases items ne = .fail rcError := by
  unfold parseDesign
  obtain ⟨k1, k2⟩ := addAliases_noUb env aliases { designs := ds, parents := ps }
  cases h1 : addAliases env aliases { designs := ds, parents := ps } with
  | fail e => rw [k2 e h1]; rfl
  | ub => exact absurd h1 k1
  | ok st1 =>
    obtain ⟨-, e⟩ := addAliases_ok h1
    have hno : ({ st1.cur with name := name } : DesignDef).hasName n = false := by
      rw [Bool.eq_false_iff]
      intro h
      obtain ⟨k, hk, hs⟩ := (called_iff _ _).1 h
      refine hu _ _ _ _ hm k ?_ hs
      rw [e] at hk
      simp only [DesignDef.names, List.mem_cons] at hk
      rcases hk with hk | hk
      · exact hk ▸ List.mem_cons_self
      · exact List.mem_cons_of_mem _ (List.mem_filter.1 hk).1
    simp only [Res.ok_bind]
    unfold startDesign designNeeded
    simp [hc, hno]

theorem parseDecls_unnamed {env : ParseEnv} {n : Str} (hc : env.choice = some n) : ∀ (decls : List Decl), Unnamed n decls → ∀ ds ps,
    ∃ ps', parseDecls env decls ds ps = .ok (ds, ps', false) := by
  intro decls
  induction decls with
  | nil => intro _ ds ps; exact ⟨ps, rfl⟩
  | cons x rest ih =>
    intro hu ds ps
    have hr : Unnamed n rest := fun a b c d hm => hu a b c d (List.mem_cons_of_mem _ hm)
    cases x with
    | parent path => rw [parseDecls]; exact ih hr _ _
    | box name aliases items ne =>
      rw [parseDecls, parseDesign_unnamed hc hu (by simp)]
      simp only [show ¬ rcError = rcAbort by decide, if_false]
      exact ih hr _ _

theorem parseConfigFile_unnamed {env : ParseEnv} {n : Str} (hc : env.choice = some n) {contents : Bxs → Option (List Decl)} {file : Bxs}
    (hu : ∀ decls, contents file = some decls → Unnamed n decls) (children : List DesignDef) :
    ∃ ps, parseConfigFile env contents file children = .ok ([], ps) := by
  unfold parseConfigFile
  cases h : contents file with
  | none => exact ⟨[], rfl⟩
  | some decls =>
    obtain ⟨ps, e⟩ := parseDecls_unnamed (env := { env with childConfigs := children }) hc decls (hu _ h) [] []
    refine ⟨ps, ?_⟩
    unfold parseConfig
    simp only at e ⊢
    rw [e]
    simp [hc]

theorem mergeLoop_unnamed {env : ParseEnv} {n : Str} (hc : env.choice = some n) {contents : Bxs → Option (List Decl)}
    (hu : ∀ file decls, contents file = some decls → Unnamed n decls) : ∀ fuel file parents parsed,
    mergeLoop env contents fuel file [] parents parsed = none ∨ ∃ ps, mergeLoop env contents fuel file [] parents parsed = some (.ok ([], ps)) := by
  intro fuel
  induction fuel with
  | zero => intros; exact .inl rfl
  | succ fuel ih =>
    intro file parents parsed
    unfold mergeLoop
    obtain ⟨ps, e⟩ := parseConfigFile_unnamed hc (hu file) []
    rw [e]
    simp only [copyDesigns, List.length_nil, gt_iff_lt, Nat.lt_irrefl, if_false]
    split
    · exact ih _ _ _
    · exact .inr ⟨_, rfl⟩

theorem parseConfigFiles_unnamed {env : ParseEnv} {n : Str} (hc : env.choice = some n) {contents : Bxs → Option (List Decl)}
    (hu : ∀ file decls, contents file = some decls → Unnamed n decls) (fuel : Nat) (file : Bxs) :
    parseConfigFiles env contents fuel file = none ∨ parseConfigFiles env contents fuel file = some (.fail rcError) := by
  unfold parseConfigFiles
  rcases mergeLoop_unnamed hc hu fuel file [] 0 with h | ⟨ps, h⟩
  · rw [h]; exact .inl rfl
  · rw [h]; exact .inr rfl

theorem locate_total (w : Surroundings) (p : Str) : locateConfigFileOrDir w p ≠ none := by
  unfold locateConfigFileOrDir
  split
  · simp
  · split
    · rename_i h
      rw [canReadDir_iff] at h
      rw [locate_eq w (by simpa using h)]
      simp
    · simp

theorem locateCommon_total (w : Surroundings) : locateConfigCommon w ≠ none := by
  unfold locateConfigCommon
  have := locate_total w
  split
  · rename_i f _
    cases h : locateConfigFileOrDir w f with
    | none => exact absurd h (this f)
    | some r => simp
  · split
    · rename_i f _
      cases h : locateConfigFileOrDir w f with
      | none => exact absurd h (this f)
      | some r => simp
    · simp

theorem searchLoop_total (db : CharDb) (w : Surroundings) : ∀ l, searchLoop db w l ≠ none
  | [] => by simp [searchLoop]
  | p :: l => by
    rw [searchLoop, lookAt_eq]
    simp only [Option.bind_eq_bind, Option.bind_some]
    split
    · simp
    · exact searchLoop_total db w l

theorem discover_total (db : CharDb) (w : Surroundings) (g : Bool) : discoverConfigFile db w g ≠ none := by
  unfold discoverConfigFile
  cases g with
  | true =>
    simp only [if_true, Option.bind_eq_bind, Option.bind_some]
    split
    · simp
    · rw [if_neg (by simp)]
      exact searchLoop_total db w _
  | false =>
    cases h : locateConfigCommon w with
    | none => exact absurd h (locateCommon_total w)
    | some q =>
      obtain ⟨path, e⟩ := q
      simp only [Bool.false_eq_true, if_false, Option.bind_eq_bind, Option.bind_some]
      split
      · simp
      · split
        · simp
        · exact searchLoop_total db w _

theorem noCreate_none {opts : List Option'} {a : Args} (hopts : optionLoop opts createNewOpt = some (a, false)) (hf : ∀ s, .create s ∉ opts) : a.cld = none := by
  rw [(C58_last opts a hopts).1]
  unfold latest
  rw [List.filterMap_eq_nil_iff.2]
  · rfl
  · intro x hx
    cases x <;> first | rfl | exact absurd hx (hf _)

theorem latest_last {α β : Type} (f : α → Option β) {x : α} {v : β} (hx : f x = some v) (pre : List α) {post : List α} (h : ∀ y ∈ post, f y = none) (b : β) :
    latest f (pre ++ x :: post) b = v := by
  unfold latest
  rw [List.filterMap_append, List.filterMap_cons, hx, List.filterMap_eq_nil_iff.2 h]
  simp

theorem lastDesign {pre post : List Option'} {n : Str} {a : Args} (hopts : optionLoop (pre ++ .design n :: post) createNewOpt = some (a, false))
    (hlast : ∀ s, .design s ∉ post) : a.design = some n := by
  rw [(C58_last _ a hopts).2.1]
  refine latest_last (fun x => match x with | Option'.design s => some (some s) | _ => none) (x := .design n) rfl pre (fun x hx => ?_) none
  cases x <;> first | rfl | exact absurd hx (hlast _)

end Boxes
