import Verif.Lemmas.Names
import Verif.Spec.Others

/-! # Lemmas: designs with other names are passed over (C97) -/
namespace Boxes
open Spec
set_option linter.unusedSimpArgs false

/-- a design with other names is passed over -/
theorem parseDesign_other {env : ParseEnv} {n : Str} (hc : env.choice = some n) {name : Str} {aliases : List Str} {items : List Item} {ne : Str}
    (h : Matters n (.box name aliases items ne) = false) (ps : List Bxs) :
    parseDesign env { designs := [], parents := ps } name aliases items ne = .fail rcError := by
  have hno : ∀ k ∈ name :: aliases, ¬ SameName n k := by
    intro k hk hs
    simp only [Matters] at h
    have := List.any_eq_false.1 h k hk
    simp [hs] at this
  unfold parseDesign
  have htot : ∀ (l : List Str) (st : ParseState), st.designs = [] → ∃ st', addAliases env l st = .ok st' := by
    intro l
    induction l with
    | nil => exact fun st _ => ⟨st, rfl⟩
    | cons a l ih =>
      intro st hst
      rw [addAliases]
      unfold addAlias designNameExists
      rw [hst]
      simp only [List.any_nil, Bool.false_eq_true, if_false]
      split
      · exact ih st hst
      · exact ih _ rfl
  obtain ⟨st, hst⟩ := htot aliases { designs := [], parents := ps } rfl
  rw [hst]
  obtain ⟨-, e⟩ := addAliases_ok hst
  simp only [Res.ok_bind]
  have : startDesign env st name = .fail rcError := by
    unfold startDesign designNeeded
    simp only [hc]
    have hn : ({ st.cur with name := name } : DesignDef).hasName n = false := by
      cases hb : ({ st.cur with name := name } : DesignDef).hasName n with
      | false => rfl
      | true =>
        obtain ⟨k, hk, hs⟩ := (called_iff _ _).1 hb
        rw [e] at hk
        simp only [DesignDef.names, List.nil_append] at hk
        rcases List.mem_cons.1 hk with rfl | hk
        · exact absurd hs (hno _ (by simp))
        · exact absurd hs (hno k (by
            have hk' : k ∈ keptAliases env.childConfigs aliases := by simpa using hk
            exact List.mem_cons_of_mem _ (List.mem_filter.1 hk').1))
    rw [hn]
    rfl
  rw [this]
  rfl

theorem parseDecls_matters {env : ParseEnv} {n : Str} (hc : env.choice = some n) : ∀ (decls : List Decl) (ps : List Bxs),
    parseDecls env decls [] ps = parseDecls env (decls.filter (Matters n)) [] ps := by
  intro decls
  induction decls with
  | nil => intro ps; rfl
  | cons x rest ih =>
    intro ps
    cases hx : Matters n x with
    | true =>
      rw [List.filter_cons_of_pos hx]
      cases x with
      | parent path => rw [parseDecls, parseDecls, ih]
      | box name aliases items ne =>
        rw [parseDecls, parseDecls, ih]
        have hf : fullParseRequired env = false := by simp [fullParseRequired, hc]
        simp only [hf, Bool.not_false, if_true]
    | false =>
      rw [List.filter_cons_of_neg (by simp [hx])]
      cases x with
      | parent path => simp [Matters] at hx
      | box name aliases items ne =>
        rw [parseDecls, parseDesign_other hc hx]
        simp only
        rw [if_neg (by decide), ih]

theorem parseConfigFile_others {env : ParseEnv} {n : Str} (hc : env.choice = some n) {contents contents' : Bxs → Option (List Decl)}
    (h : SameFiles n contents contents') (file : Bxs) (children : List DesignDef) :
    parseConfigFile env contents' file children = parseConfigFile env contents file children := by
  unfold parseConfigFile
  have hf := h file
  cases h1 : contents file with
  | none =>
    cases h2 : contents' file with
    | none => rfl
    | some d' => simp [h1, h2] at hf
  | some d =>
    cases h2 : contents' file with
    | none => simp [h1, h2] at hf
    | some d' =>
      simp only [h1, h2] at hf
      simp only
      unfold parseConfig
      rw [parseDecls_matters (env := { env with childConfigs := children }) hc d', parseDecls_matters (env := { env with childConfigs := children }) hc d, hf]

theorem mergeLoop_others {env : ParseEnv} {n : Str} (hc : env.choice = some n) {contents contents' : Bxs → Option (List Decl)}
    (h : SameFiles n contents contents') : ∀ fuel file result parents parsed,
      mergeLoop env contents' fuel file result parents parsed = mergeLoop env contents fuel file result parents parsed := by
  intro fuel
  induction fuel with
  | zero => intros; rfl
  | succ fuel ih =>
    intro file result parents parsed
    unfold mergeLoop
    rw [parseConfigFile_others hc h]
    simp only [ih]

theorem loadDesigns_others {m : Machine} {a : Args} {n : Str} (hc : a.design = some n) {contents' : Bxs → Option (List Decl)}
    (h : SameFiles n m.contents contents') (file : Bxs) (fuel : Nat) :
    loadDesigns { m with contents := contents' } a file fuel = loadDesigns m a file fuel := by
  have hopen : ∀ p, (contents' p).isSome = (m.contents p).isSome := by
    intro p
    have := h p
    cases h1 : m.contents p <;> cases h2 : contents' p <;> simp [h1, h2] at this ⊢
  have e : parseEnv { m with contents := contents' } a = parseEnv m a := by
    unfold parseEnv
    simp only [hopen]
  unfold loadDesigns parseConfigFiles definingFile
  simp only [e]
  rw [mergeLoop_others (env := parseEnv m a) hc h]
  simp only [parseConfigFile_others (env := parseEnv m a) hc h]

end Boxes
