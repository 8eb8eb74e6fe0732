import Verif.Lemmas.Names

/-! # A design can be chosen by any of its names, in upper or lower case (C91) -/

set_option linter.unusedVariables false
set_option linter.unusedSimpArgs false

namespace Boxes
open Spec

/-- C91: The name of a design may be written in upper or lower case: whatever the other arguments are, the program does the same. -/
theorem C91_case (m : Machine) (fuel : Nat) {argv argv' : List Str} {pre post : List Option'} {n n' : Str} {files : List Str} (hs : SameName n n')
    (h : Reading argv (pre ++ .design n :: post) files) (h' : Reading argv' (pre ++ .design n' :: post) files) :
    boxesMain m argv' fuel = boxesMain m argv fuel := by
  rw [reading_main h, reading_main h']
  exact wholeProgram_named fun a done file _ _ _ _ hd => loadDesigns_same hd hs file fuel

/-- C91: A design may be chosen by any of its names.  If the designs of the configuration file that have one name are those that have the other, it does not
matter which one is given.  (For a configuration file without parents.) -/
theorem C91_alias (m : Machine) (fuel : Nat) {argv argv' : List Str} {pre post : List Option'} {n n' : Str} {files : List Str}
    (h : Reading argv (pre ++ .design n :: post) files) (h' : Reading argv' (pre ++ .design n' :: post) files)
    (hsame : ∀ a file decls, optionLoop (pre ++ .design n :: post) createNewOpt = some (a, false) →
      discoverConfigFile m.db { m.surroundings with optF := a.f } false = some (some file) → m.contents file = some decls →
      SameDesigns n n' decls ∧ ∀ p, Decl.parent p ∉ decls) :
    boxesMain m argv' fuel = boxesMain m argv fuel := by
  rw [reading_main h, reading_main h']
  refine wholeProgram_named fun a done file h1 hh hv hf hd => ?_
  have hdone : done = false := by
    cases done with
    | false => rfl
    | true => rcases optionLoop_done _ _ _ h1 with k | k <;> simp [k] at hh hv
  subst hdone
  exact loadDesigns_alias hd (fun decls hc => hsame a file decls h1 hf hc) fuel

/-- C91: A name that no design has is refused. -/
theorem C91_unknown (m : Machine) {argv : List Str} {pre post : List Option'} {n : Str} {files : List Str}
    (h : Reading argv (pre ++ .design n :: post) files) (hlast : ∀ s, .design s ∉ post) (hcr : ∀ s, .create s ∉ pre ++ post)
    (hhelp : .help ∉ pre ++ post) (hversion : .version ∉ pre ++ post)
    (hu : ∀ file decls, m.contents file = some decls → Unnamed n decls) (fuel : Nat) (r : Res Outcome) (hr : boxesMain m argv fuel = some r) : r = .fail 1 := by
  have hmem : ∀ o, (∀ s, o ≠ .design s) → o ∉ pre ++ post → o ∉ pre ++ .design n :: post := by
    intro o ho hn
    simp only [List.mem_append, List.mem_cons, not_or] at hn ⊢
    exact ⟨hn.1, ho n, hn.2⟩
  rw [reading_main h] at hr
  by_cases hf : UsableFiles m.canRead m.canWrite files
  · cases ho : optionLoop (pre ++ .design n :: post) createNewOpt with
    | none =>
      rw [whole_refused m _ fuel (by simp) ho] at hr
      exact (Option.some.inj hr).symm
    | some q =>
      obtain ⟨a, done⟩ := q
      cases done with
      | true =>
        obtain ⟨p, t, b, -, h2⟩ := optionLoop_early _ _ _ ho
        rcases h2 with ⟨h2, -⟩ | ⟨h2, -⟩
        · exact absurd (by rw [h2]; simp) (hmem .help (by simp) hhelp)
        · exact absurd (by rw [h2]; simp) (hmem .version (by simp) hversion)
      | false =>
        rw [whole_accepted m _ fuel (by simp) ho hf] at hr
        have hd := lastDesign ho hlast
        have hc := noCreate_none ho (fun s => hmem _ (by simp) (hcr s))
        unfold afterOptions at hr
        cases hdc : discoverConfigFile m.db { m.surroundings with optF := a.f } false with
        | none => exact absurd hdc (discover_total _ _ _)
        | some o =>
          simp only [hdc] at hr
          cases o with
          | none => exact (Option.some.inj hr).symm
          | some file =>
            simp only at hr
            unfold loadDesigns at hr
            simp only [hc] at hr
            rcases parseConfigFiles_unnamed (env := parseEnv m { a with infile := named files 0, outfile := named files 1 }) hd hu fuel file with k | k
            · simp only [hc] at k
              rw [k] at hr
              simp at hr
            · simp only [hc] at k
              rw [k] at hr
              simp only [Option.map_some, Res.fail_bind, Option.some.injEq] at hr
              exact hr.symm
  · cases ho : optionLoop (pre ++ .design n :: post) createNewOpt with
    | none =>
      rw [whole_refused m _ fuel (by simp) ho] at hr
      exact (Option.some.inj hr).symm
    | some q =>
      obtain ⟨a, done⟩ := q
      cases done with
      | true =>
        obtain ⟨p, t, b, -, h2⟩ := optionLoop_early _ _ _ ho
        rcases h2 with ⟨h2, -⟩ | ⟨h2, -⟩
        · exact absurd (by rw [h2]; simp) (hmem .help (by simp) hhelp)
        · exact absurd (by rw [h2]; simp) (hmem .version (by simp) hversion)
      | false =>
        rw [whole_files m _ fuel (by simp) ho hf] at hr
        exact (Option.some.inj hr).symm

/-! ## Examples -/

theorem reads_design (n : Str) : Reading [lit "-d", n] [.design n] [] := by
  rw [C75_reading]
  refine ⟨?_, ?_, ?_⟩
  · rfl
  · rfl
  · simp

/-- `boxes -d FRAME` is `boxes -d frame`, and so is `boxes -d Fr` -/
example : boxesMain sampleMachine [lit "-d", lit "FRAME"] 20 = some (.ok (.output none (lit "  +--*\n  |ab!\n  |c !\n  +==+\n"))) := by
  rw [C91_case sampleMachine 20 (pre := []) (post := []) (n := lit "frame") (n' := lit "FRAME") (by decide +kernel) (reads_design _) (reads_design _),
    ← C91_alias sampleMachine 20 (pre := []) (post := []) (n := lit "frame") (n' := lit "Fr") (reads_design _) (reads_design _) ?_]
  · decide +kernel
  · intro a file decls _ _ hd
    have hd' : (if file.memory = lit "/h/.config/boxes/boxes-config" then
      some [Decl.box (lit "dots") [lit "dt"] minimalItems (lit "dots"), .box (lit "frame") [lit "fr"] frameItems (lit "frame")] else none) = some decls := hd
    split at hd'
    · cases hd'
      refine ⟨?_, by simp⟩
      intro name aliases items ne hm
      simp only [List.mem_cons, List.not_mem_nil, or_false, Decl.box.injEq] at hm
      rcases hm with ⟨rfl, rfl, -⟩ | ⟨rfl, rfl, -⟩ <;> decide +kernel
    · cases hd'

/-- there is no design `box` in the examples -/
example : boxesMain sampleMachine [lit "-d", lit "box"] 20 = some (.fail 1) := by
  cases h : boxesMain sampleMachine [lit "-d", lit "box"] 20 with
  | none => revert h; decide +kernel
  | some r =>
    rw [C91_unknown sampleMachine (pre := []) (post := []) (reads_design (lit "box")) (by simp) (by simp) (by simp) (by simp) ?_ 20 r h]
    intro file decls hd
    have hd' : (if file.memory = lit "/h/.config/boxes/boxes-config" then
      some [Decl.box (lit "dots") [lit "dt"] minimalItems (lit "dots"), .box (lit "frame") [lit "fr"] frameItems (lit "frame")] else none) = some decls := hd
    split at hd'
    · cases hd'
      intro name aliases items ne hm
      simp only [List.mem_cons, List.not_mem_nil, or_false, Decl.box.injEq] at hm
      rcases hm with ⟨rfl, rfl, -⟩ | ⟨rfl, rfl, -⟩ <;> decide +kernel
    · cases hd'

end Boxes
