import Verif.Spec.Discovery
import Verif.Props.Tools
import Verif.Props.Parse

/-!
# C34: which configuration file is used

`discoverConfigFile db w globalOnly = some r`: nothing undefined happens and `r` is the file name, if one is found.
-/
namespace Boxes
open Spec
set_option linter.unusedSimpArgs false

theorem canReadFile_iff (w : Surroundings) (p : Str) : canReadFile w (some p) = decide (w.File p) := by
  unfold canReadFile Surroundings.File
  cases p <;> simp

theorem canReadDir_iff (w : Surroundings) (p : Str) : canReadDir w (some p) = decide (w.Dir p) := by
  unfold canReadDir Surroundings.Dir
  cases p <;> simp

/-- C34: a name stands for a readable file (directory) only if there is a name at all and it is not empty; and nothing is inside of a
directory without name (the program would read in front of the name, src/discovery.c:111). -/
theorem C34_names (w : Surroundings) (path : Option Str) (name : Str) :
    (canReadFile w path = true ↔ ∃ p, path = some p ∧ w.File p) ∧ (canReadDir w path = true ↔ ∃ p, path = some p ∧ w.Dir p) ∧
    combine [] name = none := by
  refine ⟨?_, ?_, rfl⟩
  · cases path with
    | none => simp [canReadFile]
    | some p => rw [canReadFile_iff]; simp
  · cases path with
    | none => simp [canReadDir]
    | some p => rw [canReadDir_iff]; simp

theorem combine_eq {dir : Str} (hd : dir ≠ []) (name : String) : combine dir (lit name) = some (inside dir name) := by
  unfold combine inside
  obtain ⟨d, c, rfl⟩ : ∃ d c, dir = d ++ [c] := ⟨dir.dropLast, dir.getLast hd, (List.dropLast_concat_getLast hd).symm⟩
  rw [List.getLast?_concat]
  simp only
  by_cases h : c = 0x2f
  · rw [if_pos h, if_pos (by rw [h]; exact List.suffix_append _ _), C42_concat]
    simp [lit]
  · rw [if_neg h, if_neg, C42_concat]
    · simp [lit]
    · rintro ⟨x, hx⟩
      have := List.append_inj_right' hx rfl
      simp at this
      exact h this.symm

theorem locate_eq (w : Surroundings) {dir : Str} (hd : w.Dir dir) : locateConfigInDir w dir = some (firstFile w (dirFiles w dir)) := by
  have : ∀ names : List String, locateLoop w dir (names.map lit) = some (firstFile w (names.map (inside dir))) := by
    intro names
    induction names with
    | nil => rfl
    | cons n r ih =>
      rw [List.map_cons, locateLoop, combine_eq hd.1, List.map_cons]
      simp only [Option.bind_eq_bind, Option.bind_some]
      rw [canReadFile_iff, ih]
      unfold firstFile
      rw [List.find?_cons]
      by_cases h : w.File (inside dir n)
      · simp [h]
      · simp [h]
  unfold locateConfigInDir dirFiles
  rw [if_pos hd]
  exact this [".boxes", "box-designs", "boxes-config", "boxes"]

theorem firstFile_append (w : Surroundings) (a b : List Str) : firstFile w (a ++ b) = (firstFile w a).or (firstFile w b) :=
  List.find?_append

/-- the files that could be looked at have names that boxes can deal with -/
def Nameable (db : CharDb) (w : Surroundings) (l : List Str) : Prop := ∀ p ∈ l, w.File p → fromUnicode db p ≠ none

theorem firstFile_mem {w : Surroundings} {l : List Str} {p : Str} (h : firstFile w l = some p) : p ∈ l ∧ w.File p := by
  unfold firstFile at h
  exact ⟨List.mem_of_find?_eq_some h, by simpa using List.find?_some h⟩

/-- the files of a place -/
def placeFiles (w : Surroundings) : Place → List Str
  | .globalConf => [w.globalConf]
  | .dir none => []
  | .dir (some d) => dirFiles w d

theorem lookAt_eq (db : CharDb) (w : Surroundings) (pl : Place) :
    lookAt db w pl = some ((firstFile w (placeFiles w pl)).bind (fromUnicode db)) := by
  cases pl with
  | globalConf =>
    simp only [lookAt, placeFiles, canReadFile_iff, utf8ToBxs, firstFile, List.find?_cons, List.find?_nil]
    by_cases h : w.File w.globalConf <;> simp [h]
  | dir o =>
    cases o with
    | none => rfl
    | some d =>
      simp only [lookAt, canReadDir_iff]
      by_cases h : w.Dir d
      · rw [if_pos (by simpa using h), locate_eq w h]; rfl
      · rw [if_neg (by simpa using h)]
        simp [placeFiles, dirFiles, h, firstFile]

theorem searchLoop_eq (db : CharDb) (w : Surroundings) : ∀ (places : List Place),
    Nameable db w (places.flatMap (placeFiles w)) →
    searchLoop db w places = some ((firstFile w (places.flatMap (placeFiles w))).bind (fromUnicode db)) := by
  intro places
  induction places with
  | nil => intro _; rfl
  | cons pl r ih =>
    intro hp
    rw [List.flatMap_cons] at hp ⊢
    rw [searchLoop, lookAt_eq, firstFile_append]
    simp only [Option.bind_eq_bind, Option.bind_some]
    have hp2 := fun p hm => hp p (List.mem_append_right _ hm)
    cases hf : firstFile w (placeFiles w pl) with
    | none => simpa using ih hp2
    | some p =>
      have hm := firstFile_mem hf
      obtain ⟨b, hb⟩ := Option.ne_none_iff_exists'.1 (hp p (List.mem_append_left _ hm.1) hm.2)
      simp [hb]

theorem fromEnvVar_eq (v : Option Str) (s : Str) : fromEnvVar v s = v.map (· ++ s) := by
  unfold fromEnvVar
  cases v with
  | none => rfl
  | some x => simp only; rw [C42_concat]; simp

theorem globalDirs_eq (w : Surroundings) :
    globalDirs.flatMap (placeFiles w) =
      globalConfigCandidates w := by
  simp [globalDirs, globalConfigCandidates, placeFiles]

theorem userDirs_eq (w : Surroundings) :
    (userDirs w ++ globalDirs).flatMap (placeFiles w) =
      configCandidates w := by
  rw [List.flatMap_append, globalDirs_eq]
  unfold configCandidates
  congr 1
  simp only [userDirs, fromEnvVar_eq, List.flatMap_cons, List.flatMap_nil, List.append_nil, varDir]
  cases w.home <;> cases w.xdgConfigHome <;> simp [lit, placeFiles]

/-- C34: without `-f` and without the environment variable BOXES, the first readable file of the documented ones is used. -/
theorem C34_search (db : CharDb) (w : Surroundings) (hf : w.optF = none) (hb : w.boxesVar = none) (hp : Nameable db w (configCandidates w)) :
    discoverConfigFile db w false = some ((firstFile w (configCandidates w)).bind (fromUnicode db)) := by
  unfold discoverConfigFile locateConfigCommon
  rw [hf, hb]
  simp only [Option.bind_eq_bind, Bool.false_eq_true, if_false, Option.bind_some, utf8ToBxs, Option.bind_none]
  rw [searchLoop_eq db w _ (by rw [userDirs_eq]; exact hp), userDirs_eq]

/-- C34: the global configuration file is the first readable one of the documented system locations. -/
theorem C34_global (db : CharDb) (w : Surroundings) (hp : Nameable db w (globalConfigCandidates w)) :
    discoverConfigFile db w true = some ((firstFile w (globalConfigCandidates w)).bind (fromUnicode db)) := by
  unfold discoverConfigFile
  simp only [Option.bind_eq_bind, if_true, Option.bind_some, utf8ToBxs, Option.bind_none, Bool.false_eq_true, if_false]
  rw [searchLoop_eq db w _ (by rw [globalDirs_eq]; exact hp), globalDirs_eq]

/-- C34: what is given with `-f` is used: the file itself, or the first documented file in that directory.  If there is none, no
other place is tried.  The same goes for the environment variable BOXES when there is no `-f`. -/
theorem C34_explicit (db : CharDb) (w : Surroundings) (p : Str) (hp : w.optF = some p ∨ (w.optF = none ∧ w.boxesVar = some p))
    (hpl : Nameable db w (p :: dirFiles w p)) :
    discoverConfigFile db w false = some ((fileOrDir w p).bind (fromUnicode db)) := by
  have hl : locateConfigFileOrDir w p = some (fileOrDir w p) := by
    unfold locateConfigFileOrDir fileOrDir
    rw [canReadFile_iff, canReadDir_iff]
    by_cases h : w.File p
    · simp [h]
    · rw [if_neg (by simpa using h), if_neg h]
      by_cases h2 : w.Dir p
      · rw [if_pos (by simpa using h2), locate_eq w h2]
      · rw [if_neg (by simpa using h2)]
        simp [dirFiles, h2, firstFile]
  have hc : locateConfigCommon w = some (fileOrDir w p, (fileOrDir w p).isNone) := by
    unfold locateConfigCommon
    rcases hp with h | ⟨h1, h2⟩
    · rw [h]; simp only; rw [hl]; rfl
    · rw [h1, h2]; simp only; rw [hl]; rfl
  unfold discoverConfigFile
  rw [hc]
  simp only [Option.bind_eq_bind, Bool.false_eq_true, if_false, Option.bind_some, utf8ToBxs]
  cases hf : fileOrDir w p with
  | none => simp
  | some f =>
    have hm : f ∈ p :: dirFiles w p ∧ w.File f := by
      unfold fileOrDir at hf
      split at hf
      · rename_i h; simp only [Option.some.injEq] at hf; subst hf; exact ⟨List.mem_cons_self, h⟩
      · exact ⟨List.mem_cons_of_mem _ (firstFile_mem hf).1, (firstFile_mem hf).2⟩
    obtain ⟨b, hb⟩ := Option.ne_none_iff_exists'.1 (hpl f hm.1 hm.2)
    simp [hb]

/-- a file system -/
def sampleDisk : Surroundings :=
  { isFile := fun p => p = lit "/h/boxes" ∨ p = lit "/h/.config/boxes/boxes-config" ∨ p = lit "/etc/boxes/boxes-config" ∨ p = lit "a\u0001b",
    isDir := fun p => p = lit "/h/.config/boxes" ∨ p = lit "/h/",
    home := some (lit "/h"), globalConf := lit "/etc/boxes/boxes-config" }

example : canReadFile sampleDisk (some (lit "/h/.config/boxes/boxes-config")) = true := by decide +kernel
example : (discoverConfigFile sampleDb sampleDisk false).map (·.map (·.memory)) = some (some (lit "/h/.config/boxes/boxes-config")) ∧
    (discoverConfigFile sampleDb sampleDisk true).map (·.map (·.memory)) = some (some (lit "/etc/boxes/boxes-config")) ∧
    (discoverConfigFile sampleDb { sampleDisk with optF := some (lit "/h/") } false).map (·.map (·.memory)) = some (some (lit "/h/boxes")) ∧
    (discoverConfigFile sampleDb { sampleDisk with optF := some (lit "/x"), boxesVar := some (lit "/h") } false).map (·.map (·.memory)) =
      some none := by decide +kernel

example : configCandidates sampleDisk = [lit "/h/.config/boxes/.boxes", lit "/h/.config/boxes/box-designs", lit "/h/.config/boxes/boxes-config",
    lit "/h/.config/boxes/boxes", lit "/etc/boxes/boxes-config"] ∧
    ∀ p ∈ configCandidates sampleDisk, (fromUnicode sampleDb p).isSome = true := by decide +kernel

/-- C34: a file given with `-f` whose name contains a control character exists, but another file is used without a message. -/
theorem C34_explicit_disagrees :
    ({ sampleDisk with optF := some (lit "a\u0001b") }).isFile (lit "a\u0001b") = true ∧
    (discoverConfigFile sampleDb { sampleDisk with optF := some (lit "a\u0001b") } false).map (·.map (·.memory)) =
      some (some (lit "/h/.config/boxes/boxes-config")) := by decide +kernel

end Boxes
