import Verif.Lemmas.Messages

/-!
# C94: A refused command line is explained

`commandlineMessage` is what is printed on standard error while the command line is read.
-/

set_option linter.unusedVariables false
set_option linter.unusedSimpArgs false

namespace Boxes
open Spec

/-- C94: The program prints a message about the command line if and only if it refuses it. -/
theorem C94_refused (canRead canWrite : Str → Bool) (library reason : Str) (first : Option Str) (opts : List Option') (files : List Str)
    (hn : ∀ s, .query s ∈ opts → 0x0a ∉ s) :
    commandlineMessage canRead canWrite library reason first opts files ≠ [] ↔ processCommandline canRead canWrite first opts files = none := by
  unfold commandlineMessage processCommandline
  by_cases hf : first = some (lit "-?")
  · rw [if_pos hf, if_pos hf]; simp
  · rw [if_neg hf, if_neg hf]
    obtain ⟨l1, l2⟩ := loop_message library opts createNewOpt rfl fresh_consistent hn
    cases hl : optionLoop opts createNewOpt with
    | none =>
      obtain ⟨pre, x, post, b, -, -, -, h | h⟩ := l2 hl
      · simp [h.2, usageHint, say]
      · simpa using explains_ne h
    | some r =>
      obtain ⟨a, done⟩ := r
      rw [l1 (by rw [hl]; rfl)]
      obtain ⟨f1, f2⟩ := files_message canRead canWrite reason a files
      cases done with
      | true => simp
      | false =>
        simp only [Option.bind_eq_bind, Option.bind_some, List.nil_append, Bool.false_eq_true, if_false]
        constructor
        · intro h
          cases hi : inputOutputFiles canRead canWrite a files with
          | none => rfl
          | some b => exact absurd (f1 (by rw [hi]; rfl)) h
        · intro h
          have := f2 h
          intro h0
          rw [h0] at this
          cases this

/-- C94: The message is about the first option that is not accepted, whatever follows it: it says what is wrong with this option.  If all options are accepted,
it is about the files. -/
theorem C94_explained (canRead canWrite : Str → Bool) (library reason : Str) (first : Option Str) (opts : List Option') (files : List Str)
    (hn : ∀ s, .query s ∈ opts → 0x0a ∉ s) (h : processCommandline canRead canWrite first opts files = none) (m : Str)
    (hm : m = commandlineMessage canRead canWrite library reason first opts files) :
    (∃ pre x post a, opts = pre ++ x :: post ∧ optionLoop pre createNewOpt = some (a, false) ∧ optionLoop [x] a = none ∧
      ((x = .bad ∧ m = library ++ usageHint) ∨ Explains x m)) ∨
    (∃ a, optionLoop opts createNewOpt = some (a, false) ∧ ExplainsFiles canRead canWrite reason files m) := by
  subst hm
  unfold processCommandline at h
  unfold commandlineMessage
  by_cases hf : first = some (lit "-?")
  · rw [if_pos hf] at h; cases h
  · rw [if_neg hf] at h ⊢
    obtain ⟨l1, l2⟩ := loop_message library opts createNewOpt rfl fresh_consistent hn
    cases hl : optionLoop opts createNewOpt with
    | none =>
      left
      simp only [List.append_nil]
      exact l2 hl
    | some r =>
      obtain ⟨a, done⟩ := r
      right
      rw [hl] at h
      rw [l1 (by rw [hl]; rfl)]
      cases done with
      | true => simp at h
      | false =>
        simp only [Option.bind_eq_bind, Option.bind_some, Bool.false_eq_true, if_false] at h
        exact ⟨a, rfl, (files_message canRead canWrite reason a files).2 h⟩

/-- C94: What comes after the option that is refused plays no part. -/
theorem C94_first (canRead canWrite : Str → Bool) (library reason : Str) (first : Option Str) (pre post : List Option') (x : Option') (files : List Str)
    {a : Args} (hp : optionLoop pre createNewOpt = some (a, false)) (hx : optionLoop [x] a = none) :
    commandlineMessage canRead canWrite library reason first (pre ++ x :: post) files =
      commandlineMessage canRead canWrite library reason first (pre ++ [x]) [] := by
  have key : ∀ (pre : List Option') (a0 : Args) (post : List Option'), optionLoop pre a0 = some (a, false) →
      optionLoopMessage library (pre ++ x :: post) a0 = optionLoopMessage library pre a0 ++ optionLoopMessage library (x :: post) a ∧
      optionLoop (pre ++ x :: post) a0 = optionLoop (x :: post) a := by
    intro pre
    induction pre with
    | nil =>
      intro a0 post h
      simp only [optionLoop, Option.some.injEq, Prod.mk.injEq, and_true] at h
      subst h
      exact ⟨by simp [optionLoopMessage], rfl⟩
    | cons y ys ih =>
      intro a0 post h
      obtain ⟨b, h1, h2⟩ := optionLoop_cons h
      obtain ⟨i1, i2⟩ := ih b post h2
      have hne : y ≠ .help ∧ y ≠ .version ∧ y ≠ .bad := by
        refine ⟨?_, ?_, ?_⟩ <;> (rintro rfl; simp [handleOption] at h1)
      have hm : ∀ rest, optionLoopMessage library (y :: rest) a0 = optionMessage a0 y ++ optionLoopMessage library rest b := by
        intro rest
        have : optionLoopMessage library (y :: rest) a0 = optionMessage a0 y ++ (match handleOption a0 y with
            | none => []
            | some a => optionLoopMessage library rest a) := by
          cases y <;> first | rfl | exact absurd rfl hne.1 | exact absurd rfl hne.2.1 | exact absurd rfl hne.2.2
        rw [this, h1]
      refine ⟨?_, ?_⟩
      · rw [List.cons_append, hm, hm, i1, List.append_assoc]
      · rw [List.cons_append, optionLoop_cons_eq _ h1]; exact i2
  have hone : ∀ post, optionLoopMessage library (x :: post) a = optionLoopMessage library [x] a ∧ optionLoop (x :: post) a = none := by
    intro post
    by_cases h1 : x = .help
    · subst h1; simp [optionLoop] at hx
    by_cases h2 : x = .version
    · subst h2; simp [optionLoop] at hx
    by_cases h3 : x = .bad
    · subst h3; exact ⟨rfl, rfl⟩
    have hh : handleOption a x = none := by
      cases hh : handleOption a x with
      | none => rfl
      | some b => rw [optionLoop_cons_eq [] hh] at hx; simp [optionLoop] at hx
    have hm : ∀ rest, optionLoopMessage library (x :: rest) a = optionMessage a x := by
      intro rest
      have : optionLoopMessage library (x :: rest) a = optionMessage a x ++ (match handleOption a x with
          | none => []
          | some a => optionLoopMessage library rest a) := by
        cases x <;> first | rfl | exact absurd rfl h1 | exact absurd rfl h2 | exact absurd rfl h3
      rw [this, hh, List.append_nil]
    refine ⟨by rw [hm, hm], ?_⟩
    rw [optionLoop_bind post a h1 h2 h3, hh]; rfl
  unfold commandlineMessage
  rw [(key pre createNewOpt post hp).1, (key pre createNewOpt post hp).2, (key pre createNewOpt [] hp).1, (key pre createNewOpt [] hp).2,
    (hone post).1, (hone post).2, (hone []).2]

/-- C94: A refused command line makes the whole program fail with a message; a program that gets beyond it has printed none about it. -/
theorem C94_run (m : Machine) (c : CommandLine) (fuel : Nat) (library reason : Str) (hn : ∀ s, .query s ∈ c.options → 0x0a ∉ s)
    (h : commandlineMessage m.canRead m.canWrite library reason c.first c.options c.files ≠ []) : wholeProgram m c fuel = some (.fail 1) := by
  have := (C94_refused m.canRead m.canWrite library reason c.first c.options c.files hn).1 h
  unfold wholeProgram
  rw [this]

/-- Some messages: about the argument of an option; about the second tag of a query, which is no tag; about a third file; none. -/
example :
    commandlineMessage (fun _ => true) (fun _ => true) [] [] none [.remove, .eol (lit "NEL"), .tabs (lit "99")] [] =
      say "boxes: invalid eol spec -- NEL\n" ∧
    commandlineMessage (fun _ => true) (fun _ => true) [] [] none [.tabs (lit "-3e")] [] = say "boxes: invalid tab stop distance -- -3\n" ∧
    commandlineMessage (fun _ => true) (fun _ => true) [] [] none [.query (lit "a-tag, +x--y, -a-tag")] [] = say "boxes: not a tag -- x--y\n" ∧
    commandlineMessage (fun _ => true) (fun _ => true) [] [] none [.remove] [lit "a", lit "b", lit "c"] =
      say "boxes: illegal parameter -- c\nUsage: boxes [options] [infile [outfile]]\nTry `boxes -h' for more information.\n" ∧
    commandlineMessage (fun _ => true) (fun _ => true) [] [] none [.remove, .tabs (lit "4u")] [lit "a"] = [] := by decide +kernel

/-- The message about the size does not always quote the argument, and the one about the distance of tab stops may show a number that the user did not write. -/
theorem C94_quotes_disagrees :
    commandlineMessage (fun _ => true) (fun _ => true) [] [] none [.size (lit "-1X5")] [] = say "boxes: invalid box size specification -- -1x5\n" ∧
    commandlineMessage (fun _ => true) (fun _ => true) [] [] none [.tabs (lit "4294967290")] [] = say "boxes: invalid tab stop distance -- -6\n" := by
  decide +kernel

end Boxes
